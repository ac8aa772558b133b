import Mathlib.Data.Nat.Notation
import Verif.Spec.RustMeaning
import Verif.Model.Simd

/-!
# Vector programs

A vector is a value per lane.  Operators, comparisons (`lanes_lt` and so on), `select`, `cast::<T>` and the methods of `std::simd` act on each lane alone;
`splat` puts one value into all lanes.  Outside its methods the output defines no function: a free call means nothing, nor does `as`, nor an `if`, on vectors.
-/

namespace Verif

/-- The comparison that a method of `std::simd` makes. -/
def laneCompare (m : String) : Option BinOp :=
  if m = "lanes_eq" then some .eq else if m = "lanes_lt" then some .lt else if m = "lanes_le" then some .le
  else if m = "lanes_ne" then some .ne else if m = "lanes_ge" then some .ge else if m = "lanes_gt" then some .gt else none

/-- The target of a lanewise cast. -/
def laneCast (m : String) : Option String :=
  if m = "cast::<u32>" then some "u32" else if m = "cast::<u64>" then some "u64" else if m = "cast::<i32>" then some "i32"
  else if m = "cast::<i64>" then some "i64" else if m = "cast::<f32>" then some "f32" else if m = "cast::<f64>" then some "f64" else none

/-- Methods that both numbers and vectors have in the Rust library. -/
def laneMethods : List String := ["abs", "recip", "sqrt", "mul_add", "copysign", "to_bits"]

/-- The functions of the library that are called as methods on vectors (`trait StdLibm`). -/
def laneFunctions : List String := ["sin", "cos", "tan", "exp2", "powf", "log2", "ln"]

/-- A method on one lane. -/
def RInterp.laneMethod {α : Type} (I : RInterp α) (m : String) (r : α) (args : List α) : α :=
  if m = "select" then
    match args with
    | [a, b] => if I.test r then a else b
    | _ => I.junk
  else if m ∈ laneFunctions then I.call [m] (r :: args)
  else if m ∈ laneMethods then I.meth m r args
  else match laneCompare m, laneCast m, args with
    | some op, _, [b] => I.bin op r b
    | _, some t, [] => I.cast [t] r
    | _, _, _ => I.junk

/-- A call on one lane. -/
def RInterp.laneCall {α : Type} (I : RInterp α) (p : Name) (args : List α) : α :=
  match args with
  | [a] =>
    if p = ["Self", "splat"] ∨ p = ["Self", "UintType", "splat"] ∨ p = ["Self", "IntType", "splat"] then a
    else if p = ["Self", "from_bits"] then I.call ["fty", "from_bits"] [a] else I.junk
  | _ => I.junk

/-- The operators that vectors have. -/
def laneOp : BinOp → Bool
  | .add | .sub | .mul | .div | .rem | .bitXor | .bitAnd | .bitOr | .shl | .shr => true
  | _ => false

/-- Vectors of `n` lanes over a meaning of numbers. -/
def RInterp.lanes {α : Type} (I : RInterp α) (n : ℕ) : RInterp (Fin n → α) where
  lit l := fun _ => I.lit l
  un op a := fun i => I.un op (a i)
  bin op a b := fun i => if laneOp op then I.bin op (a i) (b i) else I.junk
  meth m r args := fun i => I.laneMethod m (r i) (args.map (· i))
  call p args := fun i => I.laneCall p (args.map (· i))
  cast _ _ := fun _ => I.junk
  tuple _ := fun _ => I.junk
  test _ := false
  junk := fun _ => I.junk

/-- `fty`, `ity` and `uty` stand for the types of the width, and a function of the library is the same called by name or as a method. -/
structure RInterp.Fits {α : Type} (I : RInterp α) (b32 : Bool) : Prop where
  fty : I.cast ["fty"] = I.cast [if b32 then "f32" else "f64"]
  ity : I.cast ["ity"] = I.cast [if b32 then "i32" else "i64"]
  uty : I.cast ["uty"] = I.cast [if b32 then "u32" else "u64"]
  method : ∀ f ∈ laneFunctions, ∀ x args, I.meth f x args = I.call [f] (x :: args)

/-- Calling a method of the output: `self` and the other parameters, nothing else that has a single name. -/
def SimdMethod.apply {α : Type} (I : RInterp α) (globals : Name → α) (m : SimdMethod) (self : α) (args : List α) : α :=
  RStmt.denoteBlock I (bindParams (envSet globals "self" self) m.params args) m.body

/-! ## The names that an expression uses -/

mutual
def RExpr.freeNames : RExpr → List Name
  | .lit _ => []
  | .path p => [p]
  | .unary _ e => e.freeNames
  | .binary l _ r => l.freeNames ++ r.freeNames
  | .method r _ args => r.freeNames ++ RExpr.freeNamesAll args
  | .call _ args => RExpr.freeNamesAll args
  | .paren e => e.freeNames
  | .cast e _ => e.freeNames
  | .ifThen c t => c.freeNames ++ RStmt.freeNames t
  | .ifElse c t f => c.freeNames ++ RStmt.freeNames t ++ f.freeNames
  | .block b => RStmt.freeNames b
  | .assign l r => l.freeNames ++ r.freeNames
  | .assignOp l _ r => l.freeNames ++ r.freeNames
  | .array es => RExpr.freeNamesAll es
  | .tuple es => RExpr.freeNamesAll es
  | .verbatim => []
  | .other _ => []

def RExpr.freeNamesAll : List RExpr → List Name
  | [] => []
  | e :: es => e.freeNames ++ RExpr.freeNamesAll es

def RStmt.freeNames : List RStmt → List Name
  | [] => []
  | .decl _ _ :: rest => RStmt.freeNames rest
  | .letInit n _ e :: rest => e.freeNames ++ (RStmt.freeNames rest).filter (· ≠ [n])
  | .const n _ e :: rest => e.freeNames ++ (RStmt.freeNames rest).filter (· ≠ [n])
  | .semi e :: rest => e.freeNames ++ RStmt.freeNames rest
  | .expr e :: rest => e.freeNames ++ RStmt.freeNames rest
end

/-! ## The programs that can be vectorised -/

/-- Operand of a cast: something that a method can be attached to without parentheses. -/
def RExpr.takesMethod : RExpr → Bool
  | .lit _ | .path _ | .method _ _ _ | .call _ _ | .paren _ | .ifElse _ _ _ | .block _ => true
  | .cast _ ty => ty = ["fty"] || ty = ["ity"] || ty = ["uty"]
  | _ => false

/-- Literals with a vector type: floats, and integers with a suffix. -/
def Lit.splats : Lit → Bool
  | .float _ s => s = "" || s = "f32" || s = "f64"
  | .int _ s => s = "u32" || s = "u64" || s = "i32" || s = "i64"
  | _ => false

mutual
def RExpr.vectorisable : RExpr → Bool
  | .lit l => l.splats
  | .path p => "fty" ∉ p
  | .unary op e => op ≠ .deref && e.vectorisable
  | .binary l op r => (laneOp op || op = .eq || op = .lt || op = .le || op = .ne || op = .ge || op = .gt) && l.vectorisable && r.vectorisable
  | .method r m args => (m ∈ laneMethods || m ∈ laneFunctions) && r.vectorisable && RExpr.vectorisableAll args
  | .call f args => RExpr.vectorisableAll args && (match f, args with
    | .path [g], _ :: _ => g ∈ laneFunctions
    | .path [t, m], [_] => t = "fty" && m = "from_bits"
    | _, _ => false)
  | .paren e => e.vectorisable
  | .cast e ty => (ty = ["fty"] || ty = ["ity"] || ty = ["uty"]) && e.takesMethod && e.vectorisable
  | .ifElse c t f => c.vectorisable && (match t with | [.expr _] => true | _ => false) && RStmt.vectorisableBlock t && f.vectorisable
  | .block b => RStmt.vectorisableBlock b
  | _ => false

def RExpr.vectorisableAll : List RExpr → Bool
  | [] => true
  | e :: es => e.vectorisable && RExpr.vectorisableAll es

/-- `let`s, then an expression. -/
def RStmt.vectorisableBlock : List RStmt → Bool
  | .expr e :: rest => e.vectorisable && rest.isEmpty
  | .letInit n _ e :: rest => n ≠ "fty" && e.vectorisable && RStmt.vectorisableBlock rest
  | _ => false
end

end Verif
