import Verif.Model.RustCode

/-!
# Rust's typing rules for the programs of `Verif.Model.RustCode`

A literal without suffix has type `{float}` or `{integer}` until an operator, a parameter or a declaration fixes it; a method cannot be called
on it before that (error E0689).  Numbers of different types never mix without a cast.
-/

namespace Verif

/-- Types of expressions. -/
inductive Ty where
  | f32 | f64 | i32 | i64 | u32 | u64 | usize | bool
  | anyFloat | anyInt
  | pair (a b : Ty)
  deriving DecidableEq, Repr

namespace Ty

def isFloat : Ty → Bool
  | f32 | f64 | anyFloat => true
  | _ => false

def isInt : Ty → Bool
  | i32 | i64 | u32 | u64 | usize | anyInt => true
  | _ => false

/-- Are operands of these two types accepted by an arithmetic operator (or a declared and an actual type compatible), and as which type? -/
def meet (a b : Ty) : Option Ty :=
  if a = b then some a
  else if a = anyFloat ∧ b.isFloat then some b
  else if b = anyFloat ∧ a.isFloat then some a
  else if a = anyInt ∧ b.isInt then some b
  else if b = anyInt ∧ a.isInt then some a
  else none

end Ty

/-- What a type name stands for at a width. -/
def tyOf (b32 : Bool) : Name → Option Ty
  | ["fty"] => some (if b32 then .f32 else .f64)
  | ["ity"] => some (if b32 then .i32 else .i64)
  | ["uty"] => some (if b32 then .u32 else .u64)
  | ["f32"] => some .f32
  | ["f64"] => some .f64
  | ["i32"] => some .i32
  | ["i64"] => some .i64
  | ["u32"] => some .u32
  | ["u64"] => some .u64
  | ["usize"] => some .usize
  | ["bool"] => some .bool
  | _ => none

/-- Signatures of functions. -/
abbrev Sigs := List (String × List Ty × Ty)

/-- The type of a literal. -/
def litTy (b32 : Bool) : Lit → Option Ty
  | .float _ "" => some .anyFloat
  | .int _ "" => some .anyInt
  | .float _ s => (tyOf b32 [s]).filter Ty.isFloat
  | .int _ s => tyOf b32 [s]
  | .bool _ => some .bool
  | .other _ => none

/-- Arguments against parameters. -/
def argsOk : List Ty → List Ty → Bool
  | [], [] => true
  | p :: ps, a :: as => (p.meet a).isSome && argsOk ps as
  | _, _ => false

/-- A method on a receiver of known type. -/
def methTy (m : String) (r : Ty) (args : List Ty) : Option Ty :=
  if r = .anyFloat ∨ r = .anyInt then none
  else if r.isFloat then
    if m = "abs" ∨ m = "sqrt" ∨ m = "recip" ∨ m = "ln" then (if args = [] then some r else none)
    else if m = "copysign" then (if argsOk [r] args then some r else none)
    else if m = "mul_add" then (if argsOk [r, r] args then some r else none)
    else if m = "to_bits" then (if args = [] then some (if r = .f32 then .u32 else .u64) else none)
    else none
  else if r.isInt then
    if m = "wrapping_mul" then (if argsOk [r] args then some r else none) else none
  else none

/-- A binary operator. -/
def binTy (op : BinOp) (a b : Ty) : Option Ty :=
  match op with
  | .add | .sub | .mul | .div | .rem => if a.isFloat || a.isInt then a.meet b else none
  | .bitAnd | .bitOr | .bitXor => if a.isInt then a.meet b else none
  | .shl | .shr => if a.isInt && b.isInt then some a else none
  | .lt | .le | .gt | .ge | .eq | .ne => if (a.meet b).isSome then some .bool else none
  | .and | .or => if a = .bool ∧ b = .bool then some .bool else none
  | _ => none

mutual
/-- The type of an expression; `none` is a type error. -/
def RExpr.ty (b32 : Bool) (sigs : Sigs) (env : List (String × Ty)) : RExpr → Option Ty
  | .lit l => litTy b32 l
  | .path [s] => env.lookup s
  | .path [t, c] => if c = "MIN_POSITIVE" ∨ c = "NAN" ∨ c = "INFINITY" then (tyOf b32 [t]).filter Ty.isFloat else none
  | .path _ => none
  | .unary op e => do
    let t ← e.ty b32 sigs env
    match op with
    | .neg => if t.isFloat || t.isInt then some t else none
    | .not => if t = .bool || t.isInt then some t else none
    | .deref => none
  | .binary l op r => do
    let a ← l.ty b32 sigs env
    let b ← r.ty b32 sigs env
    binTy op a b
  | .method r m args => do
    let t ← r.ty b32 sigs env
    let ts ← RExpr.tyArgs b32 sigs env args
    methTy m t ts
  | .call f args => do
    let ts ← RExpr.tyArgs b32 sigs env args
    match f with
    | .path [g] => do
      let (ps, r) ← sigs.lookup g
      if argsOk ps ts then some r else none
    | .path [t, "from_bits"] => do
      let t ← tyOf b32 [t]
      if (t = .f32 ∧ argsOk [.u32] ts) ∨ (t = .f64 ∧ argsOk [.u64] ts) then some t else none
    | _ => none
  | .paren e => e.ty b32 sigs env
  | .cast e n => do
    let t ← e.ty b32 sigs env
    let u ← tyOf b32 n
    if (t.isFloat || t.isInt) && (u.isFloat || u.isInt) then some u else none
  | .ifElse c t f => do
    let tc ← c.ty b32 sigs env
    let a ← RStmt.tyBlock b32 sigs env t
    let b ← f.ty b32 sigs env
    if tc = .bool then a.meet b else none
  | .block b => RStmt.tyBlock b32 sigs env b
  | .tuple es => do
    match ← RExpr.tyArgs b32 sigs env es with
    | [a, b] => some (.pair a b)
    | _ => none
  | .ifThen _ _ => none
  | .assign _ _ => none
  | .assignOp _ _ _ => none
  | .array _ => none
  | .verbatim => none
  | .other _ => none

def RExpr.tyArgs (b32 : Bool) (sigs : Sigs) (env : List (String × Ty)) : List RExpr → Option (List Ty)
  | [] => some []
  | a :: as => do
    let t ← a.ty b32 sigs env
    let ts ← RExpr.tyArgs b32 sigs env as
    some (t :: ts)

/-- A block has the type of its last expression. -/
def RStmt.tyBlock (b32 : Bool) (sigs : Sigs) (env : List (String × Ty)) : List RStmt → Option Ty
  | [] => none
  | .decl _ _ :: _ => none
  | .semi _ :: _ => none
  | .letInit n none e :: rest => do
    let t ← e.ty b32 sigs env
    RStmt.tyBlock b32 sigs ((n, t) :: env) rest
  | .letInit n (some d) e :: rest => do
    let t ← e.ty b32 sigs env
    let d ← tyOf b32 d
    let t ← d.meet t
    RStmt.tyBlock b32 sigs ((n, t) :: env) rest
  | .const n d e :: rest => do
    let t ← e.ty b32 sigs env
    let d ← tyOf b32 d
    let t ← d.meet t
    RStmt.tyBlock b32 sigs ((n, t) :: env) rest
  | .expr e :: rest => match rest with
    | [] => e.ty b32 sigs env
    | _ => none
end

/-- A result type. -/
def retTy (b32 : Bool) : Option RTy → Option Ty
  | some (.path n) => tyOf b32 n
  | some (.tuple [a, b]) => do
    let a ← tyOf b32 a
    let b ← tyOf b32 b
    some (.pair a b)
  | _ => none

/-- The types of the parameters. -/
def paramTys (b32 : Bool) : List (String × Name) → Option (List (String × Ty))
  | [] => some []
  | p :: ps => do
    let t ← tyOf b32 p.2
    let ts ← paramTys b32 ps
    some ((p.1, t) :: ts)

/-- Declared types of the constants of a program. -/
def constEnv (b32 : Bool) : List RItem → List (String × Ty)
  | [] => []
  | .const n d _ :: rest => match tyOf b32 d with
    | some t => (n, t) :: constEnv b32 rest
    | none => constEnv b32 rest
  | _ :: rest => constEnv b32 rest

/-- Declared signatures of the functions of a program. -/
def fnSigs (b32 : Bool) : List RItem → Sigs
  | [] => []
  | .fn f :: rest => match paramTys b32 f.params, retTy b32 f.ret with
    | some ps, some r => (f.name, ps.map (·.2), r) :: fnSigs b32 rest
    | _, _ => fnSigs b32 rest
  | _ :: rest => fnSigs b32 rest

/-- An item is well typed against the constants and signatures of its program. -/
def RItem.wellTyped (b32 : Bool) (sigs : Sigs) (consts : List (String × Ty)) : RItem → Bool
  | .const _ d e => ((do (← tyOf b32 d).meet (← e.ty b32 sigs consts)) : Option Ty).isSome
  | .type _ n => (tyOf b32 n).isSome
  | .fn f => ((do
      let ps ← paramTys b32 f.params
      (← retTy b32 f.ret).meet (← RStmt.tyBlock b32 sigs (ps.reverse ++ consts) f.body)) : Option Ty).isSome
  | .other _ => false

end Verif
