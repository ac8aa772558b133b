import Verif.Spec.RustTypes
import Verif.Spec.Lanes

/-!
# Typing rules for the vectorised code

Vectors of floats (`Self`), of integers (`Self::IntType`), of unsigned integers (`Self::UintType`) and masks.  Numbers appear only under `splat`.
There are no free functions, no `as`, no `if` on vectors; a `const` inside a method cannot mention `Self`.
-/

namespace Verif

inductive VTy where
  | float | int | uint | mask
  deriving DecidableEq, Repr

/-- The element type of a vector. -/
def VTy.elem (b32 : Bool) : VTy → Ty
  | .float => if b32 then .f32 else .f64
  | .int => if b32 then .i32 else .i64
  | .uint => if b32 then .u32 else .u64
  | .mask => .bool

/-- The type of what is splatted. -/
def splatArgTy (b32 : Bool) : RExpr → Option Ty
  | .lit l => litTy b32 l
  | .path [t, c] => if c = "MIN_POSITIVE" ∨ c = "NAN" ∨ c = "INFINITY" then (tyOf b32 [t]).filter Ty.isFloat else none
  | _ => none

/-- The vector type that a function `splat` makes. -/
def splatTy : Name → Option VTy
  | ["Self", "splat"] => some .float
  | ["Self", "IntType", "splat"] => some .int
  | ["Self", "UintType", "splat"] => some .uint
  | _ => none

def VTy.isNumber : VTy → Bool
  | .mask => false
  | _ => true

/-- The result of a lanewise cast. -/
def castVTy (b32 : Bool) (t : String) : Option VTy :=
  if t = (if b32 then "f32" else "f64") then some .float else if t = (if b32 then "i32" else "i64") then some .int
  else if t = (if b32 then "u32" else "u64") then some .uint else none

/-- A method on a vector. -/
def methVTy (b32 : Bool) (m : String) (r : VTy) (args : List VTy) : Option VTy :=
  if m = "select" then
    match args with
    | [a, b] => if r = .mask ∧ a = b then some a else none
    | _ => none
  else if m = "abs" then (if (r = .float ∨ r = .int) ∧ args = [] then some r else none)
  else if m = "recip" ∨ m = "sqrt" then (if r = .float ∧ args = [] then some r else none)
  else if m = "copysign" ∨ m = "powf" then (if r = .float ∧ args = [.float] then some r else none)
  else if m = "mul_add" then (if r = .float ∧ args = [.float, .float] then some r else none)
  else if m = "to_bits" then (if r = .float ∧ args = [] then some .uint else none)
  else if m ∈ laneFunctions then (if r = .float ∧ args = [] then some r else none)
  else match laneCompare m, laneCast m, args with
    | some _, _, [a] => if r.isNumber ∧ a = r then some .mask else none
    | _, some t, [] => if r.isNumber then castVTy b32 t else none
    | _, _, _ => none

/-- An operator on vectors. -/
def binVTy (op : BinOp) (a b : VTy) : Option VTy :=
  match op with
  | .add | .sub | .mul | .div | .rem => if a.isNumber ∧ a = b then some a else none
  | .bitAnd | .bitOr | .bitXor => if a ≠ .float ∧ a = b then some a else none
  | .shl | .shr => if (a = .int ∨ a = .uint) ∧ a = b then some a else none
  | _ => none

def unVTy (op : UnOp) (a : VTy) : Option VTy :=
  match op with
  | .neg => if a = .float ∨ a = .int then some a else none
  | .not => if a ≠ .float then some a else none
  | .deref => none

mutual
/-- The type of a vector expression; `none` is a type error. -/
def RExpr.vty (b32 : Bool) (env : List (String × VTy)) : RExpr → Option VTy
  | .path [s] => env.lookup s
  | .unary op e => do unVTy op (← e.vty b32 env)
  | .binary l op r => do
    let a ← l.vty b32 env
    let b ← r.vty b32 env
    binVTy op a b
  | .method r m args => do
    let t ← r.vty b32 env
    let ts ← RExpr.vtyArgs b32 env args
    methVTy b32 m t ts
  | .call f args => match f, args with
    | .path p, [a] =>
      match splatTy p with
      | some v => do
        let t ← splatArgTy b32 a
        if ((v.elem b32).meet t).isSome then some v else none
      | none => do
        let t ← a.vty b32 env
        if p = ["Self", "from_bits"] ∧ t = .uint then some .float else none
    | _, _ => none
  | .paren e => e.vty b32 env
  | .block b => RStmt.vtyBlock b32 env b
  | _ => none

def RExpr.vtyArgs (b32 : Bool) (env : List (String × VTy)) : List RExpr → Option (List VTy)
  | [] => some []
  | a :: as => do
    let t ← a.vty b32 env
    let ts ← RExpr.vtyArgs b32 env as
    some (t :: ts)

def RStmt.vtyBlock (b32 : Bool) (env : List (String × VTy)) : List RStmt → Option VTy
  | .letInit n none e :: rest => do
    let t ← e.vty b32 env
    RStmt.vtyBlock b32 ((n, t) :: env) rest
  | .expr e :: rest => if rest.isEmpty then e.vty b32 env else none
  | _ => none
end

/-- The type of a parameter. -/
def paramVTy : Name → Option VTy
  | ["Self"] => some .float
  | ["Self", "IntType"] => some .int
  | ["Self", "UintType"] => some .uint
  | _ => none

def paramVTys : List (String × Name) → Option (List (String × VTy))
  | [] => some []
  | p :: ps => do
    let t ← paramVTy p.2
    let ts ← paramVTys ps
    some ((p.1, t) :: ts)

/-- A method is well typed: its result is `Self`. -/
def SimdMethod.wellTyped (b32 : Bool) (m : SimdMethod) : Bool :=
  match paramVTys m.params with
  | some ps => RStmt.vtyBlock b32 (ps.reverse ++ [("self", .float)]) m.body = some .float
  | none => false

end Verif
