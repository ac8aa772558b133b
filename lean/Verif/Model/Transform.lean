import Verif.Model.Syntax

/-!
# The visitor and the transformations built on it

`doctor-syn/src/visitor.rs`, `variablelist.rs`, `transformation/{tools,subst,collect,paren,expand,use_number_type}.rs`.
-/

namespace Verif

/-! ## Variable lists (`doctor-syn/src/variablelist.rs`) -/

/-- `variablelist.rs:4-6`. -/
structure VariableList where
  inner : List (Name × Expr)

namespace VariableList

/-- `variablelist.rs:17-19`. -/
def new : VariableList := ⟨[]⟩

/-- `variablelist.rs:21-25`: push at the end, return the old length. -/
def addVar (v : VariableList) (name : Name) (value : Expr) : VariableList × Nat :=
  (⟨v.inner ++ [(name, value)]⟩, v.inner.length)

/-- `variablelist.rs:27-33`: first pair whose name matches. -/
def find (v : VariableList) (name : Name) : Option Expr :=
  match v.inner.find? (fun p => p.1 == name) with
  | some (_, e) => some e
  | none => none

end VariableList

/-! ## The visitor (`doctor-syn/src/visitor.rs:14-134`) -/

/-- The methods of the trait that some transformation overrides.  An overriding `unary`/`binary` does not call back
into the visitor (true of `Expand`, the only such override besides `Eval`, which is modelled on its own).
`post` models an override of `visit_expr` that post-processes the result of `visit_expr_core` (`Paren`). -/
structure Visitor where
  unary? : Option (UnOp → Expr → Res Expr) := none
  binary? : Option (Expr → BinOp → Expr → Res Expr) := none
  lit : Lit → Res Expr := fun l => .ok (.lit l)
  path : Name → Res Expr := fun p => .ok (.path p)
  post : Expr → Expr := id

mutual
/-- `visit_expr` (visitor.rs:110-119) around `visit_expr_core` (121-133) with the default methods
`visit_method_call` 15-32, `visit_field` 45-54, `visit_paren` 57-65, `visit_binary` 87-97, `visit_unary` 99-107. -/
def Visitor.visit (v : Visitor) : Expr → Res Expr
  | .unary op e => do
    let r ← match v.unary? with
      | some f => f op e
      | none => do
        let e' ← v.visit e
        pure (.unary op e')
    pure (v.post r)
  | .binary l op r => do
    let x ← match v.binary? with
      | some f => f l op r
      | none => do
        let l' ← v.visit l
        let r' ← v.visit r
        pure (.binary l' op r')
    pure (v.post x)
  | .methodCall recv m args => do
    let recv' ← v.visit recv
    let args' ← v.visitArgs args
    pure (v.post (.methodCall recv' m args'))
  | .paren e => do
    let e' ← v.visit e
    pure (v.post (.paren e'))
  | .lit l => do
    let r ← v.lit l
    pure (v.post r)
  | .path p => do
    let r ← v.path p
    pure (v.post r)
  | .field b m => do
    let b' ← v.visit b
    pure (v.post (.field b' m))
  | .call _ _ => .err .unsupportedExpr
  | .other _ => .err .unsupportedExpr

/-- visitor.rs:17-21: arguments left to right, stopping at the first error. -/
def Visitor.visitArgs (v : Visitor) : List Expr → Res (List Expr)
  | [] => pure []
  | a :: as => do
    let a' ← v.visit a
    let as' ← v.visitArgs as
    pure (a' :: as')
end

/-! ## Substitution, collection -/

/-- `transformation/subst.rs:11-24`. -/
def substVisitor (vars : VariableList) : Visitor where
  path := fun p => match vars.find p with
    | some res => .ok res
    | none => .ok (.path p)

/-- `Expression::subst`, `expression.rs:342-344`. -/
def subst (e : Expr) (vars : VariableList) : Res Expr := (substVisitor vars).visit e

/-- `transformation/collect.rs:9-15`: no method is overridden. -/
def collectVisitor : Visitor := {}

/-- `Expression::collect_terms`, `expression.rs:423-425`; the variable is never looked at. -/
def collectTerms (e : Expr) (_variable : Name) : Res Expr := collectVisitor.visit e

/-! ## Tools (`transformation/tools.rs`) -/

/-- `tools.rs:6-20`. -/
def negate : Expr → Expr
  | .unary .neg e => e
  | e => .unary .neg e

/-- `tools.rs:23-28`. -/
def deparen : Expr → Expr
  | .paren e => e
  | e => e

/-- `tools.rs:59-66`. -/
def isNegated : Expr → Bool
  | .unary .neg _ => true
  | _ => false

/-- `tools.rs:75-82`. -/
def makeParen (e : Expr) : Expr := .paren e

/-- `tools.rs:84-92`. -/
def makeBinary (l : Expr) (op : BinOp) (r : Expr) : Expr := .binary l op r

/-- `tools.rs:94-101`. -/
def makeUnary (op : UnOp) (e : Expr) : Expr := .unary op e

/-- One step of `make_sum` (`tools.rs:36-55`): append `right` to the sum built so far. -/
def sumStep (left right : Expr) : Expr :=
  if isNegated right then .binary left .sub (negate right) else .binary left .add right

/-- `tools.rs:31-57`, on the reversed slice: `sum[sum.len() - 1]` panics on an empty slice. -/
def makeSumRev : List Expr → Res Expr
  | [] => .panic
  | [e] => .ok e
  | right :: rest => do
    let left ← makeSumRev rest
    pure (sumStep left right)

/-- `tools.rs:31-57`. -/
def makeSum (sum : List Expr) : Res Expr := makeSumRev sum.reverse

/-! ## Paren (`transformation/paren.rs`) -/

/-- `paren.rs:9-15`. -/
def parenthesiseOp : Expr → Expr
  | .binary l op r => makeParen (.binary l op r)
  | .unary op e => makeParen (.unary op e)
  | e => e

/-- `paren.rs:20-34`. -/
def parenPost : Expr → Expr
  | .binary l op r => makeBinary (parenthesiseOp l) op (parenthesiseOp r)
  | .unary op e => makeUnary op (parenthesiseOp e)
  | e => e

/-- `paren.rs:17-36`. -/
def parenVisitor : Visitor := { post := parenPost }

/-- `Expression::paren`, `expression.rs:438-440`. -/
def paren (e : Expr) : Res Expr := parenVisitor.visit e

/-! ## Expand (`transformation/expand.rs`) -/

/-- `expand.rs:11-49`.  The Rust function appends to `sum`; here the list of appended terms is returned
(`match_sum(e, sum, n)` is `sum ++ matchSum n e`), and it never returns an error.  `deparen` on line 12 strips one
parenthesis before the match: `strip` says that it has not been applied yet. -/
def matchSumAux (strip : Bool) (n : Bool) : Expr → List Expr
  | .paren e =>
    if strip then matchSumAux false n e
    else if n then [negate (.paren e)] else [.paren e]
  | .binary l .add r => matchSumAux true n l ++ matchSumAux true n r
  | .binary l .sub r => matchSumAux true n l ++ matchSumAux true (!n) r
  | .binary l .mul r =>
    (matchSumAux true n l).flatMap fun lhs =>
      (matchSumAux true false r).map fun rhs => makeBinary lhs .mul rhs
  | e => if n then [negate e] else [e]

/-- `expand.rs:11-49`, `match_sum(expr, sum, is_negated)`. -/
def matchSum (isNegated : Bool) (e : Expr) : List Expr := matchSumAux true isNegated e

/-- `expand.rs:52-62`. -/
def expandUnary (op : UnOp) (e : Expr) : Res Expr :=
  match op with
  | .deref => .err .unsupportedExpr
  | .not => .err .unsupportedExpr
  | .neg => makeSum (matchSum true (deparen e))

/-- `expand.rs:64-69`. -/
def expandBinary (l : Expr) (op : BinOp) (r : Expr) : Res Expr :=
  makeSum (matchSum false (.binary l op r))

/-- `expand.rs:51-70`. -/
def expandVisitor : Visitor := { unary? := some expandUnary, binary? := some expandBinary }

/-- `Expression::expand`, `expression.rs:410-412`. -/
def expand (e : Expr) : Res Expr := expandVisitor.visit e

/-! ## Number types (`transformation/use_number_type.rs`) -/

/-- External float conversions used by `use_number_type.rs`: `BigDecimal::to_f32/to_f64` as bit patterns (with `None`
for failure) and the tokens of a float value, `parse_quote!(#float)` (which panics on non-finite values). -/
structure FloatExt where
  toF32 : Dec → Option Nat
  toF64 : Dec → Option Nat
  litF32 : Nat → Res Expr
  litF64 : Nat → Res Expr

/-- `parse_quote!(f32::from_bits(#bits))` with `bits : u32` or `u64`. -/
def fromBits32Call (bits : Nat) (suffix : String) : Expr :=
  .call (.path ["f32", "from_bits"]) [.lit (.int (natText bits) suffix)]

/-- `use_number_type.rs:16-30` (float) and `31-46` (int): the same code for both kinds of literal. -/
def numberTypeLit (ext : FloatExt) (numberType : String) (numBits : Nat) (l : Lit) (digits : List Char) : Res Expr := do
  let bd ← Res.unwrapOpt (parseDec digits)
  let bits32 ← Res.unwrapOpt (ext.toF32 bd)
  let bits64 ← Res.unwrapOpt (ext.toF64 bd)
  if numberType = "decimal" ∧ numBits = 32 then ext.litF32 bits32
  else if numberType = "decimal" ∧ numBits = 64 then ext.litF64 bits64
  else if numberType = "hex" ∧ numBits = 32 then pure (fromBits32Call bits32 "u32")
  else if numberType = "hex" ∧ numBits = 64 then pure (fromBits32Call bits64 "u64")
  else pure (.lit l)

/-- `use_number_type.rs:12-48`. -/
def useNumberTypeVisitor (ext : FloatExt) (numberType : String) (numBits : Nat) : Visitor where
  lit := fun l => match l with
    | .float ds _ => numberTypeLit ext numberType numBits l ds
    | .int ds _ => numberTypeLit ext numberType numBits l ds
    | _ => .ok (.lit l)

/-- `Expression::use_number_type`, `expression.rs:443-450`. -/
def useNumberType (ext : FloatExt) (e : Expr) (numberType : String) (numBits : Nat) : Res Expr :=
  (useNumberTypeVisitor ext numberType numBits).visit e

end Verif
