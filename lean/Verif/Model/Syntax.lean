import Verif.Model.DecText

/-!
# Expressions (`syn::Expr`, external) as far as `doctor-syn` looks at them

`syn::Expr` has about forty variants.  `visitor.rs:121-133` accepts seven of them; `call` is kept as a separate
unsupported variant because `use_number_type.rs` produces it; every other variant is `other`.
Spans, attributes and turbofish arguments are not modelled.
-/

namespace Verif

/-- `syn::UnOp`. -/
inductive UnOp where
  | deref | not | neg
  deriving DecidableEq, Repr

/-- `syn::BinOp` (the compound assignments only occur in `ExprAssignOp`). -/
inductive BinOp where
  | add | sub | mul | div | rem | and | or | bitXor | bitAnd | bitOr | shl | shr
  | eq | lt | le | ne | ge | gt
  | addEq | subEq | mulEq | divEq | remEq | bitXorEq | bitAndEq | bitOrEq | shlEq | shrEq
  deriving DecidableEq, Repr

/-- `syn::Lit`.  Numeric literals carry the text of `base10_digits()` and the suffix; a float literal made from a
negative `BigDecimal` has a leading `-` in its digits (`expression.rs:81-91`). -/
inductive Lit where
  | int (digits : List Char) (suffix : String)
  | float (digits : List Char) (suffix : String)
  | bool (b : Bool)
  | other (text : String)
  deriving DecidableEq, Repr

/-- `doctor-syn/src/name.rs`: a `Name` wraps a path, here its list of segments. -/
abbrev Name := List String

/-- `syn::Expr`. -/
inductive Expr where
  | unary (op : UnOp) (e : Expr)
  | binary (l : Expr) (op : BinOp) (r : Expr)
  | methodCall (recv : Expr) (method : String) (args : List Expr)
  | paren (e : Expr)
  | lit (l : Lit)
  | path (p : Name)
  | field (base : Expr) (member : String)
  | call (f : Expr) (args : List Expr)
  | other (kind : String)
  deriving Repr, Inhabited

end Verif
