import Verif.Model.Syntax

/-!
# Rust functions (`syn::File`, external) as far as `libmgen` generates them and the code generators look at them

Attributes, visibility, generics and spans are dropped.  Types are paths.  Every `syn` variant not listed is `other`.
-/

namespace Verif

mutual
/-- `syn::Expr`, the variants used in function bodies. -/
inductive RExpr where
  | lit (l : Lit)
  | path (p : Name)
  | unary (op : UnOp) (e : RExpr)
  | binary (l : RExpr) (op : BinOp) (r : RExpr)
  | method (recv : RExpr) (name : String) (args : List RExpr)
  | call (f : RExpr) (args : List RExpr)
  | paren (e : RExpr)
  | cast (e : RExpr) (ty : Name)
  | ifThen (c : RExpr) (t : List RStmt)
  | ifElse (c : RExpr) (t : List RStmt) (f : RExpr)
  | block (b : List RStmt)
  | assign (l r : RExpr)
  | assignOp (l : RExpr) (op : BinOp) (r : RExpr)
  | array (es : List RExpr)
  | tuple (es : List RExpr)
  | verbatim
  | other (kind : String)

/-- `syn::Stmt`: `let`, expression without and with `;`, and `const` items inside a body. -/
inductive RStmt where
  | decl (name : String) (ty : Option Name)
  | letInit (name : String) (ty : Option Name) (e : RExpr)
  | expr (e : RExpr)
  | semi (e : RExpr)
  | const (name : String) (ty : Name) (e : RExpr)
end

instance : Inhabited RExpr := ⟨.other ""⟩

/-- `syn::Type` of a result: a path or a tuple of paths. -/
inductive RTy where
  | path (n : Name)
  | tuple (ns : List Name)
  deriving DecidableEq, Repr

/-- `syn::ItemFn`: name, typed parameters, result type (`none` for no `->`), body. -/
structure RFn where
  name : String
  params : List (String × Name)
  ret : Option RTy
  body : List RStmt

/-- `syn::Item`. -/
inductive RItem where
  | const (name : String) (ty : Name) (e : RExpr)
  | type (name : String) (ty : Name)
  | fn (f : RFn)
  | other (kind : String)

mutual
/-- An `Expr` of the symbolic part as program text. -/
def Expr.toR : Expr → RExpr
  | .unary op e => .unary op e.toR
  | .binary l op r => .binary l.toR op r.toR
  | .methodCall r m args => .method r.toR m (Expr.toRArgs args)
  | .paren e => .paren e.toR
  | .lit l => .lit l
  | .path p => .path p
  | .field _ _ => .other "field"
  | .call f args => .call f.toR (Expr.toRArgs args)
  | .other k => .other k

def Expr.toRArgs : List Expr → List RExpr
  | [] => []
  | a :: as => a.toR :: Expr.toRArgs as
end

/-! Shorthand for writing programs down. -/
namespace RExpr

instance : Add RExpr := ⟨fun a b => .binary a .add b⟩
instance : Sub RExpr := ⟨fun a b => .binary a .sub b⟩
instance : Mul RExpr := ⟨fun a b => .binary a .mul b⟩
instance : Div RExpr := ⟨fun a b => .binary a .div b⟩
instance : Neg RExpr := ⟨fun a => .unary .neg a⟩

/-- An identifier. -/
def v (s : String) : RExpr := .path [s]
/-- A float literal without suffix. -/
def num (s : String) : RExpr := .lit (.float s.toList "")
/-- An integer literal without suffix. -/
def int (s : String) : RExpr := .lit (.int s.toList "")
/-- `f(args)`. -/
def app (f : String) (args : List RExpr) : RExpr := .call (.path [f]) args
/-- `fty::from_bits(e)`. -/
def fromBits (e : RExpr) : RExpr := .call (.path ["fty", "from_bits"]) [e]
/-- `e as ty`. -/
def as (e : RExpr) (ty : String) : RExpr := .cast e [ty]
/-- `if c { a } else { b }`. -/
def cond (c a b : RExpr) : RExpr := .ifElse c [.expr a] (.block [.expr b])
def lt (a b : RExpr) : RExpr := .binary a .lt b
def le (a b : RExpr) : RExpr := .binary a .le b
def gt (a b : RExpr) : RExpr := .binary a .gt b
def ge (a b : RExpr) : RExpr := .binary a .ge b

end RExpr

/-- `let name : ty = e;`. -/
def RStmt.letT (name ty : String) (e : RExpr) : RStmt := .letInit name (some [ty]) e

/-- `let name = e;`. -/
def RStmt.letU (name : String) (e : RExpr) : RStmt := .letInit name none e

/-- `pub fn name(params…: fty) -> fty { body }`. -/
def RFn.ofFty (name : String) (params : List String) (body : List RStmt) : RFn :=
  ⟨name, params.map (fun p => (p, ["fty"])), some (.path ["fty"]), body⟩

end Verif
