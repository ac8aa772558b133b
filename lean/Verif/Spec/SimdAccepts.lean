import Verif.Model.RustCode

/-!
# What the vectoriser accepts

A call needs an argument, the first branch of an `if` must be a single expression, and a conversion to `fty`, `ity` or `uty` must not be written directly
after a conversion to some other type.
-/

namespace Verif

/-- The types whose conversions are rewritten. -/
def isVectorType (t : Name) : Bool :=
  t = ["fty"] || t = ["ity"] || t = ["uty"] || t = ["Self"] || t = ["Self", "IntType"] || t = ["Self", "UintType"]

/-- Comparisons end up as method calls. -/
def BinOp.maskOp : BinOp → Bool
  | .eq | .lt | .le | .ne | .ge | .gt => true
  | _ => false

/-- Does the text end with a conversion that stays as it is? -/
def RExpr.endsInCast : RExpr → Bool
  | .cast _ ty => !isVectorType ty
  | .unary _ e => e.endsInCast
  | .binary _ op r => !op.maskOp && r.endsInCast
  | .assign _ r => r.endsInCast
  | .assignOp _ _ r => r.endsInCast
  | _ => false

/-- A block that is a single expression. -/
def isSingleExpr : List RStmt → Bool
  | [.expr _] => true
  | _ => false

mutual
def RExpr.simdAccepts : RExpr → Bool
  | .lit _ | .path _ | .verbatim | .other _ => true
  | .unary _ e => e.simdAccepts
  | .paren e => e.simdAccepts
  | .binary l _ r => l.simdAccepts && r.simdAccepts
  | .assign l r => l.simdAccepts && r.simdAccepts
  | .assignOp l _ r => l.simdAccepts && r.simdAccepts
  | .method r _ args => r.simdAccepts && RExpr.simdAcceptsAll args
  | .call f args => f.simdAccepts && RExpr.simdAcceptsAll args && !args.isEmpty
  | .cast e ty => e.simdAccepts && !(isVectorType ty && e.endsInCast)
  | .ifThen c t => c.simdAccepts && RStmt.simdAcceptsAll t && isSingleExpr t
  | .ifElse c t f => c.simdAccepts && RStmt.simdAcceptsAll t && f.simdAccepts && isSingleExpr t
  | .block b => RStmt.simdAcceptsAll b
  | .array es => RExpr.simdAcceptsAll es
  | .tuple es => RExpr.simdAcceptsAll es

def RExpr.simdAcceptsAll : List RExpr → Bool
  | [] => true
  | e :: es => e.simdAccepts && RExpr.simdAcceptsAll es

def RStmt.simdAccepts : RStmt → Bool
  | .decl _ _ => true
  | .letInit _ _ e => e.simdAccepts
  | .expr e => e.simdAccepts
  | .semi e => e.simdAccepts
  | .const _ _ e => e.simdAccepts

def RStmt.simdAcceptsAll : List RStmt → Bool
  | [] => true
  | s :: ss => s.simdAccepts && RStmt.simdAcceptsAll ss
end

end Verif
