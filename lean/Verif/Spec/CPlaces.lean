import Verif.Spec.CTokens

/-!
# The places of C text where an expression stands

The generator writes a block as a statement expression and `fty::from_bits(e)` as a statement expression around `e`.  Both are one word of the text around
them (`Spec/CTokens.lean`); the expressions inside are read on their own.
-/

namespace Verif

mutual
/-- The expressions that are read on their own inside the C text of an expression. -/
def RExpr.cParts : RExpr → List RExpr
  | .lit _ | .path _ | .verbatim | .other _ | .tuple _ => []
  | .unary _ e => e.cParts
  | .binary l _ r => l.cParts ++ r.cParts
  | .method r _ args => r.cParts ++ RExpr.cPartsAll args
  | .call (.path p) args => if isFromBits p then args ++ RExpr.cPartsAll args else RExpr.cPartsAll args
  | .call f args => f.cParts ++ RExpr.cPartsAll args
  | .paren e => e.cParts
  | .cast e _ => e.cParts
  | .assign l r => l.cParts ++ r.cParts
  | .assignOp l _ r => l.cParts ++ r.cParts
  | .ifThen c t => c.cParts ++ RStmt.cParts t
  | .ifElse c t f => c.cParts ++ RStmt.cParts t ++ f.cParts
  | .block b => RStmt.cParts b
  | .array es => RExpr.cPartsAll es

def RExpr.cPartsAll : List RExpr → List RExpr
  | [] => []
  | e :: es => e.cParts ++ RExpr.cPartsAll es

/-- The expressions of statements, and those inside them. -/
def RStmt.cParts : List RStmt → List RExpr
  | [] => []
  | .decl _ _ :: rest => RStmt.cParts rest
  | .letInit _ _ e :: rest => e :: (e.cParts ++ RStmt.cParts rest)
  | .expr e :: rest => e :: (e.cParts ++ RStmt.cParts rest)
  | .semi e :: rest => e :: (e.cParts ++ RStmt.cParts rest)
  | .const _ _ e :: rest => e :: (e.cParts ++ RStmt.cParts rest)
end

/-- The expressions of an item. -/
def RItem.cPlaces : RItem → List RExpr
  | .const _ _ e => e :: e.cParts
  | .fn f => RStmt.cParts f.body
  | .type _ _ | .other _ => []

/-- C reads the expression as the tree meant. -/
def RExpr.CReadsRight (o : COptions) (e : RExpr) : Prop := e.cShape = true ∧ cLang.Reads ((e.cTree o).print cLang) (e.cTree o)

end Verif
