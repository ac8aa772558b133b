import Verif.Model.CCode

/-!
# The C text of a program, as a function of the program alone
-/

namespace Verif

/-- The text of `n` or of `T n`. -/
def cPat (n : String) : Option Name → String
  | none => n
  | some t => cType t ++ " " ++ n

mutual
/-- The text of an expression. -/
def RExpr.cText (o : COptions) : RExpr → String
  | .lit l => cLit l
  | .path p => cPath p
  | .unary op e => cUnOp op ++ e.cText o
  | .binary l op r => l.cText o ++ " " ++ cBinOp op ++ " " ++ r.cText o
  | .method r m args =>
    if m = "round" then "round" ++ o.floatSuffix ++ "(" ++ ", ".intercalate (r.cText o :: RExpr.cTexts o args) ++ ")"
    else if m = "mul_add" then
      match RExpr.cTexts o args with
      | b :: c :: _ => "((" ++ r.cText o ++ "\n) * (" ++ b ++ ") + (" ++ c ++ "))"
      | _ => ""
    else m ++ "(" ++ ", ".intercalate (r.cText o :: RExpr.cTexts o args) ++ ")"
  | .call f args =>
    if f.cText o = "fty_from_bits" then "({ union { fty f; uty u; } u; u.u = (" ++ ", ".intercalate (RExpr.cTexts o args) ++ "); u.f; })"
    else o.pre ++ f.cText o ++ "(" ++ ", ".intercalate (RExpr.cTexts o args) ++ ")"
  | .paren e => "(" ++ e.cText o ++ ")"
  | .cast e t => "(" ++ cType t ++ ")" ++ e.cText o
  | .ifThen _ _ => "<<if requires an else>>"
  | .ifElse c t f => "(" ++ c.cText o ++ ") ? (" ++ ("{\n" ++ ";\n".intercalate (RStmt.cTexts o t) ++ "\n}") ++ ") : (" ++ f.cText o ++ ")"
  | .block b => "(" ++ ("{\n" ++ ";\n".intercalate (RStmt.cTexts o b) ++ "\n}") ++ ")"
  | .assign l r => l.cText o ++ " = " ++ r.cText o
  | .assignOp l op r => l.cText o ++ " " ++ cBinOp op ++ " " ++ r.cText o
  | .array es => ", ".intercalate (RExpr.cTexts o es)
  | .tuple _ => "<<expr_tuple>>"
  | .verbatim => ""
  | .other k => if k = "break" then "break;" else "<<expr_" ++ k ++ ">>"

def RExpr.cTexts (o : COptions) : List RExpr → List String
  | [] => []
  | e :: es => e.cText o :: RExpr.cTexts o es

/-- The text of a statement, without the `;` that joins it to the next. -/
def RStmt.cText (o : COptions) : RStmt → String
  | .expr e => e.cText o ++ ";"
  | .semi e => e.cText o
  | .decl n t => cPat n t
  | .letInit n t e => cPat n t ++ " = " ++ e.cText o
  | .const n t e => "const " ++ cType t ++ " " ++ n ++ " = " ++ e.cText o ++ ";"

def RStmt.cTexts (o : COptions) : List RStmt → List String
  | [] => []
  | s :: ss => s.cText o :: RStmt.cTexts o ss
end

/-- The text of a block. -/
def cBlock (o : COptions) (b : List RStmt) : String := "{\n" ++ ";\n".intercalate (RStmt.cTexts o b) ++ "\n}"

/-- The text of a result type. -/
def cReturn : Option RTy → String
  | none => "void"
  | some (.path p) => cType p
  | some (.tuple _) => "<<type_tuple>>"

/-- The text of an item. -/
def RItem.cText (o : COptions) : RItem → String
  | .const n t e => "const " ++ cType t ++ " " ++ n ++ " = " ++ e.cText o ++ ";"
  | .type n t => "typedef " ++ cType t ++ " " ++ n ++ ";"
  | .fn f => cReturn f.ret ++ " " ++ (o.pre ++ f.name) ++ "(" ++ ", ".intercalate (f.params.map fun p => cType p.2 ++ " " ++ p.1) ++ ")" ++
      " { return (" ++ cBlock o f.body ++ "); }"
  | .other k => "<<item_" ++ k ++ ">>"

mutual
/-- No unparsed tokens, and `mul_add` always with two arguments. -/
def RExpr.plain : RExpr → Bool
  | .lit _ => true
  | .path _ => true
  | .unary _ e => e.plain
  | .binary l _ r => l.plain && r.plain
  | .method r m args => r.plain && RExpr.plainAll args && (m != "mul_add" || 2 ≤ args.length)
  | .call f args => f.plain && RExpr.plainAll args
  | .paren e => e.plain
  | .cast e _ => e.plain
  | .ifThen c t => c.plain && RStmt.plainAll t
  | .ifElse c t f => c.plain && RStmt.plainAll t && f.plain
  | .block b => RStmt.plainAll b
  | .assign l r => l.plain && r.plain
  | .assignOp l _ r => l.plain && r.plain
  | .array es => RExpr.plainAll es
  | .tuple _ => true
  | .verbatim => false
  | .other _ => true

def RExpr.plainAll : List RExpr → Bool
  | [] => true
  | e :: es => e.plain && RExpr.plainAll es

def RStmt.plain : RStmt → Bool
  | .expr e => e.plain
  | .semi e => e.plain
  | .decl _ _ => true
  | .letInit _ _ e => e.plain
  | .const _ _ e => e.plain

def RStmt.plainAll : List RStmt → Bool
  | [] => true
  | s :: ss => s.plain && RStmt.plainAll ss
end

def RItem.plain : RItem → Bool
  | .const _ _ e => e.plain
  | .type _ _ => true
  | .fn f => RStmt.plainAll f.body
  | .other _ => true

mutual
/-- The number of compound assignments visited. -/
def RExpr.compounds : RExpr → ℕ
  | .lit _ => 0
  | .path _ => 0
  | .unary _ e => e.compounds
  | .binary l _ r => l.compounds + r.compounds
  | .method r _ args => r.compounds + RExpr.compoundsAll args
  | .call f args => f.compounds + RExpr.compoundsAll args
  | .paren e => e.compounds
  | .cast e _ => e.compounds
  | .ifThen c t => c.compounds + RStmt.compoundsAll t
  | .ifElse c t f => c.compounds + RStmt.compoundsAll t + f.compounds
  | .block b => RStmt.compoundsAll b
  | .assign l r => l.compounds + r.compounds
  | .assignOp l _ r => 1 + l.compounds + r.compounds
  | .array es => RExpr.compoundsAll es
  | .tuple _ => 0
  | .verbatim => 0
  | .other _ => 0

def RExpr.compoundsAll : List RExpr → ℕ
  | [] => 0
  | e :: es => e.compounds + RExpr.compoundsAll es

def RStmt.compounds : RStmt → ℕ
  | .expr e => e.compounds
  | .semi e => e.compounds
  | .decl _ _ => 0
  | .letInit _ _ e => e.compounds
  | .const _ _ e => e.compounds

def RStmt.compoundsAll : List RStmt → ℕ
  | [] => 0
  | s :: ss => s.compounds + RStmt.compoundsAll ss
end

end Verif
