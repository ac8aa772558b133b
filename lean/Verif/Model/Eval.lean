import Verif.Model.BdMath
import Verif.Model.Transform

/-!
# Numbers in expressions and `eval`

`doctor-syn/src/expression.rs` (conversions, operators) and `doctor-syn/src/transformation/eval.rs`.
-/

namespace Verif

/-- `impl From<BigDecimal> for Expression`, `expression.rs:81-91`: a float literal with the decimal text. -/
def exprOfDec (d : Dec) : Expr := .lit (.float (displayDec d) "")

/-- `impl From<bool> for Expression`. -/
def exprOfBool (b : Bool) : Expr := .lit (.bool b)

/-- `expr_to::<BigDecimal>`, `expression.rs:106-124`; suffixes are ignored by `base10_parse`. -/
def exprToDec : Expr → Res Dec
  | .lit (.float ds _) => Res.okOr .couldNotConvertFromExpression (parseDec ds)
  | .lit (.int ds _) => Res.okOr .couldNotConvertFromExpression (parseDec ds)
  | _ => .err .couldNotConvertFromExpression

/-- `Expression::is_lit`, `expression.rs:311-316`. -/
def isLit : Expr → Bool
  | .lit _ => true
  | _ => false

/-- `Expression::is_numeric`, `expression.rs:324-334`. -/
def isNumeric : Expr → Bool
  | .lit (.int _ _) => true
  | .lit (.float _ _) => true
  | _ => false

/-- Which arithmetic operator an operator function was made for. -/
inductive ArithOp where
  | add | sub | mul | div
  deriving DecidableEq, Repr

/-- `lhs $op rhs` on `BigDecimal`. -/
def ArithOp.onDec : ArithOp → Dec → Dec → Res Dec
  | .add, a, b => .ok (a + b)
  | .sub, a, b => .ok (a - b)
  | .mul, a, b => .ok (a * b)
  | .div, a, b => Dec.div a b

/-- `make_op!`, `expression.rs:199-219`.  `parse_quote!((#lhs) + (#rhs))` is modelled as the tree it parses to when
printing and parsing the operands gives them back. -/
def exprOp (op : ArithOp) (lhs rhs : Expr) : Res Expr :=
  if isNumeric lhs && isNumeric rhs then do
    let a ← (exprToDec lhs).unwrap
    let b ← (exprToDec rhs).unwrap
    let r ← op.onDec a b
    pure (exprOfDec r)
  else pure (.binary (.paren lhs) .add (.paren rhs))

/-- `pow(..).ok_or_else(errfn)?`. -/
def orEvalErr (r : Res (Option Dec)) : Res Dec := do
  let o ← r
  Res.okOr .couldNotEvaluate o

/-- The method table of `Eval::visit_method_call`, `eval.rs:50-176`. -/
def evalMethod (ext : BdExt) (n : Int) (m : String) (x : Dec) (args : List Dec) : Res Dec :=
  match m, args with
  | "round", [] => pure (round x 0)
  | "abs", [] => pure x.abs
  | "signum", [] => pure x.signum
  | "recip", [] => pure (ext.inverse x)
  | "powi", [a] => orEvalErr (Bd.pow ext x a n)
  | "powf", [a] => orEvalErr (Bd.pow ext x a n)
  | "sqrt", [] => Res.okOr .couldNotEvaluate (ext.sqrt x)
  | "exp", [] => Bd.exp x n
  | "exp2", [] => orEvalErr (Bd.pow ext Dec.two x n)
  | "ln", [] => orEvalErr (Bd.ln ext x n)
  | "log", [a] => orEvalErr (Bd.log ext x a n)
  | "log2", [] => orEvalErr (Bd.log ext x Dec.two n)
  | "log10", [] => orEvalErr (Bd.log ext x (Dec.ofInt 10) n)
  | "sin", [] => Bd.sin x n
  | "cos", [] => Bd.cos x n
  | "tan", [] => Bd.tan x n
  | "asin", [] => Bd.asin ext x n
  | "acos", [] => Bd.acos ext x n
  | "atan", [] => Bd.atan ext x n
  | "erf", [] => Bd.erf ext x n
  | "erfc", [] => Bd.erfc ext x n
  | "dnorm", [a, b] => Bd.dnorm ext x a b n
  | "pnorm", [a, b] => Bd.pnorm ext x a b n
  | "qnorm", [a, b] => orEvalErr (Bd.qnorm ext x a b n)
  | "round_ieee", [a] => Bd.roundIeee ext x a n
  | _, _ => .err .couldNotEvaluate

/-- `args.iter().map(|a| a.try_into()).collect()`, `eval.rs:41-45`. -/
def exprsToDecs : List Expr → Res (List Dec)
  | [] => pure []
  | a :: as => do
    let d ← exprToDec a
    let ds ← exprsToDecs as
    pure (d :: ds)

/-- The operator table of `Eval::visit_binary`, `eval.rs:186-203`. -/
def evalBinop (n : Int) (op : BinOp) (l r : Dec) : Res Expr :=
  match op with
  | .add => pure (exprOfDec (l + r))
  | .sub => pure (exprOfDec (l - r))
  | .mul => pure (exprOfDec (round (l * r) n))
  | .div => do
    let q ← Dec.div l r
    pure (exprOfDec (round q n))
  | .lt => pure (exprOfBool (Dec.lt l r))
  | .gt => pure (exprOfBool (Dec.lt r l))
  | .le => pure (exprOfBool (Dec.le l r))
  | .ge => pure (exprOfBool (Dec.le r l))
  | .eq => pure (exprOfBool (Dec.beq l r))
  | .ne => pure (exprOfBool (!Dec.beq l r))
  | _ => .err .couldNotEvaluate

mutual
/-- `Expression::eval`, `expression.rs:357-360`, and `impl Visitor for Eval`, `eval.rs:25-240`. -/
def eval (ext : BdExt) (n : Int) : Expr → Res Expr
  | .paren e => eval ext n e
  | .methodCall recv m args => do
    let r ← eval ext n recv
    let as ← evalArgs ext n args
    let x ← exprToDec r
    let ds ← exprsToDecs as
    let d ← evalMethod ext n m x ds
    pure (exprOfDec d)
  | .binary l op r => do
    let l' ← eval ext n l
    let r' ← eval ext n r
    if isNumeric l' && isNumeric r' then do
      let a ← (exprToDec l').unwrap
      let b ← (exprToDec r').unwrap
      evalBinop n op a b
    else .err .couldNotEvaluate
  | .unary op e => do
    let e' ← eval ext n e
    if isNumeric e' then do
      let d ← (exprToDec e').unwrap
      match op with
      | .neg => pure (exprOfDec (-d))
      | _ => .err .couldNotEvaluate
    else .err .couldNotEvaluate
  | .path p =>
    if p = ["PI"] then do
      let d ← Bd.pi ext n
      pure (exprOfDec d)
    else .err .couldNotEvaluate
  | .lit l => pure (.lit l)
  | .field b m => do
    let b' ← eval ext n b
    pure (.field b' m)
  | .call _ _ => .err .unsupportedExpr
  | .other _ => .err .unsupportedExpr

/-- `eval.rs:35-39`. -/
def evalArgs (ext : BdExt) (n : Int) : List Expr → Res (List Expr)
  | [] => pure []
  | a :: as => do
    let a' ← eval ext n a
    let as' ← evalArgs ext n as
    pure (a' :: as')
end

end Verif
