import Verif.Model.RustCode
import Verif.Spec.Meaning
import Verif.Spec.Grammar

/-!
# Rust expressions as tokens and as trees

`quote!` writes the tokens of an expression in order; nothing is added.  A path counts as one word.  A literal with a sign is written `-` and digits, and no
Rust literal has a sign.
-/

namespace Verif

/-- The words of an expression. -/
inductive Word where
  | lit (l : Lit)
  | path (p : Name)
  | other (kind : String)
  deriving DecidableEq, Repr

/-- The symbol of an operator. -/
def BinOp.sym : BinOp → String
  | .add => "+" | .sub => "-" | .mul => "*" | .div => "/" | .rem => "%"
  | .and => "&&" | .or => "||" | .bitXor => "^" | .bitAnd => "&" | .bitOr => "|" | .shl => "<<" | .shr => ">>"
  | .eq => "==" | .lt => "<" | .le => "<=" | .ne => "!=" | .ge => ">=" | .gt => ">"
  | .addEq => "+=" | .subEq => "-=" | .mulEq => "*=" | .divEq => "/=" | .remEq => "%="
  | .bitXorEq => "^=" | .bitAndEq => "&=" | .bitOrEq => "|=" | .shlEq => "<<=" | .shrEq => ">>="

def UnOp.sym : UnOp → String
  | .deref => "*" | .not => "!" | .neg => "-"

/-- The operator is a compound assignment. -/
def BinOp.assigns : BinOp → Bool
  | .addEq | .subEq | .mulEq | .divEq | .remEq | .bitXorEq | .bitAndEq | .bitOrEq | .shlEq | .shrEq => true
  | _ => false

/-- The literal has a minus sign. -/
def Lit.signed : Lit → Bool
  | .int ('-' :: _) _ => true
  | .float ('-' :: _) _ => true
  | _ => false

/-- The tokens of a literal. -/
def Lit.toks : Lit → List (PTok Word)
  | .int ('-' :: ds) s => [.op "-", .word (.lit (.int ds s))]
  | .float ('-' :: ds) s => [.op "-", .word (.lit (.float ds s))]
  | l => [.word (.lit l)]

mutual
/-- The tokens of an expression. -/
def Expr.toks : Expr → List (PTok Word)
  | .unary op e => .op op.sym :: e.toks
  | .binary l op r => l.toks ++ .op op.sym :: r.toks
  | .methodCall r m args => r.toks ++ .dot :: .word (.path [m]) :: .lpar :: (Expr.toksArgs args ++ [.rpar])
  | .paren e => .lpar :: (e.toks ++ [.rpar])
  | .lit l => l.toks
  | .path p => [.word (.path p)]
  | .field b m => b.toks ++ [.dot, .word (.path [m])]
  | .call f args => f.toks ++ .lpar :: (Expr.toksArgs args ++ [.rpar])
  | .other k => [.word (.other k)]

def Expr.toksArgs : List Expr → List (PTok Word)
  | [] => []
  | a :: as => a.toks ++ Expr.toksRest as

def Expr.toksRest : List Expr → List (PTok Word)
  | [] => []
  | a :: as => .comma :: (a.toks ++ Expr.toksRest as)
end

mutual
/-- The tree of an expression. -/
def Expr.tree : Expr → PExpr Word
  | .unary op e => .unary op.sym e.tree
  | .binary l op r => .binary l.tree op.sym r.tree
  | .methodCall r m args => .method r.tree (.path [m]) (Expr.trees args)
  | .paren e => .paren e.tree
  | .lit l => .atom (.lit l)
  | .path p => .atom (.path p)
  | .field b m => .field b.tree (.path [m])
  | .call f args => .call f.tree (Expr.trees args)
  | .other k => .atom (.other k)

def Expr.trees : List Expr → List (PExpr Word)
  | [] => []
  | a :: as => a.tree :: Expr.trees as
end

mutual
/-- Receivers of methods and bases of fields are no bare operators. -/
def Expr.receiversClosed : Expr → Bool
  | .unary _ e => e.receiversClosed
  | .binary l _ r => l.receiversClosed && r.receiversClosed
  | .methodCall r _ args => !r.isOp && r.receiversClosed && Expr.receiversClosedArgs args
  | .paren e => e.receiversClosed
  | .lit _ => true
  | .path _ => true
  | .field b _ => !b.isOp && b.receiversClosed
  | .call f args => f.receiversClosed && Expr.receiversClosedArgs args
  | .other _ => true

def Expr.receiversClosedArgs : List Expr → Bool
  | [] => true
  | a :: as => a.receiversClosed && Expr.receiversClosedArgs as
end

mutual
/-- The number of literals with a sign. -/
def Expr.signs : Expr → ℕ
  | .unary _ e => e.signs
  | .binary l _ r => l.signs + r.signs
  | .methodCall r _ args => r.signs + Expr.signsArgs args
  | .paren e => e.signs
  | .lit l => if l.signed then 1 else 0
  | .path _ => 0
  | .field b _ => b.signs
  | .call f args => f.signs + Expr.signsArgs args
  | .other _ => 0

def Expr.signsArgs : List Expr → ℕ
  | [] => 0
  | a :: as => a.signs + Expr.signsArgs as
end

mutual
/-- No compound assignments. -/
def Expr.pureOps : Expr → Bool
  | .unary _ e => e.pureOps
  | .binary l op r => !op.assigns && l.pureOps && r.pureOps
  | .methodCall r _ args => r.pureOps && Expr.pureOpsArgs args
  | .paren e => e.pureOps
  | .lit _ => true
  | .path _ => true
  | .field b _ => b.pureOps
  | .call f args => f.pureOps && Expr.pureOpsArgs args
  | .other _ => true

def Expr.pureOpsArgs : List Expr → Bool
  | [] => true
  | a :: as => a.pureOps && Expr.pureOpsArgs as
end

end Verif
