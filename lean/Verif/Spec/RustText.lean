import Verif.Spec.RustTokens

/-!
# Rust programs as tokens and as trees

As `Spec/RustTokens.lean`, for whole programs.  Braces, tuples and arrays are delimited, so an `if`, a block, a tuple or an array counts as one word; the
expressions inside it (`RExpr.parts`) are read on their own.  A literal with a sign is the operator `-` and a literal.
-/

namespace Verif

/-- The words of a program: literals, paths, names of methods, and whatever has its own brackets. -/
inductive RWord where
  | lit (l : Lit)
  | path (p : Name)
  | meth (m : String)
  | group (e : RExpr)

/-- The tokens of a literal. -/
def Lit.rtoks : Lit → List (PTok RWord)
  | .int ('-' :: ds) s => [.op "-", .word (.lit (.int ds s))]
  | .float ('-' :: ds) s => [.op "-", .word (.lit (.float ds s))]
  | l => [.word (.lit l)]

/-- What a literal is read as. -/
def Lit.rtree : Lit → PExpr RWord
  | .int ('-' :: ds) s => .unary "-" (.atom (.lit (.int ds s)))
  | .float ('-' :: ds) s => .unary "-" (.atom (.lit (.float ds s)))
  | l => .atom (.lit l)

mutual
/-- The tokens of an expression, in the order in which they are written; nothing is added. -/
def RExpr.toks : RExpr → List (PTok RWord)
  | .lit l => l.rtoks
  | .path p => [.word (.path p)]
  | .unary op e => .op op.sym :: e.toks
  | .binary l op r => l.toks ++ .op op.sym :: r.toks
  | .method r m args => r.toks ++ .dot :: .word (.meth m) :: .lpar :: (RExpr.toksArgs args ++ [.rpar])
  | .call f args => f.toks ++ .lpar :: (RExpr.toksArgs args ++ [.rpar])
  | .paren e => .lpar :: (e.toks ++ [.rpar])
  | .cast e ty => e.toks ++ [.as, .ty (.path ty)]
  | .assign l r => l.toks ++ .op "=" :: r.toks
  | .assignOp l op r => l.toks ++ .op op.sym :: r.toks
  | e => [.word (.group e)]

def RExpr.toksArgs : List RExpr → List (PTok RWord)
  | [] => []
  | a :: as => a.toks ++ RExpr.toksRest as

def RExpr.toksRest : List RExpr → List (PTok RWord)
  | [] => []
  | a :: as => .comma :: (a.toks ++ RExpr.toksRest as)
end

mutual
/-- The tree of an expression. -/
def RExpr.tree : RExpr → PExpr RWord
  | .lit l => l.rtree
  | .path p => .atom (.path p)
  | .unary op e => .unary op.sym e.tree
  | .binary l op r => .binary l.tree op.sym r.tree
  | .method r m args => .method r.tree (.meth m) (RExpr.trees args)
  | .call f args => .call f.tree (RExpr.trees args)
  | .paren e => .paren e.tree
  | .cast e ty => .cast e.tree (.path ty)
  | .assign l r => .binary l.tree "=" r.tree
  | .assignOp l op r => .binary l.tree op.sym r.tree
  | e => .atom (.group e)

def RExpr.trees : List RExpr → List (PExpr RWord)
  | [] => []
  | a :: as => a.tree :: RExpr.trees as
end

/-- An expression that ends a statement where it ends. -/
def RExpr.blockLike : RExpr → Bool
  | .ifThen _ _ | .ifElse _ _ _ | .block _ => true
  | _ => false

/-- The text begins with an `if` or a block. -/
def RExpr.startsBlock : RExpr → Bool
  | .binary l _ _ => l.startsBlock
  | .method r _ _ => r.startsBlock
  | .call f _ => f.startsBlock
  | .cast e _ => e.startsBlock
  | .assign l _ => l.startsBlock
  | .assignOp l _ _ => l.startsBlock
  | e => e.blockLike

/-- A place where a program has an expression between brackets, commas, semicolons and keywords; `stmt` is set if a statement begins there. -/
structure Spot where
  stmt : Bool
  e : RExpr

mutual
/-- All places inside the bracketed words of an expression. -/
def RExpr.parts : RExpr → List Spot
  | .lit _ | .path _ | .verbatim | .other _ => []
  | .unary _ e => e.parts
  | .binary l _ r => l.parts ++ r.parts
  | .method r _ args => r.parts ++ RExpr.partsArgs args
  | .call f args => f.parts ++ RExpr.partsArgs args
  | .paren e => e.parts
  | .cast e _ => e.parts
  | .assign l r => l.parts ++ r.parts
  | .assignOp l _ r => l.parts ++ r.parts
  | .ifThen c t => ⟨false, c⟩ :: (c.parts ++ RStmt.parts t)
  | .ifElse c t f => ⟨false, c⟩ :: (c.parts ++ RStmt.parts t ++ ⟨false, f⟩ :: f.parts)
  | .block b => RStmt.parts b
  | .array es => RExpr.partsItems es
  | .tuple es => RExpr.partsItems es

def RExpr.partsArgs : List RExpr → List Spot
  | [] => []
  | e :: es => e.parts ++ RExpr.partsArgs es

/-- The elements of a tuple or array are places themselves. -/
def RExpr.partsItems : List RExpr → List Spot
  | [] => []
  | e :: es => ⟨false, e⟩ :: (e.parts ++ RExpr.partsItems es)

def RStmt.parts : List RStmt → List Spot
  | [] => []
  | .decl _ _ :: rest => RStmt.parts rest
  | .letInit _ _ e :: rest => ⟨false, e⟩ :: (e.parts ++ RStmt.parts rest)
  | .expr e :: rest => ⟨true, e⟩ :: (e.parts ++ RStmt.parts rest)
  | .semi e :: rest => ⟨true, e⟩ :: (e.parts ++ RStmt.parts rest)
  | .const _ _ e :: rest => ⟨false, e⟩ :: (e.parts ++ RStmt.parts rest)
end

/-- The places of an item. -/
def RItem.spots : RItem → List Spot
  | .const _ _ e => ⟨false, e⟩ :: e.parts
  | .fn f => RStmt.parts f.body
  | .type _ _ | .other _ => []

/-- What stands at a place is read as the tree it was printed from.  (A statement that begins with an `if` or a block ends with it.) -/
def Spot.Reads (s : Spot) : Prop :=
  rustLang.Reads s.e.toks s.e.tree ∧ (s.stmt = true → s.e.startsBlock = true → s.e.blockLike = true)

end Verif
