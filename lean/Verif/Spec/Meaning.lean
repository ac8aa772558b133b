import Verif.Model.Syntax

/-!
# What an expression means

An interpretation fixes a meaning for literals, names and every operator; parentheses mean nothing.
Also: the small vocabulary (names, supported nodes, replacement) in which the properties are stated.
-/

namespace Verif

/-- Meaning of the building blocks of expressions in a type `α`. -/
structure Interp (α : Type) where
  un : UnOp → α → α
  bin : BinOp → α → α → α
  meth : String → α → List α → α
  lit : Lit → α
  var : Name → α
  field : String → α → α
  call : α → List α → α
  other : String → α

mutual
/-- The meaning of an expression. -/
def Expr.denote {α : Type} (I : Interp α) : Expr → α
  | .unary op e => I.un op (e.denote I)
  | .binary l op r => I.bin op (l.denote I) (r.denote I)
  | .methodCall r m args => I.meth m (r.denote I) (Expr.denoteArgs I args)
  | .paren e => e.denote I
  | .lit l => I.lit l
  | .path p => I.var p
  | .field b m => I.field m (b.denote I)
  | .call f args => I.call (f.denote I) (Expr.denoteArgs I args)
  | .other k => I.other k

/-- The meanings of a list of arguments. -/
def Expr.denoteArgs {α : Type} (I : Interp α) : List Expr → List α
  | [] => []
  | a :: as => a.denote I :: Expr.denoteArgs I as
end

mutual
/-- Only the seven node kinds the transformations know. -/
def Expr.supported : Expr → Bool
  | .unary _ e => e.supported
  | .binary l _ r => l.supported && r.supported
  | .methodCall r _ args => r.supported && Expr.supportedArgs args
  | .paren e => e.supported
  | .lit _ => true
  | .path _ => true
  | .field b _ => b.supported
  | .call _ _ => false
  | .other _ => false

def Expr.supportedArgs : List Expr → Bool
  | [] => true
  | a :: as => a.supported && Expr.supportedArgs as
end

mutual
/-- All names occurring in an expression. -/
def Expr.names : Expr → List Name
  | .unary _ e => e.names
  | .binary l _ r => l.names ++ r.names
  | .methodCall r _ args => r.names ++ Expr.namesArgs args
  | .paren e => e.names
  | .lit _ => []
  | .path p => [p]
  | .field b _ => b.names
  | .call f args => f.names ++ Expr.namesArgs args
  | .other _ => []

def Expr.namesArgs : List Expr → List Name
  | [] => []
  | a :: as => a.names ++ Expr.namesArgs as
end

mutual
/-- Replace every literal and every name by an expression, keeping everything else. -/
def Expr.mapLeaves (g : Lit → Expr) (f : Name → Expr) : Expr → Expr
  | .unary op e => .unary op (e.mapLeaves g f)
  | .binary l op r => .binary (l.mapLeaves g f) op (r.mapLeaves g f)
  | .methodCall r m args => .methodCall (r.mapLeaves g f) m (Expr.mapLeavesArgs g f args)
  | .paren e => .paren (e.mapLeaves g f)
  | .lit l => g l
  | .path p => f p
  | .field b m => .field (b.mapLeaves g f) m
  | .call h args => .call (h.mapLeaves g f) (Expr.mapLeavesArgs g f args)
  | .other k => .other k

def Expr.mapLeavesArgs (g : Lit → Expr) (f : Name → Expr) : List Expr → List Expr
  | [] => []
  | a :: as => a.mapLeaves g f :: Expr.mapLeavesArgs g f as
end

mutual
/-- Remove all parentheses. -/
def Expr.erase : Expr → Expr
  | .unary op e => .unary op e.erase
  | .binary l op r => .binary l.erase op r.erase
  | .methodCall r m args => .methodCall r.erase m (Expr.eraseArgs args)
  | .paren e => e.erase
  | .lit l => .lit l
  | .path p => .path p
  | .field b m => .field b.erase m
  | .call f args => .call f.erase (Expr.eraseArgs args)
  | .other k => .other k

def Expr.eraseArgs : List Expr → List Expr
  | [] => []
  | a :: as => a.erase :: Expr.eraseArgs as
end

/-- A bare operator: a binary or unary expression without parentheses around it. -/
def Expr.isOp : Expr → Bool
  | .binary _ _ _ => true
  | .unary _ _ => true
  | _ => false

mutual
/-- Every operand of every operator is not itself a bare operator. -/
def Expr.operandsClosed : Expr → Bool
  | .unary _ e => !e.isOp && e.operandsClosed
  | .binary l _ r => !l.isOp && !r.isOp && l.operandsClosed && r.operandsClosed
  | .methodCall r _ args => r.operandsClosed && Expr.operandsClosedArgs args
  | .paren e => e.operandsClosed
  | .field b _ => b.operandsClosed
  | .call f args => f.operandsClosed && Expr.operandsClosedArgs args
  | _ => true

def Expr.operandsClosedArgs : List Expr → Bool
  | [] => true
  | a :: as => a.operandsClosed && Expr.operandsClosedArgs as
end

/-- The earliest binding of a name in a list of bindings. -/
def firstBinding (n : Name) : List (Name × Expr) → Option Expr
  | [] => none
  | (m, e) :: rest => if m = n then some e else firstBinding n rest

end Verif
