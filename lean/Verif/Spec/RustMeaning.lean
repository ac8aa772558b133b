import Verif.Model.RustCode

/-!
# What a generated function means

An interpretation gives a meaning to literals, operators, methods, calls and casts.  `let` and `const` extend the environment, `if` asks
`test`.  Statements that compute nothing used here (`e;`, a `let` without a value) are skipped.
-/

namespace Verif

/-- Meaning of the building blocks of function bodies in a type `α`. -/
structure RInterp (α : Type) where
  lit : Lit → α
  un : UnOp → α → α
  bin : BinOp → α → α → α
  meth : String → α → List α → α
  call : Name → List α → α
  cast : Name → α → α
  tuple : List α → α
  test : α → Bool
  junk : α

/-- An environment with one more name. -/
def envSet {α : Type} (env : Name → α) (n : String) (a : α) : Name → α := fun m => if m = [n] then a else env m

mutual
def RExpr.denote {α : Type} (I : RInterp α) (env : Name → α) : RExpr → α
  | .lit l => I.lit l
  | .path p => env p
  | .unary op e => I.un op (e.denote I env)
  | .binary l op r => I.bin op (l.denote I env) (r.denote I env)
  | .method r m args => I.meth m (r.denote I env) (RExpr.denoteArgs I env args)
  | .call f args => match f with
    | .path p => I.call p (RExpr.denoteArgs I env args)
    | _ => I.junk
  | .paren e => e.denote I env
  | .cast e ty => I.cast ty (e.denote I env)
  | .ifThen _ _ => I.junk
  | .ifElse c t f => if I.test (c.denote I env) then RStmt.denoteBlock I env t else f.denote I env
  | .block b => RStmt.denoteBlock I env b
  | .tuple es => I.tuple (RExpr.denoteArgs I env es)
  | .assign _ _ => I.junk
  | .assignOp _ _ _ => I.junk
  | .array _ => I.junk
  | .verbatim => I.junk
  | .other _ => I.junk

def RExpr.denoteArgs {α : Type} (I : RInterp α) (env : Name → α) : List RExpr → List α
  | [] => []
  | a :: as => a.denote I env :: RExpr.denoteArgs I env as

/-- The value of a block is that of its last expression. -/
def RStmt.denoteBlock {α : Type} (I : RInterp α) (env : Name → α) : List RStmt → α
  | [] => I.junk
  | .decl _ _ :: rest => RStmt.denoteBlock I env rest
  | .letInit n _ e :: rest => RStmt.denoteBlock I (envSet env n (e.denote I env)) rest
  | .const n _ e :: rest => RStmt.denoteBlock I (envSet env n (e.denote I env)) rest
  | .semi _ :: rest => RStmt.denoteBlock I env rest
  | .expr e :: rest => match rest with
    | [] => e.denote I env
    | _ => RStmt.denoteBlock I env rest
end

/-- The environment in which a function body runs: the parameters over the globals. -/
def bindParams {α : Type} (globals : Name → α) : List (String × Name) → List α → (Name → α)
  | p :: ps, a :: as => bindParams (envSet globals p.1 a) ps as
  | _, _ => globals

/-- The value of a call of a function. -/
def RFn.apply {α : Type} (I : RInterp α) (globals : Name → α) (f : RFn) (args : List α) : α :=
  RStmt.denoteBlock I (bindParams globals f.params args) f.body

end Verif
