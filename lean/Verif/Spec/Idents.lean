import Verif.Model.RustCode

/-!
# Which identifiers a piece of code uses and defines

`free bound e` lists the names used in `e` that are neither bound around it nor primitive types.  Methods are not names.
-/

namespace Verif

/-- Types every Rust program has. -/
def primitiveNames : List String := ["bool", "usize", "u32", "u64", "i32", "i64", "f32", "f64"]

/-- The identifier a path starts with, if it is not known already. -/
def freeName (bound : List String) (p : Name) : List String :=
  match p with
  | [] => []
  | s :: _ => if bound.contains s || primitiveNames.contains s then [] else [s]

mutual
def RExpr.free (bound : List String) : RExpr → List String
  | .lit _ => []
  | .path p => freeName bound p
  | .unary _ e => e.free bound
  | .binary l _ r => l.free bound ++ r.free bound
  | .method r _ args => r.free bound ++ RExpr.freeArgs bound args
  | .call f args => f.free bound ++ RExpr.freeArgs bound args
  | .paren e => e.free bound
  | .cast e ty => e.free bound ++ freeName bound ty
  | .ifThen c t => c.free bound ++ RStmt.freeBlock bound t
  | .ifElse c t f => c.free bound ++ RStmt.freeBlock bound t ++ f.free bound
  | .block b => RStmt.freeBlock bound b
  | .assign l r => l.free bound ++ r.free bound
  | .assignOp l _ r => l.free bound ++ r.free bound
  | .array es => RExpr.freeArgs bound es
  | .tuple es => RExpr.freeArgs bound es
  | .verbatim => []
  | .other _ => []

def RExpr.freeArgs (bound : List String) : List RExpr → List String
  | [] => []
  | a :: as => a.free bound ++ RExpr.freeArgs bound as

/-- A `let` or `const` binds its name in the statements after it. -/
def RStmt.freeBlock (bound : List String) : List RStmt → List String
  | [] => []
  | .decl n ty :: rest => (ty.elim [] (freeName bound)) ++ RStmt.freeBlock (n :: bound) rest
  | .letInit n ty e :: rest => (ty.elim [] (freeName bound)) ++ e.free bound ++ RStmt.freeBlock (n :: bound) rest
  | .expr e :: rest => e.free bound ++ RStmt.freeBlock bound rest
  | .semi e :: rest => e.free bound ++ RStmt.freeBlock bound rest
  | .const n ty e :: rest => freeName bound ty ++ e.free bound ++ RStmt.freeBlock (n :: bound) rest
end

/-- Names used by a result type. -/
def RTy.free : RTy → List String
  | .path n => freeName [] n
  | .tuple ns => ns.flatMap (freeName [])

/-- Names used by a function, beside its own parameters. -/
def RFn.free (f : RFn) : List String :=
  f.params.flatMap (fun p => freeName [] p.2) ++ f.ret.elim [] RTy.free ++ RStmt.freeBlock (f.params.map (·.1)) f.body

/-- Names used by an item. -/
def RItem.uses : RItem → List String
  | .const _ ty e => freeName [] ty ++ e.free []
  | .type _ ty => freeName [] ty
  | .fn f => f.free
  | .other _ => []

/-- The name an item defines. -/
def RItem.defines : RItem → List String
  | .const n _ _ => [n]
  | .type n _ => [n]
  | .fn f => [f.name]
  | .other _ => []

end Verif
