import Verif.Model.Res
import Verif.Model.RustCode

/-!
# The C generator, `doctor-syn/src/codegen/c.rs`

`CVisitor` walks a `syn::File`; every visit pushes its text on a stack and pops the texts of its parts.  The stack is a list, top first.
Not modelled: patterns other than identifiers, generics, attributes.  A type is a path, or a tuple in the result of a function.
-/

namespace Verif

/-- `Options`, `c.rs:10-19`. -/
structure COptions where
  pre : String
  floatSuffix : String

/-- `CVisitor::tos`, `c.rs:38-40`: pop, or panic. -/
def ctos : List String → Res (String × List String)
  | [] => .panic
  | s :: st => .ok (s, st)

/-- `visit_bin_op`, `c.rs:109-198`. -/
def cBinOp : BinOp → String
  | .add => "+" | .sub => "-" | .mul => "*" | .div => "/" | .rem => "%"
  | .and => "&&" | .or => "||" | .bitXor => "^" | .bitAnd => "&" | .bitOr => "|" | .shl => "<<" | .shr => ">>"
  | .eq => "==" | .lt => "<" | .le => "<=" | .ne => "!=" | .ge => ">=" | .gt => ">"
  | .addEq => "+=" | .subEq => "-=" | .mulEq => "*=" | .divEq => "/=" | .remEq => "%="
  | .bitXorEq => "^=" | .bitAndEq => "&=" | .bitOrEq => "|=" | .shlEq => "<<=" | .shrEq => ">>="

/-- `visit_un_op`, `c.rs:1411-1425`. -/
def cUnOp : UnOp → String
  | .deref => "*" | .not => "!" | .neg => "-"

/-- `visit_path`, `c.rs:1136-1141`: the segments joined by `_`. -/
def cPath (p : Name) : String := "_".intercalate p

/-- `translate_basic_types`, `c.rs:1512-1523`. -/
def translateBasicTypes (name : String) : String :=
  if name = "bool" then "int"
  else if name = "i32" then "int"
  else if name = "i64" then "long long"
  else if name = "u32" then "unsigned int"
  else if name = "u64" then "unsigned long long"
  else if name = "f32" then "float"
  else if name = "f64" then "double"
  else name

/-- `visit_type` on a path, `c.rs:1371-1379`. -/
def cType (p : Name) : String := translateBasicTypes (cPath p)

/-- `visit_lit` and what it calls, `c.rs:911-957`. -/
def cLit : Lit → String
  | .int ds _ => String.ofList ds
  | .float ds _ => String.ofList ds
  | .bool _ => "<<lit_bool>>"
  | .other k => "<<lit_" ++ k ++ ">>"

/-- `visit_type_path` as a visit. -/
def visitType (p : Name) (st : List String) : Res (List String) := do
  let st := cPath p :: st
  let (path, st) ← ctos st
  pure (translateBasicTypes path :: st)

/-- `visit_pat` on `x` and on `x : T`, `c.rs:1043-1048`, `1116-1128`. -/
def visitPat (name : String) (ty : Option Name) (st : List String) : Res (List String) :=
  match ty with
  | none => pure (name :: st)
  | some t => do
    let st := name :: st
    let (pat, st) ← ctos st
    let st ← visitType t st
    let (ty, st) ← ctos st
    pure ((ty ++ " " ++ pat) :: st)

mutual
/-- `visit_expr` and the `visit_expr_*` it calls. -/
def visitCExpr (o : COptions) : RExpr → List String → Res (List String)
  -- `c.rs:451-458`
  | .lit l, st => pure (cLit l :: st)
  -- `c.rs:513-525`
  | .path p, st => pure (cPath p :: st)
  -- `c.rs:581-588`
  | .unary op e, st => do
    let st := cUnOp op :: st
    let (op, st) ← ctos st
    let st ← visitCExpr o e st
    let (e, st) ← ctos st
    pure ((op ++ e) :: st)
  -- `c.rs:318-331`
  | .binary l op r, st => do
    let st ← visitCExpr o l st
    let (lhs, st) ← ctos st
    let st := cBinOp op :: st
    let (op, st) ← ctos st
    let st ← visitCExpr o r st
    let (rhs, st) ← ctos st
    pure ((lhs ++ " " ++ op ++ " " ++ rhs) :: st)
  -- `c.rs:478-504`
  | .method recv name args, st => do
    let st ← visitCExpr o recv st
    let (r, st) ← ctos st
    let st := name :: st
    let (ident, st) ← ctos st
    let (as, st) ← visitCExprs o args [r] st
    if ident = "round" then pure ((ident ++ o.floatSuffix ++ "(" ++ ", ".intercalate as ++ ")") :: st)
    else if ident = "mul_add" then
      match as with
      | a :: b :: c :: _ => pure (("((" ++ a ++ "\n) * (" ++ b ++ ") + (" ++ c ++ "))") :: st)
      | _ => .panic
    else pure ((ident ++ "(" ++ ", ".intercalate as ++ ")") :: st)
  -- `c.rs:357-379`
  | .call f args, st => do
    let st ← visitCExpr o f st
    let (expr, st) ← ctos st
    let (as, st) ← visitCExprs o args [] st
    let args := ", ".intercalate as
    if expr = "fty_from_bits" then pure (("({ union { fty f; uty u; } u; u.u = (" ++ args ++ "); u.f; })") :: st)
    else pure ((o.pre ++ expr ++ "(" ++ args ++ ")") :: st)
  -- `c.rs:506-511`
  | .paren e, st => do
    let st ← visitCExpr o e st
    let (e, st) ← ctos st
    pure (("(" ++ e ++ ")") :: st)
  -- `c.rs:381-391`
  | .cast e t, st => do
    let st ← visitCExpr o e st
    let (e, st) ← ctos st
    let st ← visitType t st
    let (ty, st) ← ctos st
    pure (("(" ++ ty ++ ")" ++ e) :: st)
  -- `c.rs:423-437`, without `else`
  | .ifThen c t, st => do
    let st ← visitCExpr o c st
    let (_, st) ← ctos st
    let st ← visitCBlock o t st
    let (_, st) ← ctos st
    pure ("<<if requires an else>>" :: st)
  -- `c.rs:423-437`
  | .ifElse c t f, st => do
    let st ← visitCExpr o c st
    let (c, st) ← ctos st
    let st ← visitCBlock o t st
    let (t, st) ← ctos st
    let st ← visitCExpr o f st
    let (f, st) ← ctos st
    pure (("(" ++ c ++ ") ? (" ++ t ++ ") : (" ++ f ++ ")") :: st)
  -- `c.rs:333-342`
  | .block b, st => do
    let st ← visitCBlock o b st
    let (b, st) ← ctos st
    pure (("(" ++ b ++ ")") :: st)
  -- `c.rs:283-291`
  | .assign l r, st => do
    let st ← visitCExpr o l st
    let (l, st) ← ctos st
    let st ← visitCExpr o r st
    let (r, st) ← ctos st
    pure ((l ++ " = " ++ r) :: st)
  -- `c.rs:293-304`: the first push is never popped
  | .assignOp l op r, st => do
    let st := "<<expr_assign_op>>" :: st
    let st ← visitCExpr o l st
    let (l, st) ← ctos st
    let st := cBinOp op :: st
    let (op, st) ← ctos st
    let st ← visitCExpr o r st
    let (r, st) ← ctos st
    pure ((l ++ " " ++ op ++ " " ++ r) :: st)
  -- `c.rs:270-281`
  | .array es, st => do
    let (es, st) ← visitCExprs o es [] st
    pure (", ".intercalate es :: st)
  -- `c.rs:569-573`
  | .tuple _, st => pure ("<<expr_tuple>>" :: st)
  -- `syn::visit::visit_expr` skips `Expr::Verbatim`
  | .verbatim, st => pure st
  -- the placeholders of all other expressions
  | .other k, st => pure ((if k = "break" then "break;" else "<<expr_" ++ k ++ ">>") :: st)

/-- The loops over arguments and elements: visit, pop, append. -/
def visitCExprs (o : COptions) : List RExpr → List String → List String → Res (List String × List String)
  | [], acc, st => pure (acc, st)
  | e :: es, acc, st => do
    let st ← visitCExpr o e st
    let (s, st) ← ctos st
    visitCExprs o es (acc ++ [s]) st

/-- `visit_stmt`, `c.rs:1253-1262`, with `visit_local`, `c.rs:959-976`, and `visit_item_const`, `c.rs:766-783`. -/
def visitCStmt (o : COptions) : RStmt → List String → Res (List String)
  | .expr e, st => do
    let st ← visitCExpr o e st
    let (e, st) ← ctos st
    pure ((e ++ ";") :: st)
  | .semi e, st => visitCExpr o e st
  | .decl n t, st => do
    let st ← visitPat n t st
    let (pat, st) ← ctos st
    pure (pat :: st)
  | .letInit n t e, st => do
    let st ← visitPat n t st
    let (pat, st) ← ctos st
    let st ← visitCExpr o e st
    let (e, st) ← ctos st
    pure ((pat ++ " = " ++ e) :: st)
  | .const n t e, st => do
    let st := n :: st
    let (ident, st) ← ctos st
    let st ← visitType t st
    let (ty, st) ← ctos st
    let st ← visitCExpr o e st
    let (e, st) ← ctos st
    pure (("const " ++ ty ++ " " ++ ident ++ " = " ++ e ++ ";") :: st)

/-- The statements of a block. -/
def visitCStmts (o : COptions) : List RStmt → List String → List String → Res (List String × List String)
  | [], acc, st => pure (acc, st)
  | s :: ss, acc, st => do
    let st ← visitCStmt o s st
    let (t, st) ← ctos st
    visitCStmts o ss (acc ++ [t]) st

/-- `visit_block`, `c.rs:206-215`. -/
def visitCBlock (o : COptions) : List RStmt → List String → Res (List String)
  | b, st => do
    let (ss, st) ← visitCStmts o b [] st
    pure (("{\n" ++ ";\n".intercalate ss ++ "\n}") :: st)
end

/-- `visit_fn_arg` on `x : T`. -/
def visitFnArgs : List (String × Name) → List String → List String → Res (List String × List String)
  | [], acc, st => pure (acc, st)
  | p :: ps, acc, st => do
    let st ← visitPat p.1 (some p.2) st
    let (a, st) ← ctos st
    visitFnArgs ps (acc ++ [a]) st

/-- `visit_return_type`, `c.rs:1191-1199`. -/
def visitReturn (r : Option RTy) (st : List String) : Res (List String) :=
  match r with
  | none => pure ("void" :: st)
  | some (.path p) => visitType p st
  | some (.tuple _) => pure ("<<type_tuple>>" :: st)

/-- `visit_signature`, `c.rs:1201-1245`. -/
def visitSignature (o : COptions) (f : RFn) (st : List String) : Res (List String) := do
  let st := f.name :: st
  let (ident, st) ← ctos st
  let ident := o.pre ++ ident
  let (args, st) ← visitFnArgs f.params [] st
  let args := ", ".intercalate args
  let st ← visitReturn f.ret st
  let (ret, st) ← ctos st
  pure ((ret ++ " " ++ ident ++ "(" ++ args ++ ")") :: st)

/-- `visit_item` with `visit_item_const`, `visit_item_type`, `c.rs:866-881`, `visit_item_fn`, `c.rs:797-810`. -/
def visitCItem (o : COptions) : RItem → List String → Res (List String)
  | .const n t e, st => visitCStmt o (.const n t e) st
  | .type n t, st => do
    let st := n :: st
    let (name, st) ← ctos st
    let st ← visitType t st
    let (ty, st) ← ctos st
    pure (("typedef " ++ ty ++ " " ++ name ++ ";") :: st)
  | .fn f, st => do
    let st ← visitSignature o f st
    let (sig, st) ← ctos st
    let st ← visitCBlock o f.body st
    let (block, st) ← ctos st
    pure ((sig ++ " { return (" ++ block ++ "); }") :: st)
  | .other k, st => pure (("<<item_" ++ k ++ ">>") :: st)

/-- The loop over the items of a file. -/
def visitCItems (o : COptions) : List RItem → List String → List String → Res (List String × List String)
  | [], acc, st => pure (acc, st)
  | i :: is, acc, st => do
    let st ← visitCItem o i st
    let (t, st) ← ctos st
    visitCItems o is (acc ++ [t]) st

/-- `to_c`, `c.rs:1527-1531`, with `visit_file`, `c.rs:644-659`. -/
def toC (o : COptions) (file : List RItem) : Res String := do
  let (items, st) ← visitCItems o file ["#include <math.h>"] []
  let st := "\n\n".intercalate items :: st
  let (text, _) ← ctos st
  pure text

end Verif
