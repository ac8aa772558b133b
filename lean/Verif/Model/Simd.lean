import Verif.Model.Res
import Verif.Model.RustCode

/-!
# The vectoriser, `doctor-syn/src/codegen/portable_simd.rs`

`SimdVisitor` rewrites expressions from the inside out.  Its results are built with `parse_quote!`, which puts the pieces side by side as text and
parses again; only in `#expr.cast::<T>()` does that regroup anything.  `e.cast::<T>()` is the method `cast::<T>` here.
Not modelled: attributes and the fixed frame of the output (imports, `impl` header, associated types).
-/

namespace Verif

/-- `visit_ident_mut`, `portable_simd.rs:59-71`. -/
def simdIdent (s : String) : String := if s = "fty" then "Self" else s

/-- `visit_type_path_mut`, `portable_simd.rs:81-88`. -/
def simdType (t : Name) : Name :=
  if t = ["uty"] then ["Self", "UintType"] else if t = ["ity"] then ["Self", "IntType"] else if t = ["fty"] then ["Self"] else t

/-- The text `#e.m()`, parsed again: the method goes to what stands last.  After `x as T` it does not parse, and `parse_quote!` panics. -/
def attachMethod (m : String) : RExpr → Res RExpr
  | .unary op e => do pure (.unary op (← attachMethod m e))
  | .binary l op r => do pure (.binary l op (← attachMethod m r))
  | .assign l r => do pure (.assign l (← attachMethod m r))
  | .assignOp l op r => do pure (.assignOp l op (← attachMethod m r))
  | .cast _ _ => .panic
  | e => pure (.method e m [])

/-- `convert_cast`, `portable_simd.rs:148-162`. -/
def convertCast (b32 : Bool) (e : RExpr) (ty : Name) : Res RExpr :=
  if ty = ["uty"] ∨ ty = ["Self", "UintType"] then attachMethod (if b32 then "cast::<u32>" else "cast::<u64>") e
  else if ty = ["ity"] ∨ ty = ["Self", "IntType"] then attachMethod (if b32 then "cast::<i32>" else "cast::<i64>") e
  else if ty = ["fty"] ∨ ty = ["Self"] then attachMethod (if b32 then "cast::<f32>" else "cast::<f64>") e
  else pure (.cast e ty)

/-- `convert_binary`, `portable_simd.rs:164-182`: comparisons become methods. -/
def convertBinary (l : RExpr) (op : BinOp) (r : RExpr) : RExpr :=
  match op with
  | .eq => .method (.paren l) "lanes_eq" [r]
  | .lt => .method (.paren l) "lanes_lt" [r]
  | .le => .method (.paren l) "lanes_le" [r]
  | .ne => .method (.paren l) "lanes_ne" [r]
  | .ge => .method (.paren l) "lanes_ge" [r]
  | .gt => .method (.paren l) "lanes_gt" [r]
  | _ => .binary l op r

/-- The names turned into methods, `portable_simd.rs:188`. -/
def simdCalls : List String := ["sin", "cos", "tan", "exp2", "powf", "log2", "ln"]

/-- `convert_call`, `portable_simd.rs:184-196`: a call without arguments panics. -/
def convertCall (f : RExpr) (args : List RExpr) : Res RExpr :=
  match args with
  | [] => .panic
  | a :: rest =>
    match f with
    | .path [g] => if g ∈ simdCalls then pure (.method (.paren a) g rest) else pure (.call f args)
    | _ => pure (.call f args)

/-- `convert_lit_float`, `convert_lit_int`, `portable_simd.rs:198-224`. -/
def convertLit (l : Lit) : RExpr :=
  match l with
  | .float _ s =>
    if s = "u32" ∨ s = "u64" then .call (.path ["UintType", "splat"]) [.lit l]
    else if s = "i32" ∨ s = "i64" then .call (.path ["IntType", "splat"]) [.lit l]
    else .call (.path ["Self", "splat"]) [.lit l]
  | .int _ s =>
    if s = "u32" ∨ s = "u64" then .call (.path ["Self", "UintType", "splat"]) [.lit l]
    else if s = "i32" ∨ s = "i64" then .call (.path ["Self", "IntType", "splat"]) [.lit l]
    else .call (.path ["Self", "splat"]) [.lit l]
  | _ => .lit l

/-- The constants of the float types, `portable_simd.rs:124-135`. -/
def convertPath (p : Name) : RExpr :=
  if p ∈ [["f32", "NAN"], ["f64", "NAN"], ["f32", "INFINITY"], ["f64", "INFINITY"], ["f32", "MIN_POSITIVE"], ["f64", "MIN_POSITIVE"]] then
    .call (.path ["Self", "splat"]) [.path p]
  else .path p

/-- `deblock1`, `portable_simd.rs:38-45`: panics unless the block is a single expression. -/
def deblock1 : List RStmt → Res RExpr
  | [.expr e] => pure e
  | _ => .panic

/-- `deblock2`, `portable_simd.rs:47-56`. -/
def deblock2 : RExpr → RExpr
  | .block [.expr e] => e
  | e => e

mutual
/-- `visit_expr_mut`, `portable_simd.rs:91-138`. -/
def simdExpr (b32 : Bool) : RExpr → Res RExpr
  | .lit l => pure (convertLit l)
  | .path p => pure (convertPath (p.map simdIdent))
  | .unary op e => do pure (.unary op (← simdExpr b32 e))
  | .binary l op r => do
    let l ← simdExpr b32 l
    let r ← simdExpr b32 r
    pure (convertBinary l op r)
  | .method r m args => do
    let r ← simdExpr b32 r
    let args ← simdExprs b32 args
    pure (.method r (simdIdent m) args)
  | .call f args => do
    let f ← simdExpr b32 f
    let args ← simdExprs b32 args
    convertCall f args
  | .paren e => do pure (.paren (← simdExpr b32 e))
  | .cast e ty => do
    let e ← simdExpr b32 e
    convertCast b32 e (simdType ty)
  | .ifThen c t => do
    let c ← simdExpr b32 c
    let t ← simdStmts b32 t
    let _ ← deblock1 t
    pure (.ifThen c t)
  | .ifElse c t f => do
    let c ← simdExpr b32 c
    let t ← simdStmts b32 t
    let f ← simdExpr b32 f
    let t ← deblock1 t
    pure (.method (.paren c) "select" [t, deblock2 f])
  | .block b => do pure (.block (← simdStmts b32 b))
  | .assign l r => do
    let l ← simdExpr b32 l
    let r ← simdExpr b32 r
    pure (.assign l r)
  | .assignOp l op r => do
    let l ← simdExpr b32 l
    let r ← simdExpr b32 r
    pure (.assignOp l op r)
  | .array es => do pure (.array (← simdExprs b32 es))
  | .tuple es => do pure (.tuple (← simdExprs b32 es))
  | .verbatim => pure .verbatim
  | .other k => pure (.other k)

def simdExprs (b32 : Bool) : List RExpr → Res (List RExpr)
  | [] => pure []
  | e :: es => do
    let e ← simdExpr b32 e
    let es ← simdExprs b32 es
    pure (e :: es)

/-- Statements: `visit_local_mut`, `portable_simd.rs:140-145`, drops the type of a `let`; constants keep theirs, translated. -/
def simdStmt (b32 : Bool) : RStmt → Res RStmt
  | .decl n _ => pure (.decl (simdIdent n) none)
  | .letInit n _ e => do pure (.letInit (simdIdent n) none (← simdExpr b32 e))
  | .expr e => do pure (.expr (← simdExpr b32 e))
  | .semi e => do pure (.semi (← simdExpr b32 e))
  | .const n t e => do pure (.const (simdIdent n) (simdType t) (← simdExpr b32 e))

def simdStmts (b32 : Bool) : List RStmt → Res (List RStmt)
  | [] => pure []
  | s :: ss => do
    let s ← simdStmt b32 s
    let ss ← simdStmts b32 ss
    pure (s :: ss)
end

mutual
/-- The identifiers that `visit_ident_mut` sees in an expression; types are not among them. -/
def RExpr.idents : RExpr → List String
  | .lit _ => []
  | .path p => p
  | .unary _ e => e.idents
  | .binary l _ r => l.idents ++ r.idents
  | .method r m args => r.idents ++ m :: RExpr.identsAll args
  | .call f args => f.idents ++ RExpr.identsAll args
  | .paren e => e.idents
  | .cast e _ => e.idents
  | .ifThen c t => c.idents ++ RStmt.identsAll t
  | .ifElse c t f => c.idents ++ RStmt.identsAll t ++ f.idents
  | .block b => RStmt.identsAll b
  | .assign l r => l.idents ++ r.idents
  | .assignOp l _ r => l.idents ++ r.idents
  | .array es => RExpr.identsAll es
  | .tuple es => RExpr.identsAll es
  | .verbatim => []
  | .other _ => []

def RExpr.identsAll : List RExpr → List String
  | [] => []
  | e :: es => e.idents ++ RExpr.identsAll es

def RStmt.idents : RStmt → List String
  | .decl n _ => [n]
  | .letInit n _ e => n :: e.idents
  | .expr e => e.idents
  | .semi e => e.idents
  | .const n _ e => n :: e.idents

def RStmt.identsAll : List RStmt → List String
  | [] => []
  | s :: ss => s.idents ++ RStmt.identsAll ss
end

/-- A constant seen so far. -/
structure SimdConst where
  name : String
  ty : Name
  value : RExpr

/-- A method of the output: the parameters after `self`, the body.  The result type is always `Self`. -/
structure SimdMethod where
  name : String
  params : List (String × Name)
  body : List RStmt

/-- The constants put before the body, `portable_simd.rs:273-281`: each is inserted at the front, so the last comes first.  Visiting the value of one adds to the
identifiers used when the next is looked at. -/
def insertConsts (b32 : Bool) : List SimdConst → List String → List RStmt → Res (List RStmt)
  | [], _, body => pure body
  | c :: cs, used, body =>
    if c.name ∈ used then do
      let e ← simdExpr b32 c.value
      insertConsts b32 cs (used ++ c.value.idents) (.letInit c.name none e :: body)
    else insertConsts b32 cs used body

/-- A function, `portable_simd.rs:73-79, 257-290`: the first parameter becomes `self`; a function without parameters panics. -/
def simdFn (b32 : Bool) (consts : List SimdConst) (f : RFn) : Res SimdMethod :=
  match f.params with
  | [] => .panic
  | p :: ps => do
    let body ← simdStmts b32 (.letInit p.1 none (.path ["self"]) :: f.body)
    let used := f.name :: (f.params.map (·.1)) ++ RStmt.identsAll (.letInit p.1 none (.path ["self"]) :: f.body)
    let body ← insertConsts b32 consts used body
    pure ⟨simdIdent f.name, ps.map (fun q => (simdIdent q.1, simdType q.2)), body⟩

/-- The loop of `to_simd`, `portable_simd.rs:250-294`. -/
def simdItems (b32 : Bool) : List RItem → List SimdConst → Res (List SimdMethod)
  | [], _ => pure []
  | .const n t e :: rest, cs => simdItems b32 rest (cs ++ [⟨n, t, e⟩])
  | .fn f :: rest, cs => do
    let m ← simdFn b32 cs f
    let ms ← simdItems b32 rest cs
    pure (m :: ms)
  | _ :: rest, cs => simdItems b32 rest cs

/-- `to_simd`: the methods of the `impl` block. -/
def toSimd (b32 : Bool) (file : List RItem) : Res (List SimdMethod) := simdItems b32 file []

end Verif
