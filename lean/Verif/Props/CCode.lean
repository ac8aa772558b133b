import Mathlib.Data.List.Basic
import Verif.Spec.CText

/-!
# C40, C42: the C generator
-/

namespace Verif

/-- What compound assignments leave behind. -/
def leftovers (n : ℕ) (st : List String) : List String := List.replicate n "<<expr_assign_op>>" ++ st

theorem leftovers_add (a b : ℕ) (st : List String) : leftovers a (leftovers b st) = leftovers (a + b) st := by
  rw [leftovers, leftovers, leftovers, ← List.append_assoc, List.replicate_append_replicate]

theorem leftovers_zero (st : List String) : leftovers 0 st = st := rfl

theorem leftovers_one (st : List String) : "<<expr_assign_op>>" :: st = leftovers 1 st := rfl

theorem visitType_spec (p : Name) (st : List String) : visitType p st = .ok (cType p :: st) := rfl

theorem visitPat_spec (n : String) (t : Option Name) (st : List String) : visitPat n t st = .ok (cPat n t :: st) := by
  cases t <;> rfl

theorem cTexts_length (o : COptions) : ∀ es, (RExpr.cTexts o es).length = es.length
  | [] => rfl
  | _ :: es => by simp [RExpr.cTexts, cTexts_length o es]

mutual
theorem visitCExpr_spec (o : COptions) (e : RExpr) (h : e.plain = true) (st : List String) :
    visitCExpr o e st = .ok (e.cText o :: leftovers e.compounds st) := by
  match e with
  | .lit l => simp [visitCExpr, RExpr.cText, RExpr.compounds, leftovers_zero]
  | .path p => simp [visitCExpr, RExpr.cText, RExpr.compounds, leftovers_zero]
  | .unary op e =>
    simp only [RExpr.plain] at h
    simp [visitCExpr, ctos, visitCExpr_spec o e h, RExpr.cText, RExpr.compounds]
  | .binary l op r =>
    simp only [RExpr.plain, Bool.and_eq_true] at h
    simp [visitCExpr, ctos, visitCExpr_spec o l h.1, visitCExpr_spec o r h.2, RExpr.cText, RExpr.compounds, leftovers_add, Nat.add_comm]
  | .method r m args =>
    simp only [RExpr.plain, Bool.and_eq_true] at h
    have hl := cTexts_length o args
    simp only [visitCExpr, visitCExpr_spec o r h.1.1, visitCExprs_spec o args h.1.2, ctos, RExpr.cText, RExpr.compounds, leftovers_add, Nat.add_comm,
      Res.ok_bind]
    by_cases hr : m = "round"
    · simp [hr, leftovers_add, Nat.add_comm]
    · by_cases hm : m = "mul_add"
      · subst hm
        have h2 : 2 ≤ args.length := by simpa using h.2
        match hts : RExpr.cTexts o args with
        | [] => simp [hts] at hl; omega
        | [_] => simp [hts] at hl; omega
        | b :: c :: _ => simp [leftovers_add, Nat.add_comm]
      · simp [hr, hm, leftovers_add, Nat.add_comm]
  | .call f args =>
    simp only [RExpr.plain, Bool.and_eq_true] at h
    simp only [visitCExpr, visitCExpr_spec o f h.1, visitCExprs_spec o args h.2, ctos, RExpr.cText, RExpr.compounds, leftovers_add, Nat.add_comm, Res.ok_bind]
    by_cases hf : f.cText o = "fty_from_bits" <;> simp [hf, leftovers_add, Nat.add_comm]
  | .paren e =>
    simp only [RExpr.plain] at h
    simp [visitCExpr, ctos, visitCExpr_spec o e h, RExpr.cText, RExpr.compounds]
  | .cast e t =>
    simp only [RExpr.plain] at h
    simp [visitCExpr, ctos, visitCExpr_spec o e h, visitType_spec, RExpr.cText, RExpr.compounds]
  | .ifThen c t =>
    simp only [RExpr.plain, Bool.and_eq_true] at h
    simp [visitCExpr, visitCBlock, ctos, visitCExpr_spec o c h.1, visitCStmts_spec o t h.2, RExpr.cText, RExpr.compounds, leftovers_add, Nat.add_comm]
  | .ifElse c t f =>
    simp only [RExpr.plain, Bool.and_eq_true] at h
    simp only [visitCExpr, visitCBlock, ctos, visitCExpr_spec o c h.1.1, visitCStmts_spec o t h.1.2, visitCExpr_spec o f h.2, RExpr.cText,
      RExpr.compounds, leftovers_add, Nat.add_comm, Nat.add_left_comm, Res.ok_bind, Res.pure_eq, List.nil_append]
  | .block b =>
    simp only [RExpr.plain] at h
    simp only [visitCExpr, visitCBlock, ctos, visitCStmts_spec o b h, RExpr.cText, RExpr.compounds, Res.ok_bind, Res.pure_eq, List.nil_append]
  | .assign l r =>
    simp only [RExpr.plain, Bool.and_eq_true] at h
    simp [visitCExpr, ctos, visitCExpr_spec o l h.1, visitCExpr_spec o r h.2, RExpr.cText, RExpr.compounds, leftovers_add, Nat.add_comm]
  | .assignOp l op r =>
    simp only [RExpr.plain, Bool.and_eq_true] at h
    simp [visitCExpr, ctos, visitCExpr_spec o l h.1, visitCExpr_spec o r h.2, RExpr.cText, RExpr.compounds, leftovers_one, leftovers_add, Nat.add_comm,
      Nat.add_left_comm]
  | .array es =>
    simp only [RExpr.plain] at h
    simp [visitCExpr, visitCExprs_spec o es h, RExpr.cText, RExpr.compounds]
  | .tuple _ => simp [visitCExpr, RExpr.cText, RExpr.compounds, leftovers_zero]
  | .verbatim => simp [RExpr.plain] at h
  | .other k => simp [visitCExpr, RExpr.cText, RExpr.compounds, leftovers_zero]

theorem visitCExprs_spec (o : COptions) (es : List RExpr) (h : RExpr.plainAll es = true) (acc st : List String) :
    visitCExprs o es acc st = .ok (acc ++ RExpr.cTexts o es, leftovers (RExpr.compoundsAll es) st) := by
  match es with
  | [] => simp [visitCExprs, RExpr.cTexts, RExpr.compoundsAll, leftovers_zero]
  | e :: es =>
    simp only [RExpr.plainAll, Bool.and_eq_true] at h
    simp [visitCExprs, ctos, visitCExpr_spec o e h.1, visitCExprs_spec o es h.2, RExpr.cTexts, RExpr.compoundsAll, leftovers_add, Nat.add_comm]

theorem visitCStmt_spec (o : COptions) (s : RStmt) (h : s.plain = true) (st : List String) :
    visitCStmt o s st = .ok (s.cText o :: leftovers s.compounds st) := by
  match s with
  | .expr e =>
    simp only [RStmt.plain] at h
    simp [visitCStmt, ctos, visitCExpr_spec o e h, RStmt.cText, RStmt.compounds]
  | .semi e =>
    simp only [RStmt.plain] at h
    simp [visitCStmt, visitCExpr_spec o e h, RStmt.cText, RStmt.compounds]
  | .decl n t => simp [visitCStmt, visitPat_spec, ctos, RStmt.cText, RStmt.compounds, leftovers_zero]
  | .letInit n t e =>
    simp only [RStmt.plain] at h
    simp [visitCStmt, visitPat_spec, ctos, visitCExpr_spec o e h, RStmt.cText, RStmt.compounds]
  | .const n t e =>
    simp only [RStmt.plain] at h
    simp [visitCStmt, visitType_spec, ctos, visitCExpr_spec o e h, RStmt.cText, RStmt.compounds]

theorem visitCStmts_spec (o : COptions) (ss : List RStmt) (h : RStmt.plainAll ss = true) (acc st : List String) :
    visitCStmts o ss acc st = .ok (acc ++ RStmt.cTexts o ss, leftovers (RStmt.compoundsAll ss) st) := by
  match ss with
  | [] => simp [visitCStmts, RStmt.cTexts, RStmt.compoundsAll, leftovers_zero]
  | s :: ss =>
    simp only [RStmt.plainAll, Bool.and_eq_true] at h
    simp [visitCStmts, ctos, visitCStmt_spec o s h.1, visitCStmts_spec o ss h.2, RStmt.cTexts, RStmt.compoundsAll, leftovers_add, Nat.add_comm]
end

/-- **C40** The text pushed for an expression is a function of the expression alone, whatever was visited before; below it lies only what compound
assignments leave. -/
theorem C40_expr (o : COptions) (e : RExpr) (h : e.plain = true) (st : List String) :
    visitCExpr o e st = .ok (e.cText o :: (List.replicate e.compounds "<<expr_assign_op>>" ++ st)) := visitCExpr_spec o e h st

/-- **C40** The same for statements. -/
theorem C40_stmt (o : COptions) (s : RStmt) (h : s.plain = true) (st : List String) :
    visitCStmt o s st = .ok (s.cText o :: (List.replicate s.compounds "<<expr_assign_op>>" ++ st)) := visitCStmt_spec o s h st

theorem visitFnArgs_spec (ps : List (String × Name)) (acc st : List String) :
    visitFnArgs ps acc st = .ok (acc ++ ps.map (fun p => cType p.2 ++ " " ++ p.1), st) := by
  induction ps generalizing acc with
  | nil => simp [visitFnArgs]
  | cons p ps ih => simp [visitFnArgs, visitPat_spec, ctos, ih, cPat]

theorem visitReturn_spec (r : Option RTy) (st : List String) : visitReturn r st = .ok (cReturn r :: st) := by
  match r with
  | none => rfl
  | some (.path p) => rfl
  | some (.tuple _) => rfl

/-- **C40** … and for items. -/
theorem C40_item (o : COptions) (i : RItem) (h : i.plain = true) (st : List String) :
    ∃ n, visitCItem o i st = .ok (i.cText o :: leftovers n st) := by
  match i with
  | .const n t e => exact ⟨_, visitCStmt_spec o (.const n t e) h st⟩
  | .type n t => exact ⟨0, by simp [visitCItem, ctos, visitType_spec, RItem.cText, leftovers_zero]⟩
  | .fn f =>
    simp only [RItem.plain] at h
    exact ⟨RStmt.compoundsAll f.body, by
      simp only [visitCItem, visitSignature, visitFnArgs_spec, visitReturn_spec, visitCBlock, ctos, visitCStmts_spec o f.body h, RItem.cText, cBlock,
        Res.ok_bind, Res.pure_eq, List.nil_append]⟩
  | .other k => exact ⟨0, rfl⟩

theorem visitCItems_spec (o : COptions) (is : List RItem) (h : ∀ i ∈ is, i.plain = true) (acc st : List String) :
    ∃ n, visitCItems o is acc st = .ok (acc ++ is.map (RItem.cText o), leftovers n st) := by
  induction is generalizing acc st with
  | nil => exact ⟨0, by simp [visitCItems, leftovers_zero]⟩
  | cons i is ih =>
    obtain ⟨a, ha⟩ := C40_item o i (h i (by simp)) st
    obtain ⟨b, hb⟩ := ih (fun j hj => h j (by simp [hj])) (acc ++ [i.cText o]) (leftovers a st)
    exact ⟨b + a, by simp [visitCItems, ha, ctos, hb, leftovers_add]⟩

/-- **C40** Translation of a file never pops an empty stack, and its text is that of its items one by one. -/
theorem C40_file (o : COptions) (file : List RItem) (h : ∀ i ∈ file, i.plain = true) :
    toC o file = .ok ("\n\n".intercalate ("#include <math.h>" :: file.map (RItem.cText o))) := by
  obtain ⟨n, hn⟩ := visitCItems_spec o file h ["#include <math.h>"] []
  simp [toC, hn, ctos]

/-- **C40** The restriction is needed: unparsed tokens pop an empty stack … -/
theorem C40_verbatim_panics (o : COptions) (n : String) (t : Name) (rest : List RItem) : toC o (.const n t .verbatim :: rest) = .panic := by
  simp [toC, visitCItems, visitCItem, visitCStmt, visitCExpr, visitType_spec, ctos]

/-- **C40** … or take the text of something else: here what an earlier compound assignment left. -/
theorem C40_verbatim_history (o : COptions) (n : String) (t : Name) (l r : RExpr) (hl : l.plain = true) (hr : r.plain = true) (st : List String) :
    ∃ text st', visitCStmts o [.semi (.assignOp l .addEq r), .letInit n (some t) .verbatim] [] st = .ok ([text, cType t ++ " " ++ n ++ " = <<expr_assign_op>>"], st') := by
  have h := visitCStmt_spec o (.semi (.assignOp l .addEq r)) (by simp [RStmt.plain, RExpr.plain, hl, hr]) st
  obtain ⟨k, hk⟩ : ∃ k, (RStmt.semi (.assignOp l .addEq r)).compounds = k + 1 :=
    ⟨l.compounds + r.compounds, by simp only [RStmt.compounds, RExpr.compounds]; omega⟩
  rw [hk] at h
  refine ⟨(RStmt.semi (.assignOp l .addEq r)).cText o, leftovers k st, ?_⟩
  have h1 : leftovers (k + 1) st = "<<expr_assign_op>>" :: leftovers k st := by simp [leftovers, List.replicate_succ]
  rw [visitCStmts, h, h1]
  simp only [Res.ok_bind, ctos, visitCStmts, visitCStmt, visitPat_spec, visitCExpr, Res.pure_eq, cPat, List.nil_append, List.cons_append]
  simp [String.append_assoc]

/-- **C40** … and `mul_add` with fewer than two arguments is an index out of range. -/
theorem C40_mul_add_panics (o : COptions) (r a : RExpr) (hr : r.plain = true) (ha : a.plain = true) (st : List String) :
    visitCExpr o (.method r "mul_add" [a]) st = .panic := by
  simp [visitCExpr, visitCExpr_spec o r hr, visitCExprs, visitCExpr_spec o a ha, ctos]

/-- A program that meets the hypothesis: a constant and `fn f(x: f64) -> f64 { let mut y: f64 = x; y += 2.0; y.mul_add(x, C) }`. -/
def cSample : List RItem :=
  [.const "C" ["f64"] (.lit (.float "0.5".toList "")),
   .fn ⟨"f", [("x", ["f64"])], some (.path ["f64"]),
     [.letInit "y" (some ["f64"]) (.path ["x"]), .semi (.assignOp (.path ["y"]) .addEq (.lit (.float "2.0".toList ""))),
      .expr (.method (.path ["y"]) "mul_add" [.path ["x"], .path ["C"]])]⟩]

example : ∀ i ∈ cSample, i.plain = true := by decide

example : toC ⟨"ds64_", ""⟩ cSample = .ok ("#include <math.h>\n\nconst double C = 0.5;\n\n" ++
    "double ds64_f(double x) { return ({\ndouble y = x;\ny += 2.0;\n((y\n) * (x) + (C));\n}); }") := by
  rw [C40_file _ _ (by decide)]; decide

/-! ## C42 -/

/-- What a scalar type holds. -/
inductive Scalar where
  | int (signed : Bool) (bits : ℕ)
  | float (bits : ℕ)
  | bool
  | char
  deriving DecidableEq

/-- The scalar types of Rust on a machine with 64 bit pointers. -/
def rustScalars : List (String × Scalar) :=
  [("bool", .bool), ("char", .char), ("i8", .int true 8), ("i16", .int true 16), ("i32", .int true 32), ("i64", .int true 64), ("i128", .int true 128),
   ("isize", .int true 64), ("u8", .int false 8), ("u16", .int false 16), ("u32", .int false 32), ("u64", .int false 64), ("u128", .int false 128),
   ("usize", .int false 64), ("f32", .float 32), ("f64", .float 64)]

/-- The arithmetic types of C on a machine with 32 bit `int` and 64 bit `long`. -/
def cScalars : List (String × Scalar) :=
  [("_Bool", .bool), ("signed char", .int true 8), ("unsigned char", .int false 8), ("short", .int true 16), ("unsigned short", .int false 16),
   ("int", .int true 32), ("unsigned int", .int false 32), ("long", .int true 64), ("unsigned long", .int false 64),
   ("long long", .int true 64), ("unsigned long long", .int false 64), ("float", .float 32), ("double", .float 64)]

/-- **C42** Of the scalar types of Rust, exactly these six are printed as the C type that holds the same values.  `bool` becomes `int`; the others are left as
they are and are no types of C. -/
theorem C42_types_iff_partial : ∀ t ∈ rustScalars, cScalars.lookup (cType [t.1]) = some t.2 ↔ t.1 ∈ ["i32", "i64", "u32", "u64", "f32", "f64"] := by
  decide

/-- **C42** A name that is no scalar type is left alone. -/
theorem C42_other_types (p : Name) (h : cPath p ∉ rustScalars.map Prod.fst) : cType p = cPath p := by
  simp only [rustScalars, List.map_cons, List.map_nil, List.mem_cons, not_or] at h
  simp [cType, translateBasicTypes, h]

/-- The name a C function definition declares: prefix and name. -/
theorem C42_definition (o : COptions) (f : RFn) :
    ∃ ps, (RItem.fn f).cText o = cReturn f.ret ++ " " ++ (o.pre ++ f.name) ++ "(" ++ ps ++ ")" ++ " { return (" ++ cBlock o f.body ++ "); }" := ⟨_, rfl⟩

/-- **C42** A call of a function by its name is a call of the name its definition declares, with the texts of the arguments. -/
theorem C42_call_partial (o : COptions) (f : RFn) (args : List RExpr) (h : f.name ≠ "fty_from_bits") :
    (RExpr.call (.path [f.name]) args).cText o = (o.pre ++ f.name) ++ "(" ++ ", ".intercalate (RExpr.cTexts o args) ++ ")" := by
  have : cPath [f.name] = f.name := rfl
  simp [RExpr.cText, this, h]

/-- **C42** The one exception: a function of this name is never called. -/
theorem C42_from_bits (o : COptions) (args : List RExpr) :
    (RExpr.call (.path ["fty_from_bits"]) args).cText o = "({ union { fty f; uty u; } u; u.u = (" ++ ", ".intercalate (RExpr.cTexts o args) ++ "); u.f; })" := by
  have : cPath ["fty_from_bits"] = "fty_from_bits" := by decide
  simp [RExpr.cText, this]

/-- **C42** is false for methods: `x.m()` is a call of `m`, which is the name that a function `m` is defined under only if there is no prefix. -/
theorem C42_methods (o : COptions) (r : RExpr) (m : String) (args : List RExpr) (h : m ≠ "mul_add" ∧ m ≠ "round") :
    (RExpr.method r m args).cText o = m ++ "(" ++ ", ".intercalate (r.cText o :: RExpr.cTexts o args) ++ ")" ∧ (o.pre ++ m = m ↔ o.pre = "") := by
  refine ⟨by simp [RExpr.cText, h.1, h.2], ?_⟩
  constructor
  · intro h'
    have := congrArg String.length h'
    rw [String.length_append] at this
    exact String.length_eq_zero_iff.mp (by omega)
  · rintro h'; simp [h']

/-- **C42** Paths are joined with `_`, so that different paths can meet. -/
theorem C42_paths_meet : cPath ["a", "b"] = cPath ["a_b"] := by decide

end Verif
