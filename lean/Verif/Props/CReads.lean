import Verif.Props.CGroups
import Verif.Props.CCode
import Verif.Lemmas.CLex

/-!
# C41, text: reading the C text of an expression
-/

namespace Verif

theorem LexesTo.unique {tys : List String} {s : List Char} {ts ts' : List (PTok CWord)} (h : LexesTo tys s ts) (h' : LexesTo tys s ts') : ts = ts' := by
  obtain ⟨n, hn⟩ := h
  obtain ⟨m, hm⟩ := h'
  have := (hn (max n m) (Nat.le_max_left _ _)).symm.trans (hm (max n m) (Nat.le_max_right _ _))
  simpa using this

/-- C reads a text as at most one tree. -/
theorem CReads.unique {tys : List String} {s : String} {e e' : PExpr CWord} (h : CReads tys s e) (h' : CReads tys s e') : e = e' := by
  obtain ⟨ts, h1, h2⟩ := h
  obtain ⟨ts', h1', h2'⟩ := h'
  rw [h1.unique h1'] at h2
  exact h2.unique h2'

/-- The text of an expression has the tokens of its C tree. -/
theorem C41_lexes (tys : List String) (o : COptions) (e : RExpr) (hw : e.cWords tys o = true) (hs : e.cShape = true) :
    LexesTo tys (e.cText o).toList ((e.cTree o).print cLang) := by
  simpa using lexes_expr o e hw hs [] [] (.inl rfl) lexes_nil

/-- **C41** The text that the generator pushes for an expression parsed from Rust, of well-formed words, is read by C as the tree meant, exactly if no bare `|`, `^`, `&` is
under a comparison (`if` has no part in `cWords`; for it see `C41_tokens_iff`).  The words must not have two minus signs in a row.
Full claim: C reads every parsed expression as the tree meant; false, see `C41_bits_wrong`, `C41_minus_wrong` and `C41_if_wrong`. -/
theorem C41_text_iff_partial (tys : List String) (o : COptions) (e : RExpr) (st : List String) (hs : e.cShape = true) (hp : e.Parsed)
    (hw : e.cWords tys o = true) (hpl : e.plain = true) :
    ∃ text st', visitCExpr o e st = .ok (text :: st') ∧ (CReads tys text (e.cTree o) ↔ e.cGroups = true) := by
  refine ⟨_, _, C40_expr o e hpl st, ?_⟩
  rw [← C41_tokens_iff o e hs hp]
  have hl := C41_lexes tys o e hw hs
  constructor
  · rintro ⟨ts, h1, h2⟩
    rwa [h1.unique hl] at h2
  · intro h; exact ⟨_, hl, h⟩

/-- **C41** … and then as nothing else. -/
theorem C41_reads_only (tys : List String) (o : COptions) (e : RExpr) (hs : e.cShape = true) (hp : e.Parsed) (hw : e.cWords tys o = true)
    (hg : e.cGroups = true) (t : PExpr CWord) (h : CReads tys (e.cText o) t) : t = e.cTree o :=
  h.unique ⟨_, C41_lexes tys o e hw hs, (C41_tokens_iff o e hs hp).mpr hg⟩

/-- The hypotheses are met: `(x as ity & 1) == 0 && -x.sin() * 2.5e-3 < y.mul_add(z, w)`. -/
def cReadSample : RExpr :=
  .binary (.binary (.paren (.binary (.cast (.path ["x"]) ["ity"]) .bitAnd (.lit (.int "1".toList "")))) .eq (.lit (.int "0".toList "")))
    .and (.binary (.binary (.unary .neg (.method (.path ["x"]) "sin" [])) .mul (.lit (.float "2.5e-3".toList ""))) .lt
      (.method (.path ["y"]) "mul_add" [.path ["z"], .path ["w"]]))

example : cReadSample.cShape = true ∧ cReadSample.Parsed ∧ cReadSample.cWords ["fty", "ity", "uty"] ⟨"ds32_", "f"⟩ = true ∧ cReadSample.plain = true ∧
    cReadSample.cGroups = true ∧ cReadSample.cText ⟨"ds32_", "f"⟩ = "((ity)x & 1) == 0 && -sin(x) * 2.5e-3 < ((y\n) * (z) + (w))" := by
  refine ⟨by decide, ?_, by decide, by decide, by decide, by decide⟩
  simp only [RExpr.Parsed, cReadSample, RExpr.rustTree, RExpr.rustTrees, PExpr.fits, PExpr.fitsAll]
  refine ⟨2, rfl, by decide, ⟨3, rfl, by decide, ⟨6, rfl, by decide, ?_, trivial⟩, trivial⟩, 3, rfl, by decide,
    ⟨9, rfl, by decide, ⟨by decide, rfl, trivial, trivial⟩, trivial⟩, trivial, trivial, trivial, trivial⟩
  rw [if_neg (by decide)]
  exact ⟨10, rfl, by decide, by decide, trivial⟩

/-- **C41** is false for bit operators under comparisons: Rust's `a & b == c` compares `a & b`; its C text, the same, compares `b`. -/
theorem C41_bits_wrong (o : COptions) :
    let e : RExpr := .binary (.binary (.path ["a"]) .bitAnd (.path ["b"])) .eq (.path ["c"])
    e.Parsed ∧ e.cText o = "a & b == c" ∧ ¬ CReads [] (e.cText o) (e.cTree o) ∧
      CReads [] (e.cText o) (.binary (.atom (.text "a")) "&" (.binary (.atom (.text "b")) "==" (.atom (.text "c")))) := by
  have hp : (RExpr.binary (.binary (.path ["a"]) .bitAnd (.path ["b"])) .eq (.path ["c"])).Parsed := by
    simp only [RExpr.Parsed, RExpr.rustTree, PExpr.fits]
    exact ⟨3, rfl, by decide, ⟨6, rfl, by decide, trivial, trivial⟩, trivial⟩
  have hl := C41_lexes [] o (.binary (.binary (.path ["a"]) .bitAnd (.path ["b"])) .eq (.path ["c"])) rfl rfl
  have hr : CReads [] ((RExpr.binary (.binary (.path ["a"]) .bitAnd (.path ["b"])) .eq (.path ["c"])).cText o)
      (.binary (.atom (.text "a")) "&" (.binary (.atom (.text "b")) "==" (.atom (.text "c")))) := by
    refine ⟨_, hl, ?_⟩
    rw [Lang.reads_iff _ cLang_sound]
    refine ⟨?_, rfl⟩
    simp only [PExpr.fits]
    exact ⟨6, rfl, by decide, trivial, 7, rfl, by decide, trivial, trivial⟩
  refine ⟨hp, rfl, fun h => ?_, hr⟩
  have := h.unique hr
  simp [RExpr.cTree, BinOp.sym] at this

/-- **C41** is false for two minus signs in a row: Rust's `- -x` becomes the C text `--x`, which decrements `x`. -/
theorem C41_minus_wrong (o : COptions) :
    let e : RExpr := .unary .neg (.unary .neg (.path ["x"]))
    e.Parsed ∧ e.cText o = "--x" ∧ ¬ CReads [] (e.cText o) (e.cTree o) ∧ CReads [] (e.cText o) (.unary "--" (.atom (.text "x"))) := by
  have hp : (RExpr.unary .neg (.unary .neg (.path ["x"]))).Parsed := by
    simp only [RExpr.Parsed, RExpr.rustTree, PExpr.fits]
    exact ⟨by decide, rfl, by decide, rfl, trivial⟩
  have hr : CReads [] ((RExpr.unary .neg (.unary .neg (.path ["x"]))).cText o) (.unary "--" (.atom (.text "x"))) := by
    refine ⟨[.op "--", .word (.text "x")], ?_, ?_⟩
    · rw [show ((RExpr.unary .neg (.unary .neg (.path ["x"]))).cText o) = "--x" from rfl, show "--x".toList = ['-', '-', 'x'] from rfl, show PTok.op "--" = punctTok "--" from rfl]
      exact lexes_punct (tys := []) '-' ['-', 'x'] ['x'] "--" _ (by decide) (by decide) (by decide) (by decide) rfl
        (lexes_ident "x" [] [] (by decide) (.inl rfl) lexes_nil)
    · rw [Lang.reads_iff _ cLang_sound]
      exact ⟨⟨by decide, rfl, trivial⟩, rfl⟩
  refine ⟨hp, rfl, fun h => ?_, hr⟩
  have := h.unique hr
  simp [RExpr.cTree, UnOp.sym] at this

/-- **C41** The same for a minus before a literal that has its own, as evaluated constants do: `--0.5` is no C expression of any value. -/
theorem C41_minus_literal_wrong (o : COptions) :
    let e : RExpr := .unary .neg (.lit (.float "-0.5".toList ""))
    e.Parsed ∧ e.cText o = "--0.5" ∧ CReads [] (e.cText o) (.unary "--" (.atom (.text "0.5"))) := by
  refine ⟨?_, rfl, [.op "--", .word (.text "0.5")], ?_, ?_⟩
  · simp only [RExpr.Parsed, RExpr.rustTree, PExpr.fits]
    exact ⟨by decide, rfl, trivial⟩
  · rw [show ((RExpr.unary .neg (.lit (.float "-0.5".toList ""))).cText o) = "--0.5" from rfl, show "--0.5".toList = ['-', '-', '0', '.', '5'] from rfl,
      show PTok.op "--" = punctTok "--" from rfl]
    exact lexes_punct (tys := []) '-' ['-', '0', '.', '5'] ['0', '.', '5'] "--" [.word (.text "0.5")] (by decide) (by decide) (by decide) (by decide) rfl
      (lexes_number ['0', '.', '5'] [] [] (by decide) (.inl rfl) lexes_nil)
  · rw [Lang.reads_iff _ cLang_sound]
    exact ⟨⟨by decide, rfl, trivial⟩, rfl⟩

/-- **C41** is false for `if` under an operator: Rust's `2.0 * if c { a } else { b }` becomes `2.0 * (c) ? ({a;}) : (({b;}))`, whose condition is `2.0 * (c)`. -/
theorem C41_if_wrong (o : COptions) (a b : List RStmt) :
    let e : RExpr := .binary (.lit (.float "2.0".toList "")) .mul (.ifElse (.path ["c"]) a (.block b))
    e.Parsed ∧ ¬ cLang.Reads ((e.cTree o).print cLang) (e.cTree o) ∧
      cLang.Reads ((e.cTree o).print cLang) (.ternary (.binary (.atom (.text "2.0")) "*" (.paren (.atom (.text "c")))) (.paren (.atom (.stmts a)))
        (.paren (.paren (.atom (.stmts b))))) := by
  have hp : (RExpr.binary (.lit (.float "2.0".toList "")) .mul (.ifElse (.path ["c"]) a (.block b))).Parsed := by
    simp only [RExpr.Parsed, RExpr.rustTree, PExpr.fits, PExpr.fitsAll]
    exact ⟨9, rfl, by decide, trivial, trivial, rfl, trivial, trivial, trivial⟩
  refine ⟨hp, ?_, ?_⟩
  · rw [C41_tokens_iff o _ rfl hp]; simp [RExpr.cGroups, RExpr.isIf]
  · rw [Lang.reads_iff _ cLang_sound]
    refine ⟨?_, rfl⟩
    simp only [PExpr.fits]
    exact ⟨1, rfl, by decide, by decide, ⟨11, rfl, by decide, trivial, trivial⟩, trivial, trivial⟩

end Verif
