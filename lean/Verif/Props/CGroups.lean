import Verif.Spec.CTokens
import Verif.Lemmas.Grammar
import Mathlib.Tactic.IntervalCases

/-!
# C41, tokens: does C group the operators as Rust does?
-/

namespace Verif

/-- The C level that every operator of Rust level `k` or tighter reaches. -/
def upLevel (k : ℕ) : ℕ := [0, 2, 3, 4, 4, 5, 6, 9, 10, 11, 12, 12].getD k 12

theorem upLevel_mono {i j : ℕ} (h : i ≤ j) (hj : j ≤ 11) : upLevel i ≤ upLevel j := by
  revert h
  have : i ≤ j → i ≤ 11 := fun h => Nat.le_trans h hj
  intro h
  have hi := this h
  interval_cases j <;> interval_cases i <;> first | decide | omega

/-- Operators that are no assignments, in the two languages. -/
theorem op_levels (op : BinOp) (h : op.assigns = false) : ∃ jr jc, rustLang.level op.sym = some jr ∧ cLang.level op.sym = some jc ∧
    1 ≤ jr ∧ jr ≤ 9 ∧ 2 ≤ jc ∧ jc ≤ 11 ∧ cLang.kind jc = .left ∧ upLevel jr ≤ jc ∧
    ((op.compares = true ∧ jr = 3 ∧ rustLang.kind jr = .non ∧ 7 ≤ jc ∧ jc + 1 ≤ 9) ∨
      (op.compares = false ∧ rustLang.kind jr = .left ∧ jc = upLevel jr ∧ jc + 1 ≤ upLevel (jr + 1))) := by
  cases op <;> first | (cases h; done) | exact ⟨_, _, rfl, rfl, by decide, by decide, by decide, by decide, by decide, by decide, by decide⟩

theorem bits_level (op : BinOp) (h : (op == .bitOr || op == .bitXor || op == .bitAnd) = true) :
    ∃ j, cLang.level op.sym = some j ∧ j ≤ 6 := by
  cases op <;> first | (cases h; done) | exact ⟨_, rfl, by decide⟩

theorem not_bits_level (op : BinOp) (h : (op == .bitOr || op == .bitXor || op == .bitAnd) = false) (j : ℕ) (hj : rustLang.level op.sym = some j) (h4 : 4 ≤ j) :
    7 ≤ j := by
  revert h4
  cases op <;> first | (cases h; done) | (simp [rustLang, BinOp.sym] at hj; omega)

theorem assign_level (op : BinOp) (h : op.assigns = true) : rustLang.level op.sym = some 0 ∧ cLang.level op.sym = some 0 := by
  cases op <;> first | (cases h; done) | exact ⟨rfl, rfl⟩

theorem c_prefix (op : UnOp) : cLang.isPrefix op.sym = true := by cases op <;> decide

theorem cTrees_length (o : COptions) (es : List RExpr) : (RExpr.cTrees o es).length = es.length := by
  induction es with
  | nil => rfl
  | cons e es ih => simp [RExpr.cTrees, ih]

theorem lit_cTree_fits (l : Lit) (k : ℕ) (h : k ≤ 12) : l.cTree.fits cLang k := by
  unfold Lit.cTree
  split <;> simp [PExpr.fits, cLang, h]

/-- An expression of level 4 or tighter that is no bare bit operator has level 7 or tighter. -/
theorem fits_not_bits (e : RExpr) (hs : e.cShape = true) (h : e.rustTree.fits rustLang 4) (hb : e.isBits = false) : e.rustTree.fits rustLang 7 := by
  cases e with
  | binary l op r =>
    simp only [RExpr.rustTree, PExpr.fits] at h ⊢
    obtain ⟨j, h1, h2, h3⟩ := h
    exact ⟨j, h1, not_bits_level op (by simpa [RExpr.isBits] using hb) j h1 h2, h3⟩
  | unary op e =>
    simp only [RExpr.rustTree, PExpr.fits] at h ⊢
    exact ⟨by decide, h.2⟩
  | cast e t =>
    simp only [RExpr.rustTree, PExpr.fits] at h ⊢
    simp only [rustLang, Bool.false_eq_true, if_false] at h ⊢
    obtain ⟨j, h1, h2, h3, h4⟩ := h
    refine ⟨j, h1, h2, ?_, h4⟩
    split_ifs at h1
    omega
  | assign l r =>
    simp only [RExpr.rustTree, PExpr.fits] at h
    obtain ⟨j, h1, h2, h3⟩ := h
    simp [rustLang] at h1
    omega
  | assignOp l op r =>
    have : op.assigns = true := by
      cases l <;> simp_all [RExpr.cShape]
    simp only [RExpr.rustTree, PExpr.fits] at h
    obtain ⟨j, h1, h2, h3⟩ := h
    rw [(assign_level op this).1] at h1
    simp at h1
    omega
  | _ => simp_all [RExpr.rustTree, PExpr.fits]

mutual
/-- From Rust's grouping to C's. -/
theorem cTree_fits (o : COptions) (e : RExpr) (k : ℕ) (hk : k ≤ 11) (hs : e.cShape = true) (hr : e.rustTree.fits rustLang k) (hg : e.cGroups = true)
    (hi : k = 0 ∨ e.isIf = false) : (e.cTree o).fits cLang (upLevel k) := by
  have hup : upLevel k ≤ 12 := upLevel_mono hk (Nat.le_refl 11)
  match e with
  | .lit l => exact lit_cTree_fits l _ hup
  | .path p => simp [RExpr.cTree, PExpr.fits]
  | .unary op e =>
    simp only [RExpr.cShape] at hs
    simp only [RExpr.rustTree, PExpr.fits] at hr
    simp only [RExpr.cGroups, Bool.and_eq_true, Bool.not_eq_true'] at hg
    simp only [RExpr.cTree, PExpr.fits]
    exact ⟨hup, c_prefix op, cTree_fits o e 11 (Nat.le_refl _) hs hr.2.2 hg.2 (.inr hg.1)⟩
  | .binary l op r =>
    simp only [RExpr.cShape, Bool.and_eq_true, Bool.not_eq_true'] at hs
    simp only [RExpr.rustTree, PExpr.fits] at hr
    simp only [RExpr.cGroups, Bool.and_eq_true, Bool.not_eq_true', Bool.or_eq_true] at hg
    obtain ⟨jr, jc, h1, h2, h3, h4, h5, h6, h7, h8, h9⟩ := op_levels op hs.1.1
    obtain ⟨j, hj, hkj, hr⟩ := hr
    obtain rfl : jr = j := by rw [h1] at hj; simpa using hj
    simp only [RExpr.cTree, PExpr.fits]
    refine ⟨jc, h2, Nat.le_trans (upLevel_mono hkj (by omega)) h8, ?_⟩
    simp only [h7]
    rcases h9 with ⟨hc, rfl, hkind, h10, h11⟩ | ⟨hc, hkind, h10, h11⟩
    · simp only [hkind] at hr
      have hb : l.isBits = false ∧ r.isBits = false := by
        rcases hg.1.1.2 with h | h
        · simp [hc] at h
        · exact h
      have hl := cTree_fits o l 7 (by decide) hs.1.2 (fits_not_bits l hs.1.2 hr.1 hb.1) hg.1.2 (.inr hg.1.1.1.1)
      have hr' := cTree_fits o r 7 (by decide) hs.2 (fits_not_bits r hs.2 hr.2 hb.2) hg.2 (.inr hg.1.1.1.2)
      rw [show upLevel 7 = 9 from rfl] at hl hr'
      exact ⟨Lang.fits_mono cLang (by omega) _ hl, Lang.fits_mono cLang (by omega) _ hr'⟩
    · simp only [hkind] at hr
      have hl := cTree_fits o l jr (by omega) hs.1.2 hr.1 hg.1.2 (.inr hg.1.1.1.1)
      have hr' := cTree_fits o r (jr + 1) (by omega) hs.2 hr.2 hg.2 (.inr hg.1.1.1.2)
      exact ⟨Lang.fits_mono cLang (by omega) _ hl, Lang.fits_mono cLang h11 _ hr'⟩
  | .method r m args =>
    simp only [RExpr.cShape, Bool.and_eq_true] at hs
    simp only [RExpr.rustTree, PExpr.fits] at hr
    simp only [RExpr.cGroups, Bool.and_eq_true] at hg
    have ihr := cTree_fits o r 0 (by decide) hs.1.1 (Lang.fits_mono rustLang (Nat.zero_le _) _ hr.1) hg.1 (.inl rfl)
    have iha := cTrees_fit o args hs.1.2 hr.2 hg.2
    rw [show upLevel 0 = 0 from rfl] at ihr
    simp only [RExpr.cTree]
    split
    · rename_i hm
      have hlen : args.length = 2 := by simpa [hm] using hs.2
      match args with
      | [b, c] =>
        simp only [RExpr.cTrees, PExpr.fitsAll] at iha
        simp only [RExpr.cTrees, PExpr.fits]
        refine ⟨10, rfl, by omega, ?_⟩
        exact ⟨⟨11, rfl, by omega, ihr, iha.1⟩, iha.2.1⟩
    · simp only [PExpr.fits, PExpr.fitsAll, PExpr.isField]
      exact ⟨trivial, trivial, ihr, iha⟩
  | .call (.path p) args =>
    simp only [RExpr.cShape] at hs
    simp only [RExpr.rustTree, PExpr.fits] at hr
    simp only [RExpr.cGroups, Bool.or_eq_true] at hg
    simp only [RExpr.cTree]
    split
    · simp only [PExpr.fits]
    · rename_i hb
      simp only [PExpr.fits, PExpr.isField]
      exact ⟨trivial, trivial, cTrees_fit o args hs hr.2.2 (hg.resolve_left hb)⟩
  | .paren e =>
    simp only [RExpr.cShape] at hs
    simp only [RExpr.rustTree, PExpr.fits] at hr
    simp only [RExpr.cGroups] at hg
    simp only [RExpr.cTree, PExpr.fits]
    exact cTree_fits o e 0 (by decide) hs hr hg (.inl rfl)
  | .cast e t =>
    simp only [RExpr.cShape] at hs
    simp only [RExpr.rustTree, PExpr.fits] at hr
    simp only [RExpr.cGroups, Bool.and_eq_true, Bool.not_eq_true'] at hg
    have hf : e.rustTree.fits rustLang 10 := by
      rw [if_neg (by decide)] at hr
      obtain ⟨j, h1, h2, h3, h4⟩ := hr
      have : j = 10 := rustLang_sound.cast j 10 h2 (by decide) h1 rfl
      exact this ▸ h4
    simp only [RExpr.cTree, PExpr.fits]
    rw [if_pos (show cLang.prefixCast = true from rfl)]
    exact ⟨hup, cTree_fits o e 10 (by decide) hs hf hg.2 (.inr hg.1)⟩
  | .ifElse c t f =>
    simp only [RExpr.cShape, Bool.and_eq_true] at hs
    simp only [RExpr.rustTree, PExpr.fits, PExpr.fitsAll] at hr
    simp only [RExpr.cGroups, Bool.and_eq_true] at hg
    have : k = 0 := by
      rcases hi with h | h
      · exact h
      · simp [RExpr.isIf] at h
    subst this
    simp only [RExpr.cTree, PExpr.fits]
    exact ⟨1, rfl, by decide, by decide, cTree_fits o c 0 (by decide) hs.1 hr.2.2.1 hg.1 (.inl rfl), trivial,
      cTree_fits o f 0 (by decide) hs.2 hr.2.2.2.1 hg.2 (.inl rfl)⟩
  | .block b => simp [RExpr.cTree, PExpr.fits]
  | .assign (.path p) r =>
    simp only [RExpr.cShape] at hs
    simp only [RExpr.rustTree, PExpr.fits] at hr
    simp only [RExpr.cGroups] at hg
    obtain ⟨j, h1, h2, h3⟩ := hr
    obtain rfl : 0 = j := by simpa [rustLang] using h1
    simp only [RExpr.cTree, PExpr.fits]
    refine ⟨0, rfl, upLevel_mono h2 (by decide), trivial, cTree_fits o r 0 (by decide) hs h3.2 hg (.inl rfl)⟩
  | .assignOp (.path p) op r =>
    simp only [RExpr.cShape, Bool.and_eq_true] at hs
    simp only [RExpr.rustTree, PExpr.fits] at hr
    simp only [RExpr.cGroups] at hg
    obtain ⟨j, h1, h2, h3⟩ := hr
    rw [(assign_level op hs.1).1] at h1
    obtain rfl : 0 = j := by simpa using h1
    simp only [RExpr.cTree, PExpr.fits]
    refine ⟨0, (assign_level op hs.1).2, upLevel_mono h2 (by decide), trivial, cTree_fits o r 0 (by decide) hs.2 h3.2 hg (.inl rfl)⟩
  | .ifThen .. | .array .. | .tuple .. | .verbatim | .other .. => simp [RExpr.cShape] at hs
  | .call (.lit _) _ | .call (.unary ..) _ | .call (.binary ..) _ | .call (.method ..) _ | .call (.call ..) _ | .call (.paren _) _ | .call (.cast ..) _
  | .call (.ifThen ..) _ | .call (.ifElse ..) _ | .call (.block _) _ | .call (.assign ..) _ | .call (.assignOp ..) _ | .call (.array _) _ | .call (.tuple _) _
  | .call .verbatim _ | .call (.other _) _ => simp [RExpr.cShape] at hs
  | .assign (.lit _) _ | .assign (.unary ..) _ | .assign (.binary ..) _ | .assign (.method ..) _ | .assign (.call ..) _ | .assign (.paren _) _
  | .assign (.cast ..) _ | .assign (.ifThen ..) _ | .assign (.ifElse ..) _ | .assign (.block _) _ | .assign (.assign ..) _ | .assign (.assignOp ..) _
  | .assign (.array _) _ | .assign (.tuple _) _ | .assign .verbatim _ | .assign (.other _) _ => simp [RExpr.cShape] at hs
  | .assignOp (.lit _) _ _ | .assignOp (.unary ..) _ _ | .assignOp (.binary ..) _ _ | .assignOp (.method ..) _ _ | .assignOp (.call ..) _ _
  | .assignOp (.paren _) _ _ | .assignOp (.cast ..) _ _ | .assignOp (.ifThen ..) _ _ | .assignOp (.ifElse ..) _ _ | .assignOp (.block _) _ _
  | .assignOp (.assign ..) _ _ | .assignOp (.assignOp ..) _ _ | .assignOp (.array _) _ _ | .assignOp (.tuple _) _ _ | .assignOp .verbatim _ _
  | .assignOp (.other _) _ _ => simp [RExpr.cShape] at hs

theorem cTrees_fit (o : COptions) (es : List RExpr) (hs : RExpr.cShapes es = true) (hr : PExpr.fitsAll rustLang (RExpr.rustTrees es))
    (hg : RExpr.cGroupsAll es = true) : PExpr.fitsAll cLang (RExpr.cTrees o es) := by
  match es with
  | [] => simp [RExpr.cTrees, PExpr.fitsAll]
  | e :: es =>
    simp only [RExpr.cShapes, Bool.and_eq_true] at hs
    simp only [RExpr.rustTrees, PExpr.fitsAll] at hr
    simp only [RExpr.cGroupsAll, Bool.and_eq_true] at hg
    simp only [RExpr.cTrees, PExpr.fitsAll]
    exact ⟨cTree_fits o e 0 (by decide) hs.1 hr.1 hg.1 (.inl rfl), cTrees_fit o es hs.2 hr.2 hg.2⟩
end

theorem if_not_fits (o : COptions) (e : RExpr) (h : e.isIf = true) (k : ℕ) (hk : 2 ≤ k) : ¬ (e.cTree o).fits cLang k := by
  cases e with
  | ifElse c t f =>
    simp only [RExpr.cTree, PExpr.fits]
    rintro ⟨j, h1, h2, h3, _⟩
    have : j = 1 := cLang_sound.ternary j 1 h2 (by decide) h1 rfl
    omega
  | _ => simp [RExpr.isIf] at h

theorem bits_not_fits (o : COptions) (e : RExpr) (h : e.isBits = true) (k : ℕ) (hk : 7 ≤ k) : ¬ (e.cTree o).fits cLang k := by
  cases e with
  | binary l op r =>
    obtain ⟨j, h1, h2⟩ := bits_level op (by simpa [RExpr.isBits] using h)
    simp only [RExpr.cTree, PExpr.fits]
    rintro ⟨j', h1', h3, _⟩
    rw [h1] at h1'
    simp at h1'
    omega
  | _ => simp [RExpr.isBits] at h

theorem not_isIf (o : COptions) (e : RExpr) (k : ℕ) (hk : 2 ≤ k) (h : (e.cTree o).fits cLang k) : e.isIf = false := by
  cases hi : e.isIf with
  | false => rfl
  | true => exact absurd h (if_not_fits o e hi k hk)

theorem not_isBits (o : COptions) (e : RExpr) (k : ℕ) (hk : 7 ≤ k) (h : (e.cTree o).fits cLang k) : e.isBits = false := by
  cases hi : e.isBits with
  | false => rfl
  | true => exact absurd h (bits_not_fits o e hi k hk)

mutual
/-- From C's grouping to the condition. -/
theorem cGroups_of_fits (o : COptions) (e : RExpr) (k : ℕ) (hs : e.cShape = true) (h : (e.cTree o).fits cLang k) : e.cGroups = true := by
  match e with
  | .lit l => rfl
  | .path p => rfl
  | .unary op e =>
    simp only [RExpr.cShape] at hs
    simp only [RExpr.cTree, PExpr.fits] at h
    simp only [RExpr.cGroups, Bool.and_eq_true, Bool.not_eq_true']
    exact ⟨not_isIf o e _ (by decide) h.2.2, cGroups_of_fits o e _ hs h.2.2⟩
  | .binary l op r =>
    simp only [RExpr.cShape, Bool.and_eq_true, Bool.not_eq_true'] at hs
    simp only [RExpr.cTree, PExpr.fits] at h
    obtain ⟨jr, jc, h1, h2, h3, h4, h5, h6, h7, h8, h9⟩ := op_levels op hs.1.1
    obtain ⟨j, hj, hkj, h⟩ := h
    obtain rfl : jc = j := by rw [h2] at hj; simpa using hj
    simp only [h7] at h
    simp only [RExpr.cGroups, Bool.and_eq_true, Bool.not_eq_true', Bool.or_eq_true]
    refine ⟨⟨⟨⟨not_isIf o l _ h5 h.1, not_isIf o r _ (by omega) h.2⟩, ?_⟩, cGroups_of_fits o l _ hs.1.2 h.1⟩, cGroups_of_fits o r _ hs.2 h.2⟩
    rcases h9 with ⟨hc, rfl, hkind, h10, h11⟩ | ⟨hc, _⟩
    · exact .inr ⟨not_isBits o l _ h10 h.1, not_isBits o r _ (by omega) h.2⟩
    · exact .inl hc
  | .method r m args =>
    simp only [RExpr.cShape, Bool.and_eq_true] at hs
    simp only [RExpr.cTree] at h
    simp only [RExpr.cGroups, Bool.and_eq_true]
    split at h
    · rename_i hm
      have hlen : args.length = 2 := by simpa [hm] using hs.2
      match args with
      | [b, c] =>
        simp only [RExpr.cTrees, PExpr.fits] at h
        obtain ⟨j, hj, _, h⟩ := h
        have hj' : j = 10 := by simp [cLang] at hj; omega
        subst hj'
        simp only [show cLang.kind 10 = .left from rfl] at h
        obtain ⟨⟨j, hj, _, h'⟩, h''⟩ := h
        have hj' : j = 11 := by simp [cLang] at hj; omega
        subst hj'
        simp only [show cLang.kind 11 = .left from rfl] at h'
        simp only [RExpr.cShapes, Bool.and_eq_true] at hs
        refine ⟨cGroups_of_fits o r _ hs.1.1 h'.1, ?_⟩
        simp only [RExpr.cGroupsAll, Bool.and_eq_true]
        exact ⟨cGroups_of_fits o b _ hs.1.2.1 h'.2, cGroups_of_fits o c _ hs.1.2.2.1 h'', trivial⟩
    · simp only [PExpr.fits, PExpr.fitsAll] at h
      exact ⟨cGroups_of_fits o r _ hs.1.1 h.2.2.1, cGroupsAll_of_fits o args hs.1.2 h.2.2.2⟩
  | .call (.path p) args =>
    simp only [RExpr.cShape] at hs
    simp only [RExpr.cTree] at h
    simp only [RExpr.cGroups, Bool.or_eq_true]
    split at h
    · exact .inl ‹_›
    · simp only [PExpr.fits] at h
      exact .inr (cGroupsAll_of_fits o args hs h.2.2)
  | .paren e =>
    simp only [RExpr.cShape] at hs
    simp only [RExpr.cTree, PExpr.fits] at h
    simp only [RExpr.cGroups]
    exact cGroups_of_fits o e _ hs h
  | .cast e t =>
    simp only [RExpr.cShape] at hs
    simp only [RExpr.cTree, PExpr.fits] at h
    rw [if_pos (show cLang.prefixCast = true from rfl)] at h
    simp only [RExpr.cGroups, Bool.and_eq_true, Bool.not_eq_true']
    exact ⟨not_isIf o e _ (by decide) h.2, cGroups_of_fits o e _ hs h.2⟩
  | .ifElse c t f =>
    simp only [RExpr.cShape, Bool.and_eq_true] at hs
    simp only [RExpr.cTree, PExpr.fits] at h
    obtain ⟨j, _, _, _, h1, _, h2⟩ := h
    simp only [RExpr.cGroups, Bool.and_eq_true]
    exact ⟨cGroups_of_fits o c _ hs.1 h1, cGroups_of_fits o f _ hs.2 h2⟩
  | .block b => rfl
  | .assign l r =>
    have hr : r.cShape = true := by cases l <;> simp_all [RExpr.cShape]
    simp only [RExpr.cTree, PExpr.fits] at h
    obtain ⟨j, hj, _, h⟩ := h
    obtain rfl : 0 = j := by simpa [cLang] using hj
    simp only [RExpr.cGroups]
    exact cGroups_of_fits o r _ hr h.2
  | .assignOp l op r =>
    have hr : op.assigns = true ∧ r.cShape = true := by cases l <;> simp_all [RExpr.cShape]
    simp only [RExpr.cTree, PExpr.fits] at h
    obtain ⟨j, hj, _, h⟩ := h
    rw [(assign_level op hr.1).2] at hj
    obtain rfl : 0 = j := by simpa using hj
    simp only [RExpr.cGroups]
    exact cGroups_of_fits o r _ hr.2 h.2
  | .ifThen .. | .array .. | .tuple .. | .verbatim | .other .. => simp [RExpr.cShape] at hs
  | .call (.lit _) _ | .call (.unary ..) _ | .call (.binary ..) _ | .call (.method ..) _ | .call (.call ..) _ | .call (.paren _) _ | .call (.cast ..) _
  | .call (.ifThen ..) _ | .call (.ifElse ..) _ | .call (.block _) _ | .call (.assign ..) _ | .call (.assignOp ..) _ | .call (.array _) _ | .call (.tuple _) _
  | .call .verbatim _ | .call (.other _) _ => simp [RExpr.cShape] at hs

theorem cGroupsAll_of_fits (o : COptions) (es : List RExpr) (hs : RExpr.cShapes es = true) (h : PExpr.fitsAll cLang (RExpr.cTrees o es)) :
    RExpr.cGroupsAll es = true := by
  match es with
  | [] => rfl
  | e :: es =>
    simp only [RExpr.cShapes, Bool.and_eq_true] at hs
    simp only [RExpr.cTrees, PExpr.fitsAll] at h
    simp only [RExpr.cGroupsAll, Bool.and_eq_true]
    exact ⟨cGroups_of_fits o e _ hs.1 h.1, cGroupsAll_of_fits o es hs.2 h.2⟩
end

/-- **C41** The tokens of the C text of a parsed expression read in C as the tree meant exactly if no bare `if` is under an operator or cast and no bare `|`, `^`, `&` is
under a comparison. -/
theorem C41_tokens_iff (o : COptions) (e : RExpr) (hs : e.cShape = true) (hp : e.Parsed) :
    cLang.Reads ((e.cTree o).print cLang) (e.cTree o) ↔ e.cGroups = true := by
  rw [Lang.reads_iff cLang cLang_sound]
  constructor
  · rintro ⟨h, _⟩; exact cGroups_of_fits o e 0 hs h
  · intro h; exact ⟨cTree_fits o e 0 (by decide) hs hp h (.inl rfl), rfl⟩

end Verif
