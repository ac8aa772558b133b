import Verif.Lemmas.RustText
import Verif.Lemmas.Simd

/-!
# The vectoriser and the grouping of its output
-/

namespace Verif

/-- All places are in order. -/
def okAll (ss : List Spot) : Bool := ss.all Spot.ok

@[simp] theorem okAll_nil : okAll [] = true := rfl
@[simp] theorem okAll_cons (s : Spot) (ss : List Spot) : okAll (s :: ss) = (s.ok && okAll ss) := rfl
@[simp] theorem okAll_append (a b : List Spot) : okAll (a ++ b) = (okAll a && okAll b) := by simp [okAll]

/-- The expression does not end with a literal that has a sign. -/
def RExpr.endsWell : RExpr → Bool
  | .lit l => !l.signed
  | .unary _ e => e.endsWell
  | .binary _ _ r => r.endsWell
  | .assign _ r => r.endsWell
  | .assignOp _ _ r => r.endsWell
  | _ => true

theorem attach_fits (m : String) (e : RExpr) : ∀ e', attachMethod m e = .ok e' → e.endsWell = true → ∀ k, e.fitsB k = true → e'.fitsB k = true := by
  induction e using RExpr.rec (motive_2 := fun _ => True) (motive_3 := fun _ => True) (motive_4 := fun _ => True) with
  | lit l =>
    intro e' h he k hk
    cases h
    simp_all [RExpr.fitsB, RExpr.endsWell, RExpr.fitsBAll]
  | unary op e ih =>
    intro e' h he k hk
    simp only [attachMethod, Res.bind_eq_ok, Res.pure_eq, Res.ok.injEq] at h
    obtain ⟨e1, h1, rfl⟩ := h
    simp only [RExpr.fitsB, Bool.and_eq_true] at hk ⊢
    exact ⟨hk.1, ih e1 h1 he _ hk.2⟩
  | binary l op r _ ih =>
    intro e' h he k hk
    simp only [attachMethod, Res.bind_eq_ok, Res.pure_eq, Res.ok.injEq] at h
    obtain ⟨e1, h1, rfl⟩ := h
    simp only [RExpr.fitsB, Bool.and_eq_true] at hk ⊢
    exact ⟨hk.1, ih e1 h1 he _ hk.2⟩
  | assign l r _ ih =>
    intro e' h he k hk
    simp only [attachMethod, Res.bind_eq_ok, Res.pure_eq, Res.ok.injEq] at h
    obtain ⟨e1, h1, rfl⟩ := h
    simp only [RExpr.fitsB, Bool.and_eq_true] at hk ⊢
    exact ⟨hk.1, ih e1 h1 he _ hk.2⟩
  | assignOp l op r _ ih =>
    intro e' h he k hk
    simp only [attachMethod, Res.bind_eq_ok, Res.pure_eq, Res.ok.injEq] at h
    obtain ⟨e1, h1, rfl⟩ := h
    simp only [RExpr.fitsB, Bool.and_eq_true] at hk ⊢
    exact ⟨hk.1, ih e1 h1 he _ hk.2⟩
  | cast e ty => intro e' h; simp [attachMethod] at h
  | path | method | call | paren | ifThen | ifElse | block | array | tuple | verbatim | other =>
    intro e' h he k hk
    simp only [attachMethod, Res.pure_eq, Res.ok.injEq] at h
    subst h
    simp_all [RExpr.fitsB, RExpr.fitsBAll]
  | _ => trivial

theorem attach_parts (m : String) (e : RExpr) : ∀ e', attachMethod m e = .ok e' → e'.parts = e.parts := by
  induction e using RExpr.rec (motive_2 := fun _ => True) (motive_3 := fun _ => True) (motive_4 := fun _ => True) with
  | unary op e ih =>
    intro e' h
    simp only [attachMethod, Res.bind_eq_ok, Res.pure_eq, Res.ok.injEq] at h
    obtain ⟨e1, h1, rfl⟩ := h
    simp only [RExpr.parts, ih e1 h1]
  | binary l op r _ ih | assign l r _ ih | assignOp l op r _ ih =>
    intro e' h
    simp only [attachMethod, Res.bind_eq_ok, Res.pure_eq, Res.ok.injEq] at h
    obtain ⟨e1, h1, rfl⟩ := h
    simp only [RExpr.parts, ih e1 h1]
  | cast e ty => intro e' h; simp [attachMethod] at h
  | lit | path | method | call | paren | ifThen | ifElse | block | array | tuple | verbatim | other =>
    intro e' h
    simp only [attachMethod, Res.pure_eq, Res.ok.injEq] at h
    subst h
    simp [RExpr.parts, RExpr.partsArgs]
  | _ => trivial

theorem attach_ends (m : String) (e : RExpr) : ∀ e', attachMethod m e = .ok e' → e'.endsWell = true := by
  induction e using RExpr.rec (motive_2 := fun _ => True) (motive_3 := fun _ => True) (motive_4 := fun _ => True) with
  | unary op e ih =>
    intro e' h
    simp only [attachMethod, Res.bind_eq_ok, Res.pure_eq, Res.ok.injEq] at h
    obtain ⟨e1, h1, rfl⟩ := h
    exact ih e1 h1
  | binary l op r _ ih | assign l r _ ih | assignOp l op r _ ih =>
    intro e' h
    simp only [attachMethod, Res.bind_eq_ok, Res.pure_eq, Res.ok.injEq] at h
    obtain ⟨e1, h1, rfl⟩ := h
    exact ih e1 h1
  | cast e ty => intro e' h; simp [attachMethod] at h
  | lit | path | method | call | paren | ifThen | ifElse | block | array | tuple | verbatim | other =>
    intro e' h
    simp only [attachMethod, Res.pure_eq, Res.ok.injEq] at h
    subst h
    rfl
  | _ => trivial

theorem attach_starts (m : String) (e : RExpr) : ∀ e', attachMethod m e = .ok e' → e'.startsBlock = true → e.startsBlock = true := by
  cases e with
  | unary op e =>
    intro e' h
    simp only [attachMethod, Res.bind_eq_ok, Res.pure_eq, Res.ok.injEq] at h
    obtain ⟨e1, h1, rfl⟩ := h
    simp [RExpr.startsBlock, RExpr.blockLike]
  | binary l op r | assign l r | assignOp l op r =>
    intro e' h
    simp only [attachMethod, Res.bind_eq_ok, Res.pure_eq, Res.ok.injEq] at h
    obtain ⟨e1, h1, rfl⟩ := h
    simp [RExpr.startsBlock]
  | cast e ty => intro e' h; simp [attachMethod] at h
  | lit | path | method | call | paren | ifThen | ifElse | block | array | tuple | verbatim | other =>
    intro e' h
    simp only [attachMethod, Res.pure_eq, Res.ok.injEq] at h
    subst h
    simp [RExpr.startsBlock]

/-- What the vectoriser keeps. -/
structure Kept (e e' : RExpr) : Prop where
  fits : ∀ k, e.fitsB k = true → e'.fitsB k = true
  parts : okAll e'.parts = true
  ends : e'.endsWell = true
  starts : e'.startsBlock = true → e.startsBlock = true
  block : e'.startsBlock = true → e.blockLike = true → e'.blockLike = true

theorem Kept.spot {e e' : RExpr} (h : Kept e e') (b : Bool) (hs : (Spot.mk b e).ok = true) : (Spot.mk b e').ok = true := by
  simp only [Spot.ok, Bool.and_eq_true, Bool.or_eq_true, Bool.not_eq_true'] at hs ⊢
  refine ⟨h.fits 0 hs.1, ?_⟩
  rcases hs.2 with (h1 | h1) | h1
  · exact .inl (.inl h1)
  · left; right
    by_contra hc
    have := h.starts (by simpa using hc)
    simp [h1] at this
  · by_cases hc : e'.startsBlock = true
    · exact .inr (h.block hc h1)
    · exact .inl (.inr (by simpa using hc))

theorem lit_kept (l : Lit) : Kept (.lit l) (convertLit l) := by
  have hc := convertLit_closed l
  have h1 : ∀ k, (RExpr.lit l).fitsB k = true → (convertLit l).fitsB k = true := by
    intro k hk
    unfold convertLit
    split
    · split_ifs <;> simp [RExpr.fitsB, RExpr.fitsBAll]
    · split_ifs <;> simp [RExpr.fitsB, RExpr.fitsBAll]
    · exact hk
  have h2 : (convertLit l).parts = [] ∧ (convertLit l).endsWell = true ∧ (convertLit l).startsBlock = false := by
    unfold convertLit
    split
    · split_ifs <;> simp [RExpr.parts, RExpr.partsArgs, RExpr.endsWell, RExpr.startsBlock, RExpr.blockLike]
    · split_ifs <;> simp [RExpr.parts, RExpr.partsArgs, RExpr.endsWell, RExpr.startsBlock, RExpr.blockLike]
    · rename_i hf hi
      refine ⟨rfl, ?_, rfl⟩
      cases l with
      | int ds s => exact absurd rfl (hi ds s)
      | float ds s => exact absurd rfl (hf ds s)
      | bool b => rfl
      | other t => rfl
  refine ⟨h1, by rw [h2.1]; rfl, h2.2.1, ?_, ?_⟩ <;> simp [h2.2.2]

theorem path_kept (p q : Name) : Kept (.path p) (convertPath q) := by
  unfold convertPath
  split_ifs <;> exact ⟨fun _ _ => rfl, rfl, rfl, by simp [RExpr.startsBlock, RExpr.blockLike], by simp [RExpr.blockLike]⟩

theorem binary_kept (l r l' r' : RExpr) (op : BinOp) (hl : Kept l l') (hr : Kept r r') :
    Kept (.binary l op r) (convertBinary l' op r') := by
  have key : Kept (.binary l op r) (.binary l' op r') := by
    refine ⟨fun k h => ?_, by simp [RExpr.parts, hl.parts, hr.parts], hr.ends, hl.starts, by simp [RExpr.blockLike]⟩
    simp only [RExpr.fitsB, Bool.and_eq_true] at h ⊢
    exact ⟨⟨h.1.1, hl.fits _ h.1.2⟩, hr.fits _ h.2⟩
  have cmp : ∀ m, op.lvl = 3 → Kept (.binary l op r) (.method (.paren l') m [r']) := by
    intro m hop
    refine ⟨fun k h => ?_, by simp [RExpr.parts, RExpr.partsArgs, hl.parts, hr.parts], rfl, by simp [RExpr.startsBlock, RExpr.blockLike], by simp [RExpr.blockLike]⟩
    simp only [RExpr.fitsB, RExpr.fitsBAll, Bool.and_eq_true] at h ⊢
    exact ⟨fitsB_mono (Nat.zero_le _) _ (hl.fits _ h.1.2), fitsB_mono (Nat.zero_le _) _ (hr.fits _ h.2), trivial⟩
  unfold convertBinary
  split
  all_goals first | exact cmp _ rfl | exact key

theorem deblock1_ok {b : List RStmt} {e : RExpr} (h : deblock1 b = .ok e) : b = [.expr e] := by
  unfold deblock1 at h
  split at h
  · cases h; rfl
  · cases h

theorem deblock2_fits (e : RExpr) (h0 : e.fitsB 0 = true) (hp : okAll e.parts = true) : (deblock2 e).fitsB 0 = true ∧ okAll (deblock2 e).parts = true := by
  unfold deblock2
  split
  · simp only [RExpr.parts, RStmt.parts, List.append_nil, okAll_cons, Bool.and_eq_true] at hp
    simp only [Spot.ok, Bool.and_eq_true] at hp
    exact ⟨hp.1.1, hp.2⟩
  · exact ⟨h0, hp⟩

mutual
/-- Vectorising keeps the grouping: whatever level an expression fits, its translation fits. -/
theorem simd_kept (b32 : Bool) (e : RExpr) (hp : okAll e.parts = true) (e' : RExpr) (h : simdExpr b32 e = .ok e') : Kept e e' := by
  match e with
  | .lit l => simp only [simdExpr, Res.pure_eq, Res.ok.injEq] at h; exact h ▸ lit_kept l
  | .path p => simp only [simdExpr, Res.pure_eq, Res.ok.injEq] at h; exact h ▸ path_kept _ _
  | .unary op e =>
    simp only [simdExpr, Res.bind_eq_ok, Res.pure_eq, Res.ok.injEq] at h
    obtain ⟨e1, h1, rfl⟩ := h
    have ih := simd_kept b32 e hp e1 h1
    refine ⟨fun k h => ?_, ih.parts, ih.ends, by simp [RExpr.startsBlock, RExpr.blockLike], by simp [RExpr.blockLike]⟩
    simp only [RExpr.fitsB, Bool.and_eq_true] at h ⊢
    exact ⟨h.1, ih.fits _ h.2⟩
  | .binary l op r =>
    simp only [RExpr.parts, okAll_append, Bool.and_eq_true] at hp
    simp only [simdExpr, Res.bind_eq_ok, Res.pure_eq, Res.ok.injEq] at h
    obtain ⟨l1, h1, r1, h2, rfl⟩ := h
    exact binary_kept l r l1 r1 op (simd_kept b32 l hp.1 l1 h1) (simd_kept b32 r hp.2 r1 h2)
  | .method r m args =>
    simp only [RExpr.parts, okAll_append, Bool.and_eq_true] at hp
    simp only [simdExpr, Res.bind_eq_ok, Res.pure_eq, Res.ok.injEq] at h
    obtain ⟨r1, h1, as, h2, rfl⟩ := h
    have ih := simd_kept b32 r hp.1 r1 h1
    have ih2 := simd_keptArgs b32 args hp.2 as h2
    refine ⟨fun k h => ?_, by simp [RExpr.parts, ih.parts, ih2.2], rfl, ih.starts, by simp [RExpr.blockLike]⟩
    simp only [RExpr.fitsB, Bool.and_eq_true] at h ⊢
    exact ⟨ih.fits _ h.1, ih2.1 h.2⟩
  | .call f args =>
    simp only [RExpr.parts, okAll_append, Bool.and_eq_true] at hp
    simp only [simdExpr, Res.bind_eq_ok] at h
    obtain ⟨f1, h1, as, h2, h3⟩ := h
    have ih := simd_kept b32 f hp.1 f1 h1
    have ih2 := simd_keptArgs b32 args hp.2 as h2
    have key : Kept (.call f args) (.call f1 as) := by
      refine ⟨fun k h => ?_, by simp [RExpr.parts, ih.parts, ih2.2], rfl, ih.starts, by simp [RExpr.blockLike]⟩
      simp only [RExpr.fitsB, Bool.and_eq_true] at h ⊢
      exact ⟨ih.fits _ h.1, ih2.1 h.2⟩
    unfold convertCall at h3
    split at h3
    · cases h3
    · rename_i a rest
      split at h3
      · split_ifs at h3
        · cases h3
          have hp2 := ih2.2
          simp only [RExpr.partsArgs, okAll_append, Bool.and_eq_true] at hp2
          refine ⟨fun k h => ?_, by simp [RExpr.parts, hp2], rfl, by simp [RExpr.startsBlock, RExpr.blockLike], by simp [RExpr.blockLike]⟩
          simp only [RExpr.fitsB, Bool.and_eq_true] at h ⊢
          have := ih2.1 h.2
          simpa [RExpr.fitsBAll] using this
        · cases h3; exact key
      · cases h3; exact key
  | .paren e =>
    simp only [simdExpr, Res.bind_eq_ok, Res.pure_eq, Res.ok.injEq] at h
    obtain ⟨e1, h1, rfl⟩ := h
    have ih := simd_kept b32 e hp e1 h1
    exact ⟨fun k h => ih.fits 0 h, ih.parts, rfl, by simp [RExpr.startsBlock, RExpr.blockLike], by simp [RExpr.blockLike]⟩
  | .cast e ty =>
    simp only [simdExpr, Res.bind_eq_ok] at h
    obtain ⟨e1, h1, h2⟩ := h
    have ih := simd_kept b32 e hp e1 h1
    have key : ∀ m, attachMethod m e1 = .ok e' → Kept (.cast e ty) e' := by
      intro m hm
      refine ⟨fun k h => ?_, by rw [attach_parts m e1 e' hm]; exact ih.parts, attach_ends m e1 e' hm, fun h => ih.starts (attach_starts m e1 e' hm h), by simp [RExpr.blockLike]⟩
      simp only [RExpr.fitsB, Bool.and_eq_true, decide_eq_true_eq] at h
      exact attach_fits m e1 e' hm ih.ends k (fitsB_mono h.1 _ (ih.fits _ h.2))
    unfold convertCast at h2
    split_ifs at h2
    all_goals first
      | exact key _ h2
      | (cases h2
         refine ⟨fun k h => ?_, ih.parts, rfl, ih.starts, by simp [RExpr.blockLike]⟩
         simp only [RExpr.fitsB, Bool.and_eq_true] at h ⊢
         exact ⟨h.1, ih.fits _ h.2⟩)
  | .ifThen c t =>
    simp only [RExpr.parts, okAll_cons, okAll_append, Bool.and_eq_true] at hp
    simp only [simdExpr, Res.bind_eq_ok, Res.pure_eq, Res.ok.injEq] at h
    obtain ⟨c1, h1, t1, h2, x, h3, rfl⟩ := h
    have ih := simd_kept b32 c hp.2.1 c1 h1
    have ih2 := simd_keptStmts b32 t hp.2.2 t1 h2
    exact ⟨fun _ _ => rfl, by simp [RExpr.parts, ih.spot _ hp.1, ih.parts, ih2], rfl, by simp [RExpr.startsBlock, RExpr.blockLike], fun _ _ => rfl⟩
  | .ifElse c t f =>
    simp only [RExpr.parts, okAll_cons, okAll_append, Bool.and_eq_true] at hp
    simp only [simdExpr, Res.bind_eq_ok, Res.pure_eq, Res.ok.injEq] at h
    obtain ⟨c1, h1, t1, h2, f1, h3, x, h4, rfl⟩ := h
    have ih := simd_kept b32 c hp.2.1.1 c1 h1
    have ih2 := simd_keptStmts b32 t hp.2.1.2 t1 h2
    have ih3 := simd_kept b32 f hp.2.2.2 f1 h3
    have hx := deblock1_ok h4
    subst hx
    simp only [RStmt.parts, List.append_nil, okAll_cons, Spot.ok, Bool.and_eq_true] at ih2
    have hc0 : c1.fitsB 0 = true := by
      have := ih.spot _ hp.1
      simp only [Spot.ok, Bool.and_eq_true] at this
      exact this.1
    have hf0 : f1.fitsB 0 = true := by
      have := ih3.spot _ hp.2.2.1
      simp only [Spot.ok, Bool.and_eq_true] at this
      exact this.1
    have hd := deblock2_fits f1 hf0 ih3.parts
    refine ⟨fun k _ => ?_, by simp [RExpr.parts, RExpr.partsArgs, ih.parts, ih2.2, hd.2], rfl, by simp [RExpr.startsBlock, RExpr.blockLike],
      by simp [RExpr.startsBlock, RExpr.blockLike]⟩
    simp [RExpr.fitsB, RExpr.fitsBAll, hc0, ih2.1.1, hd.1]
  | .block b =>
    simp only [simdExpr, Res.bind_eq_ok, Res.pure_eq, Res.ok.injEq] at h
    obtain ⟨b1, h1, rfl⟩ := h
    exact ⟨fun _ _ => rfl, simd_keptStmts b32 b hp b1 h1, rfl, fun _ => rfl, fun _ _ => rfl⟩
  | .assign l r =>
    simp only [RExpr.parts, okAll_append, Bool.and_eq_true] at hp
    simp only [simdExpr, Res.bind_eq_ok, Res.pure_eq, Res.ok.injEq] at h
    obtain ⟨l1, h1, r1, h2, rfl⟩ := h
    have hl := simd_kept b32 l hp.1 l1 h1
    have hr := simd_kept b32 r hp.2 r1 h2
    refine ⟨fun k h => ?_, by simp [RExpr.parts, hl.parts, hr.parts], hr.ends, hl.starts, by simp [RExpr.blockLike]⟩
    simp only [RExpr.fitsB, Bool.and_eq_true] at h ⊢
    exact ⟨⟨h.1.1, hl.fits _ h.1.2⟩, hr.fits _ h.2⟩
  | .assignOp l op r =>
    simp only [RExpr.parts, okAll_append, Bool.and_eq_true] at hp
    simp only [simdExpr, Res.bind_eq_ok, Res.pure_eq, Res.ok.injEq] at h
    obtain ⟨l1, h1, r1, h2, rfl⟩ := h
    have hl := simd_kept b32 l hp.1 l1 h1
    have hr := simd_kept b32 r hp.2 r1 h2
    refine ⟨fun k h => ?_, by simp [RExpr.parts, hl.parts, hr.parts], hr.ends, hl.starts, by simp [RExpr.blockLike]⟩
    simp only [RExpr.fitsB, Bool.and_eq_true] at h ⊢
    exact ⟨⟨h.1.1, hl.fits _ h.1.2⟩, hr.fits _ h.2⟩
  | .array es | .tuple es =>
    simp only [simdExpr, Res.bind_eq_ok, Res.pure_eq, Res.ok.injEq] at h
    obtain ⟨es1, h1, rfl⟩ := h
    exact ⟨fun _ _ => rfl, simd_keptItems b32 es hp es1 h1, rfl, by simp [RExpr.startsBlock, RExpr.blockLike], by simp [RExpr.blockLike]⟩
  | .verbatim | .other k =>
    simp only [simdExpr, Res.pure_eq, Res.ok.injEq] at h
    subst h
    exact ⟨fun _ _ => rfl, rfl, rfl, id, fun _ => id⟩

theorem simd_keptArgs (b32 : Bool) (es : List RExpr) (hp : okAll (RExpr.partsArgs es) = true) (es' : List RExpr) (h : simdExprs b32 es = .ok es') :
    (RExpr.fitsBAll es = true → RExpr.fitsBAll es' = true) ∧ okAll (RExpr.partsArgs es') = true := by
  match es with
  | [] => simp only [simdExprs, Res.pure_eq, Res.ok.injEq] at h; subst h; exact ⟨id, rfl⟩
  | e :: es =>
    simp only [RExpr.partsArgs, okAll_append, Bool.and_eq_true] at hp
    simp only [simdExprs, Res.bind_eq_ok, Res.pure_eq, Res.ok.injEq] at h
    obtain ⟨e1, h1, es1, h2, rfl⟩ := h
    have ih := simd_kept b32 e hp.1 e1 h1
    have ih2 := simd_keptArgs b32 es hp.2 es1 h2
    refine ⟨fun h => ?_, by simp [RExpr.partsArgs, ih.parts, ih2.2]⟩
    simp only [RExpr.fitsBAll, Bool.and_eq_true] at h ⊢
    exact ⟨ih.fits _ h.1, ih2.1 h.2⟩

theorem simd_keptItems (b32 : Bool) (es : List RExpr) (hp : okAll (RExpr.partsItems es) = true) (es' : List RExpr) (h : simdExprs b32 es = .ok es') :
    okAll (RExpr.partsItems es') = true := by
  match es with
  | [] => simp only [simdExprs, Res.pure_eq, Res.ok.injEq] at h; subst h; rfl
  | e :: es =>
    simp only [RExpr.partsItems, okAll_cons, okAll_append, Bool.and_eq_true] at hp
    simp only [simdExprs, Res.bind_eq_ok, Res.pure_eq, Res.ok.injEq] at h
    obtain ⟨e1, h1, es1, h2, rfl⟩ := h
    have ih := simd_kept b32 e hp.2.1 e1 h1
    have ih2 := simd_keptItems b32 es hp.2.2 es1 h2
    simp [RExpr.partsItems, ih.spot _ hp.1, ih.parts, ih2]

theorem simd_keptStmts (b32 : Bool) (b : List RStmt) (hp : okAll (RStmt.parts b) = true) (b' : List RStmt) (h : simdStmts b32 b = .ok b') :
    okAll (RStmt.parts b') = true := by
  match b with
  | [] => simp only [simdStmts, Res.pure_eq, Res.ok.injEq] at h; subst h; rfl
  | .decl n t :: rest =>
    simp only [simdStmts, simdStmt, Res.bind_eq_ok, Res.pure_eq, Res.ok.injEq] at h
    obtain ⟨s, rfl, rest1, h2, rfl⟩ := h
    simpa [RStmt.parts] using simd_keptStmts b32 rest hp rest1 h2
  | .letInit n t e :: rest | .const n t e :: rest | .expr e :: rest | .semi e :: rest =>
    simp only [RStmt.parts, okAll_cons, okAll_append, Bool.and_eq_true] at hp
    simp only [simdStmts, simdStmt, Res.bind_eq_ok, Res.pure_eq, Res.ok.injEq] at h
    obtain ⟨s, ⟨e1, h1, rfl⟩, rest1, h2, rfl⟩ := h
    have ih := simd_kept b32 e hp.2.1 e1 h1
    simp [RStmt.parts, ih.spot _ hp.1, ih.parts, simd_keptStmts b32 rest hp.2.2 rest1 h2]
end

end Verif
