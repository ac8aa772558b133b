import Verif.Lemmas.Expr

/-! # Visitors that only change leaves -/

namespace Verif

theorem Expr.denote_congr {α : Type} (I J : Interp α) (h1 : I.un = J.un) (h2 : I.bin = J.bin) (h3 : I.meth = J.meth)
    (h4 : I.lit = J.lit) (h6 : I.field = J.field) (h7 : I.call = J.call)
    (h8 : I.other = J.other) : ∀ e : Expr, (∀ p ∈ e.names, I.var p = J.var p) → e.denote I = e.denote J := by
  have args : ∀ l : List Expr, (∀ a ∈ l, (∀ p ∈ a.names, I.var p = J.var p) → a.denote I = a.denote J) →
      (∀ p ∈ Expr.namesArgs l, I.var p = J.var p) → Expr.denoteArgs I l = Expr.denoteArgs J l := by
    intro l
    induction l with
    | nil => intros; rfl
    | cons a as ih =>
      intro ha hp
      simp only [Expr.namesArgs, List.mem_append] at hp
      rw [Expr.denoteArgs, Expr.denoteArgs, ha a (by simp) (fun p h => hp p (.inl h)),
        ih (fun b hb => ha b (by simp [hb])) (fun p h => hp p (.inr h))]
  apply Expr.ind
  · intro op e ih hp; simp only [Expr.denote, h1]; rw [ih hp]
  · intro l op r ihl ihr hp
    simp only [Expr.names, List.mem_append] at hp
    simp only [Expr.denote, h2]; rw [ihl (fun p h => hp p (.inl h)), ihr (fun p h => hp p (.inr h))]
  · intro r m as ihr iha hp
    simp only [Expr.names, List.mem_append] at hp
    simp only [Expr.denote, h3]; rw [ihr (fun p h => hp p (.inl h)), args as iha (fun p h => hp p (.inr h))]
  · intro e ih hp; simp only [Expr.denote]; rw [ih hp]
  · intro l hp; simp only [Expr.denote, h4]
  · intro p hp; simp only [Expr.denote]; exact hp p (by simp [Expr.names])
  · intro b m ih hp; simp only [Expr.denote, h6]; rw [ih hp]
  · intro r as ihr iha hp
    simp only [Expr.names, List.mem_append] at hp
    simp only [Expr.denote, h7]; rw [ihr (fun p h => hp p (.inl h)), args as iha (fun p h => hp p (.inr h))]
  · intro k hp; simp only [Expr.denote, h8]

theorem Expr.denote_mapLeaves {α : Type} (I : Interp α) (g : Lit → Expr) (f : Name → Expr) : ∀ e : Expr,
    (e.mapLeaves g f).denote I =
      e.denote { I with lit := fun l => (g l).denote I, var := fun p => (f p).denote I } := by
  have args : ∀ l : List Expr, (∀ a ∈ l, (a.mapLeaves g f).denote I =
      a.denote { I with lit := fun l => (g l).denote I, var := fun p => (f p).denote I }) →
      Expr.denoteArgs I (Expr.mapLeavesArgs g f l) =
        Expr.denoteArgs { I with lit := fun l => (g l).denote I, var := fun p => (f p).denote I } l := by
    intro l
    induction l with
    | nil => intros; rfl
    | cons a as ih =>
      intro ha
      rw [Expr.mapLeavesArgs, Expr.denoteArgs, Expr.denoteArgs, ha a (by simp),
        ih (fun b hb => ha b (by simp [hb]))]
  apply Expr.ind
  · intro op e ih; simp only [Expr.mapLeaves, Expr.denote, ih]
  · intro l op r ihl ihr; simp only [Expr.mapLeaves, Expr.denote, ihl, ihr]
  · intro r m as ihr iha; simp only [Expr.mapLeaves, Expr.denote, ihr, args as iha]
  · intro e ih; simp only [Expr.mapLeaves, Expr.denote, ih]
  · intro l; simp only [Expr.mapLeaves, Expr.denote]
  · intro p; simp only [Expr.mapLeaves, Expr.denote]
  · intro b m ih; simp only [Expr.mapLeaves, Expr.denote, ih]
  · intro r as ihr iha; simp only [Expr.mapLeaves, Expr.denote, ihr, args as iha]
  · intro k; simp only [Expr.mapLeaves, Expr.denote]

theorem Expr.mapLeaves_mapLeaves (g f) (h : Name → Expr) : ∀ e : Expr,
    (e.mapLeaves .lit h).mapLeaves g f = e.mapLeaves g (fun p => (h p).mapLeaves g f) := by
  have args : ∀ l : List Expr, (∀ a ∈ l, (a.mapLeaves .lit h).mapLeaves g f = a.mapLeaves g (fun p => (h p).mapLeaves g f)) →
      Expr.mapLeavesArgs g f (Expr.mapLeavesArgs .lit h l) = Expr.mapLeavesArgs g (fun p => (h p).mapLeaves g f) l := by
    intro l
    induction l with
    | nil => intros; rfl
    | cons a as ih =>
      intro ha
      rw [Expr.mapLeavesArgs, Expr.mapLeavesArgs, Expr.mapLeavesArgs, ha a (by simp), ih (fun b hb => ha b (by simp [hb]))]
  apply Expr.ind
  · intro op e ih; simp only [Expr.mapLeaves, ih]
  · intro l op r ihl ihr; simp only [Expr.mapLeaves, ihl, ihr]
  · intro r m as ihr iha; simp only [Expr.mapLeaves, ihr, args as iha]
  · intro e ih; simp only [Expr.mapLeaves, ih]
  · intro l; simp only [Expr.mapLeaves]
  · intro p; simp only [Expr.mapLeaves]
  · intro b m ih; simp only [Expr.mapLeaves, ih]
  · intro r as ihr iha; simp only [Expr.mapLeaves, ihr, args as iha]
  · intro k; simp only [Expr.mapLeaves]

theorem Expr.mapLeaves_id (f : Name → Expr) : ∀ e : Expr, (∀ p ∈ e.names, f p = .path p) → e.mapLeaves .lit f = e := by
  have args : ∀ l : List Expr, (∀ a ∈ l, (∀ p ∈ a.names, f p = .path p) → a.mapLeaves .lit f = a) →
      (∀ p ∈ Expr.namesArgs l, f p = .path p) → Expr.mapLeavesArgs .lit f l = l := by
    intro l
    induction l with
    | nil => intros; rfl
    | cons a as ih =>
      intro ha hp
      simp only [Expr.namesArgs, List.mem_append] at hp
      rw [Expr.mapLeavesArgs, ha a (by simp) (fun p h => hp p (.inl h)),
        ih (fun b hb => ha b (by simp [hb])) (fun p h => hp p (.inr h))]
  apply Expr.ind
  · intro op e ih hp; simp only [Expr.mapLeaves]; rw [ih hp]
  · intro l op r ihl ihr hp
    simp only [Expr.names, List.mem_append] at hp
    simp only [Expr.mapLeaves]; rw [ihl (fun p h => hp p (.inl h)), ihr (fun p h => hp p (.inr h))]
  · intro r m as ihr iha hp
    simp only [Expr.names, List.mem_append] at hp
    simp only [Expr.mapLeaves]; rw [ihr (fun p h => hp p (.inl h)), args as iha (fun p h => hp p (.inr h))]
  · intro e ih hp; simp only [Expr.mapLeaves]; rw [ih hp]
  · intro l hp; simp only [Expr.mapLeaves]
  · intro p hp; simp only [Expr.mapLeaves]; exact hp p (by simp [Expr.names])
  · intro b m ih hp; simp only [Expr.mapLeaves]; rw [ih hp]
  · intro r as ihr iha hp
    simp only [Expr.names, List.mem_append] at hp
    simp only [Expr.mapLeaves]; rw [ihr (fun p h => hp p (.inl h)), args as iha (fun p h => hp p (.inr h))]
  · intro k hp; simp only [Expr.mapLeaves]

/-- A visitor that only overrides literals and paths maps leaves. -/
theorem Visitor.visit_leaves (v : Visitor) (hu : v.unary? = none) (hb : v.binary? = none) (hpost : v.post = id)
    (g : Lit → Expr) (f : Name → Expr) (hg : ∀ l e, v.lit l = .ok e → e = g l) (hf : ∀ p e, v.path p = .ok e → e = f p) :
    ∀ e e', v.visit e = .ok e' → e' = e.mapLeaves g f := by
  apply Expr.ind
  · intro op e ih e' h
    rw [v.visit_unary hu hb, Res.bind_eq_ok] at h
    obtain ⟨a, ha, h⟩ := h
    simp only [hpost, Res.pure_eq, id, Res.ok.injEq] at h
    rw [← h, ih a ha]; simp only [Expr.mapLeaves]
  · intro l op r ihl ihr e' h
    rw [v.visit_binary hu hb, Res.bind_eq_ok] at h
    obtain ⟨a, ha, h⟩ := h
    rw [Res.bind_eq_ok] at h
    obtain ⟨b, hb', h⟩ := h
    simp only [hpost, Res.pure_eq, id, Res.ok.injEq] at h
    rw [← h, ihl a ha, ihr b hb']; simp only [Expr.mapLeaves]
  · intro r m args ihr iha e' h
    rw [Visitor.visit, Res.bind_eq_ok] at h
    obtain ⟨a, ha, h⟩ := h
    rw [Res.bind_eq_ok] at h
    obtain ⟨b, hb', h⟩ := h
    simp only [hpost, Res.pure_eq, id, Res.ok.injEq] at h
    have : b = Expr.mapLeavesArgs g f args := by
      clear h ha
      induction args generalizing b with
      | nil =>
        simp only [Visitor.visitArgs, Res.pure_eq, Res.ok.injEq] at hb'
        rw [← hb']; rfl
      | cons x xs ih =>
        rw [Visitor.visitArgs, Res.bind_eq_ok] at hb'
        obtain ⟨x', hx, hb'⟩ := hb'
        rw [Res.bind_eq_ok] at hb'
        obtain ⟨xs', hxs, hb'⟩ := hb'
        simp only [Res.pure_eq, Res.ok.injEq] at hb'
        rw [← hb', iha x (by simp) x' hx, ih (fun b hb => iha b (by simp [hb])) xs' hxs, Expr.mapLeavesArgs]
    rw [← h, ihr a ha, this]; simp only [Expr.mapLeaves]
  · intro e ih e' h
    rw [Visitor.visit, Res.bind_eq_ok] at h
    obtain ⟨a, ha, h⟩ := h
    simp only [hpost, Res.pure_eq, id, Res.ok.injEq] at h
    rw [← h, ih a ha]; simp only [Expr.mapLeaves]
  · intro l e' h
    rw [Visitor.visit, Res.bind_eq_ok] at h
    obtain ⟨a, ha, h⟩ := h
    simp only [hpost, Res.pure_eq, id, Res.ok.injEq] at h
    rw [← h, hg l a ha]; simp only [Expr.mapLeaves]
  · intro p e' h
    rw [Visitor.visit, Res.bind_eq_ok] at h
    obtain ⟨a, ha, h⟩ := h
    simp only [hpost, Res.pure_eq, id, Res.ok.injEq] at h
    rw [← h, hf p a ha]; simp only [Expr.mapLeaves]
  · intro b m ih e' h
    rw [Visitor.visit, Res.bind_eq_ok] at h
    obtain ⟨a, ha, h⟩ := h
    simp only [hpost, Res.pure_eq, id, Res.ok.injEq] at h
    rw [← h, ih a ha]; simp only [Expr.mapLeaves]
  · intro f args _ _ e' h; simp [Visitor.visit] at h
  · intro k e' h; simp [Visitor.visit] at h

end Verif
