import Verif.Spec.Meaning
import Verif.Model.Transform

/-! # Induction over expressions, and lemmas about the visitor -/

namespace Verif

/-- Induction over expressions with hypotheses for all arguments. -/
theorem Expr.ind {P : Expr → Prop}
    (unary : ∀ op e, P e → P (.unary op e))
    (binary : ∀ l op r, P l → P r → P (.binary l op r))
    (methodCall : ∀ r m args, P r → (∀ a ∈ args, P a) → P (.methodCall r m args))
    (paren : ∀ e, P e → P (.paren e))
    (lit : ∀ l, P (.lit l))
    (path : ∀ p, P (.path p))
    (field : ∀ b m, P b → P (.field b m))
    (call : ∀ f args, P f → (∀ a ∈ args, P a) → P (.call f args))
    (other : ∀ k, P (.other k)) : ∀ e, P e := by
  intro e
  exact Expr.rec (motive_1 := P) (motive_2 := fun l => ∀ a ∈ l, P a)
    unary binary methodCall paren lit path field call other
    (by simp) (by intro h t ph pt a ha; rcases List.mem_cons.mp ha with rfl | h'
                  · exact ph
                  · exact pt a h') e

end Verif

namespace Verif

theorem Res.cases_ne {α : Type} (r : Res α) :
    (∃ a, r = .ok a) ∨ (∃ e, r = .err e) ∨ r = .panic ∨ r = .diverge := by
  cases r <;> simp

/-! ## Visitors that keep operators -/

set_option linter.unusedSectionVars false

section
variable (v : Visitor) (hu : v.unary? = none) (hb : v.binary? = none)
include hu hb

theorem Visitor.visit_unary (op e) : v.visit (.unary op e) = (do
    let e' ← v.visit e
    pure (v.post (.unary op e'))) := by
  rw [Visitor.visit]; simp only [hu]; cases v.visit e <;> simp

theorem Visitor.visit_binary (l op r) : v.visit (.binary l op r) = (do
    let l' ← v.visit l
    let r' ← v.visit r
    pure (v.post (.binary l' op r'))) := by
  rw [Visitor.visit]; simp only [hb]
  cases v.visit l <;> cases v.visit r <;> simp

/-- A visitor whose literals and paths never fail accepts every supported expression. -/
theorem Visitor.visit_supported (hl : ∀ l, ∃ e, v.lit l = .ok e) (hp : ∀ p, ∃ e, v.path p = .ok e) :
    ∀ e : Expr, e.supported = true → ∃ e', v.visit e = .ok e' := by
  apply Expr.ind
  · intro op e ih h
    obtain ⟨e', he⟩ := ih (by simpa [Expr.supported] using h)
    exact ⟨_, by rw [v.visit_unary hu hb, he]; rfl⟩
  · intro l op r ihl ihr h
    simp only [Expr.supported, Bool.and_eq_true] at h
    obtain ⟨l', hl'⟩ := ihl h.1
    obtain ⟨r', hr'⟩ := ihr h.2
    exact ⟨_, by rw [v.visit_binary hu hb, hl', hr']; rfl⟩
  · intro r m args ihr iha h
    simp only [Expr.supported, Bool.and_eq_true] at h
    obtain ⟨r', hr'⟩ := ihr h.1
    have : ∃ as', v.visitArgs args = .ok as' := by
      have h2 := h.2
      clear h
      induction args with
      | nil => exact ⟨[], rfl⟩
      | cons a as ih =>
        simp only [Expr.supportedArgs, Bool.and_eq_true] at h2
        obtain ⟨a', ha'⟩ := iha a (by simp) h2.1
        obtain ⟨as', has'⟩ := ih (fun b hb => iha b (by simp [hb])) h2.2
        exact ⟨_, by rw [Visitor.visitArgs, ha', has']; rfl⟩
    obtain ⟨as', has'⟩ := this
    exact ⟨_, by rw [Visitor.visit, hr', has']; rfl⟩
  · intro e ih h
    obtain ⟨e', he⟩ := ih (by simpa [Expr.supported] using h)
    exact ⟨_, by rw [Visitor.visit, he]; rfl⟩
  · intro l _
    obtain ⟨e, he⟩ := hl l
    exact ⟨_, by rw [Visitor.visit, he]; rfl⟩
  · intro p _
    obtain ⟨e, he⟩ := hp p
    exact ⟨_, by rw [Visitor.visit, he]; rfl⟩
  · intro b m ih h
    obtain ⟨e', he⟩ := ih (by simpa [Expr.supported] using h)
    exact ⟨_, by rw [Visitor.visit, he]; rfl⟩
  · intro f args _ _ h
    simp [Expr.supported] at h
  · intro k h
    simp [Expr.supported] at h

/-- Whatever literals and paths do, success implies that the expression is supported. -/
theorem Visitor.supported_of_ok : ∀ (e : Expr) e', v.visit e = .ok e' → e.supported = true := by
  apply Expr.ind
  · intro op e ih e' h
    rw [v.visit_unary hu hb, Res.bind_eq_ok] at h
    obtain ⟨a, ha, _⟩ := h
    simpa [Expr.supported] using ih a ha
  · intro l op r ihl ihr e' h
    rw [v.visit_binary hu hb, Res.bind_eq_ok] at h
    obtain ⟨a, ha, h⟩ := h
    rw [Res.bind_eq_ok] at h
    obtain ⟨b, hb', _⟩ := h
    simp [Expr.supported, ihl a ha, ihr b hb']
  · intro r m args ihr iha e' h
    rw [Visitor.visit, Res.bind_eq_ok] at h
    obtain ⟨a, ha, h⟩ := h
    rw [Res.bind_eq_ok] at h
    obtain ⟨b, hb', h⟩ := h
    have : Expr.supportedArgs args = true := by
      clear h ha
      induction args generalizing b with
      | nil => rfl
      | cons x xs ih =>
        rw [Visitor.visitArgs, Res.bind_eq_ok] at hb'
        obtain ⟨x', hx, hb'⟩ := hb'
        rw [Res.bind_eq_ok] at hb'
        obtain ⟨xs', hxs, _⟩ := hb'
        simp [Expr.supportedArgs, iha x (by simp) x' hx, ih (fun b hb => iha b (by simp [hb])) xs' hxs]
    simp [Expr.supported, ihr a ha, this]
  · intro e ih e' h
    rw [Visitor.visit, Res.bind_eq_ok] at h
    obtain ⟨a, ha, _⟩ := h
    simpa [Expr.supported] using ih a ha
  · intro l e' _; rfl
  · intro p e' _; rfl
  · intro b m ih e' h
    rw [Visitor.visit, Res.bind_eq_ok] at h
    obtain ⟨a, ha, _⟩ := h
    simpa [Expr.supported] using ih a ha
  · intro f args _ _ e' h; simp [Visitor.visit] at h
  · intro k e' h; simp [Visitor.visit] at h

/-- The only error such a visitor reports is `UnsupportedExpr`. -/
theorem Visitor.err_unsupported (hl : ∀ l x, v.lit l ≠ .err x) (hp : ∀ p x, v.path p ≠ .err x) :
    ∀ (e : Expr) x, v.visit e = .err x → x = .unsupportedExpr ∧ e.supported = false := by
  have bind_err : ∀ {α β : Type} (r : Res α) (f : α → Res β) x, (r >>= f) = .err x →
      r = .err x ∨ ∃ a, r = .ok a ∧ f a = .err x := by
    intro α β r f x h; cases r <;> simp_all
  apply Expr.ind
  · intro op e ih x h
    rw [v.visit_unary hu hb] at h
    rcases bind_err _ _ _ h with h | ⟨_, _, h⟩
    · simpa [Expr.supported] using ih x h
    · simp at h
  · intro l op r ihl ihr x h
    rw [v.visit_binary hu hb] at h
    rcases bind_err _ _ _ h with h | ⟨_, _, h⟩
    · have := ihl x h; simp [Expr.supported, this]
    · rcases bind_err _ _ _ h with h | ⟨_, _, h⟩
      · have := ihr x h; simp [Expr.supported, this]
      · simp at h
  · intro r m args ihr iha x h
    rw [Visitor.visit] at h
    rcases bind_err _ _ _ h with h2 | ⟨_, _, h2⟩
    · have := ihr x h2; simp [Expr.supported, this]
    · rcases bind_err _ _ _ h2 with h3 | ⟨_, _, h3⟩
      · have : x = .unsupportedExpr ∧ Expr.supportedArgs args = false := by
          clear h h2
          induction args with
          | nil => simp [Visitor.visitArgs] at h3
          | cons y ys ih =>
            rw [Visitor.visitArgs] at h3
            rcases bind_err _ _ _ h3 with h4 | ⟨_, _, h4⟩
            · have := iha y (by simp) x h4; simp [Expr.supportedArgs, this]
            · rcases bind_err _ _ _ h4 with h5 | ⟨_, _, h5⟩
              · have := ih (fun b hb => iha b (by simp [hb])) h5
                simp [Expr.supportedArgs, this]
              · simp at h5
        simp [Expr.supported, this]
      · simp at h3
  · intro e ih x h
    rw [Visitor.visit] at h
    rcases bind_err _ _ _ h with h | ⟨_, _, h⟩
    · simpa [Expr.supported] using ih x h
    · simp at h
  · intro l x h
    rw [Visitor.visit] at h
    rcases bind_err _ _ _ h with h | ⟨_, _, h⟩
    · exact absurd h (hl _ _)
    · simp at h
  · intro p x h
    rw [Visitor.visit] at h
    rcases bind_err _ _ _ h with h | ⟨_, _, h⟩
    · exact absurd h (hp _ _)
    · simp at h
  · intro b m ih x h
    rw [Visitor.visit] at h
    rcases bind_err _ _ _ h with h | ⟨_, _, h⟩
    · simpa [Expr.supported] using ih x h
    · simp at h
  · intro f args _ _ x h
    simp only [Visitor.visit, Res.err.injEq] at h
    exact ⟨h.symm, rfl⟩
  · intro k x h
    simp only [Visitor.visit, Res.err.injEq] at h
    exact ⟨h.symm, rfl⟩

/-- With total literals and paths: an unsupported expression gives exactly `UnsupportedExpr`. -/
theorem Visitor.visit_unsupported (hl : ∀ l, ∃ e, v.lit l = .ok e) (hp : ∀ p, ∃ e, v.path p = .ok e) :
    ∀ e : Expr, e.supported = false → v.visit e = .err .unsupportedExpr := by
  have key : ∀ e : Expr, (∃ e', v.visit e = .ok e') ∨ ∃ x, v.visit e = .err x := by
    have hbind : ∀ {α β : Type} (r : Res α) (f : α → Res β),
        ((∃ a, r = .ok a) ∨ ∃ x, r = .err x) → (∀ a, r = .ok a → (∃ b, f a = .ok b) ∨ ∃ x, f a = .err x) →
        (∃ b, (r >>= f) = .ok b) ∨ ∃ x, (r >>= f) = .err x := by
      intro α β r f h1 h2
      rcases h1 with ⟨a, rfl⟩ | ⟨x, rfl⟩
      · exact h2 a rfl
      · right; exact ⟨x, rfl⟩
    apply Expr.ind
    · intro op e ih
      rw [v.visit_unary hu hb]
      exact hbind _ _ ih (fun a _ => .inl ⟨_, rfl⟩)
    · intro l op r ihl ihr
      rw [v.visit_binary hu hb]
      exact hbind _ _ ihl (fun a _ => hbind _ _ ihr (fun a _ => .inl ⟨_, rfl⟩))
    · intro r m args ihr iha
      rw [Visitor.visit]
      refine hbind _ _ ihr (fun a _ => hbind _ _ ?_ (fun a _ => .inl ⟨_, rfl⟩))
      clear ihr
      induction args with
      | nil => exact .inl ⟨[], rfl⟩
      | cons y ys ih =>
        rw [Visitor.visitArgs]
        exact hbind _ _ (iha y (by simp)) (fun a _ => hbind _ _ (ih (fun b hb => iha b (by simp [hb])))
          (fun a _ => .inl ⟨_, rfl⟩))
    · intro e ih
      rw [Visitor.visit]
      exact hbind _ _ ih (fun a _ => .inl ⟨_, rfl⟩)
    · intro l
      rw [Visitor.visit]
      exact hbind _ _ (.inl (hl l)) (fun a _ => .inl ⟨_, rfl⟩)
    · intro p
      rw [Visitor.visit]
      exact hbind _ _ (.inl (hp p)) (fun a _ => .inl ⟨_, rfl⟩)
    · intro b m ih
      rw [Visitor.visit]
      exact hbind _ _ ih (fun a _ => .inl ⟨_, rfl⟩)
    · intro f args _ _
      exact .inr ⟨_, by rw [Visitor.visit]⟩
    · intro k
      exact .inr ⟨_, by rw [Visitor.visit]⟩
  intro e he
  rcases key e with ⟨e', h⟩ | ⟨x, h⟩
  · have := v.supported_of_ok hu hb e e' h
    simp [he] at this
  · have := v.err_unsupported hu hb (fun l x => by obtain ⟨e, he⟩ := hl l; simp [he])
      (fun p x => by obtain ⟨e, he⟩ := hp p; simp [he]) e x h
    rw [h, this.1]

end

end Verif
