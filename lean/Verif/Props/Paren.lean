import Verif.Lemmas.Paren

/-! # C15: `paren` only adds parentheses -/

namespace Verif

/-- **C15** After `paren` no operand of an operator is a bare operator. -/
theorem C15_paren_operands (e e' : Expr) (h : paren e = .ok e') : e'.operandsClosed = true := by
  have hs := Visitor.supported_of_ok parenVisitor rfl rfl e e' h
  rw [paren_eq e hs] at h
  cases h
  exact parenE_closed e hs

/-- **C15** Stripping all parentheses gives the stripped original: nothing but parentheses was added. -/
theorem C15_paren_erase (e e' : Expr) (h : paren e = .ok e') : e'.erase = e.erase := by
  have hs := Visitor.supported_of_ok parenVisitor rfl rfl e e' h
  rw [paren_eq e hs] at h
  cases h
  exact parenE_erase e

/-- **C15** `paren` never removes a parenthesis that was there, and leaves alone what needs none. -/
theorem C15_paren_minimal (e : Expr) (hs : e.supported = true) (h : e.operandsClosed = true) : paren e = .ok e := by
  rw [paren_eq e hs, parenE_of_closed e h]

/-- **C15** Applying `paren` twice is applying it once. -/
theorem C15_paren_idempotent (e e' : Expr) (h : paren e = .ok e') : paren e' = .ok e' := by
  have hs := Visitor.supported_of_ok parenVisitor rfl rfl e e' h
  have hc := C15_paren_operands e e' h
  rw [paren_eq e hs] at h
  cases h
  exact C15_paren_minimal _ (by rw [parenE_supported, hs]) hc

/-- **C15** The meaning is unchanged. -/
theorem C15_paren_meaning {α : Type} (I : Interp α) (e e' : Expr) (h : paren e = .ok e') :
    e'.denote I = e.denote I := by
  have key : ∀ x : Expr, x.erase.denote I = x.denote I := by
    have args : ∀ l : List Expr, (∀ a ∈ l, a.erase.denote I = a.denote I) →
        Expr.denoteArgs I (Expr.eraseArgs l) = Expr.denoteArgs I l := by
      intro l
      induction l with
      | nil => intros; rfl
      | cons a as ih =>
        intro ha
        rw [Expr.eraseArgs, Expr.denoteArgs, Expr.denoteArgs, ha a (by simp), ih (fun b hb => ha b (by simp [hb]))]
    apply Expr.ind
    · intro op e ih; simp only [Expr.erase, Expr.denote, ih]
    · intro l op r ihl ihr; simp only [Expr.erase, Expr.denote, ihl, ihr]
    · intro r m as ihr iha; simp only [Expr.erase, Expr.denote, ihr, args as iha]
    · intro e ih; simp only [Expr.erase, Expr.denote, ih]
    · intro l; rfl
    · intro p; rfl
    · intro b m ih; simp only [Expr.erase, Expr.denote, ih]
    · intro f as ihf iha; simp only [Expr.erase, Expr.denote, ihf, args as iha]
    · intro k; rfl
  rw [← key e', C15_paren_erase e e' h, key]

example : paren (.binary (.binary (.path ["a"]) .add (.unary .neg (.path ["b"]))) .mul (.methodCall (.binary (.path ["a"]) .add (.path ["b"])) "sin" [])) =
    .ok (.binary (.paren (.binary (.path ["a"]) .add (.paren (.unary .neg (.path ["b"]))))) .mul
      (.methodCall (.binary (.path ["a"]) .add (.path ["b"])) "sin" [])) := rfl

end Verif
