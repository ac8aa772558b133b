import Verif.Lemmas.Expr

/-! # `paren` as a plain function on supported expressions -/

namespace Verif

mutual
/-- What `paren` returns. -/
def parenE : Expr → Expr
  | .unary op e => .unary op (parenthesiseOp (parenE e))
  | .binary l op r => .binary (parenthesiseOp (parenE l)) op (parenthesiseOp (parenE r))
  | .methodCall r m args => .methodCall (parenE r) m (parenArgs args)
  | .paren e => .paren (parenE e)
  | .lit l => .lit l
  | .path p => .path p
  | .field b m => .field (parenE b) m
  | .call f args => .call f args
  | .other k => .other k

def parenArgs : List Expr → List Expr
  | [] => []
  | a :: as => parenE a :: parenArgs as
end

theorem paren_eq : ∀ e : Expr, e.supported = true → paren e = .ok (parenE e) := by
  have args : ∀ l : List Expr, (∀ a ∈ l, a.supported = true → parenVisitor.visit a = .ok (parenE a)) →
      Expr.supportedArgs l = true → parenVisitor.visitArgs l = .ok (parenArgs l) := by
    intro l
    induction l with
    | nil => intros; rfl
    | cons a as ih =>
      intro ha h
      simp only [Expr.supportedArgs, Bool.and_eq_true] at h
      rw [Visitor.visitArgs, ha a (by simp) h.1, Res.ok_bind, ih (fun b hb => ha b (by simp [hb])) h.2]
      simp [parenArgs]
  unfold paren
  apply Expr.ind
  · intro op e ih h
    rw [Visitor.visit_unary _ rfl rfl, ih h]
    simp [parenVisitor, parenPost, makeUnary, parenE]
  · intro l op r ihl ihr h
    simp only [Expr.supported, Bool.and_eq_true] at h
    rw [Visitor.visit_binary _ rfl rfl, ihl h.1, ihr h.2]
    simp [parenVisitor, parenPost, makeBinary, parenE]
  · intro r m as ihr iha h
    simp only [Expr.supported, Bool.and_eq_true] at h
    rw [Visitor.visit, ihr h.1, Res.ok_bind, args as iha h.2]
    simp [parenVisitor, parenPost, parenE]
  · intro e ih h
    rw [Visitor.visit, ih h]
    simp [parenVisitor, parenPost, parenE]
  · intro l h; rfl
  · intro p h; rfl
  · intro b m ih h
    rw [Visitor.visit, ih h]
    simp [parenVisitor, parenPost, parenE]
  · intro f as _ _ h; simp [Expr.supported] at h
  · intro k h; simp [Expr.supported] at h

theorem erase_parenthesiseOp (e : Expr) : (parenthesiseOp e).erase = e.erase := by
  cases e <;> rfl

theorem isOp_parenthesiseOp (e : Expr) : (parenthesiseOp e).isOp = false := by
  cases e <;> rfl

theorem operandsClosed_parenthesiseOp (e : Expr) : (parenthesiseOp e).operandsClosed = e.operandsClosed := by
  cases e <;> rfl

theorem parenthesiseOp_idem (e : Expr) : parenthesiseOp (parenE (parenthesiseOp e)) =
    if e.isOp then .paren (parenE e) else parenthesiseOp (parenE e) := by
  cases e <;> simp [parenthesiseOp, makeParen, parenE, Expr.isOp]

theorem supported_parenthesiseOp (e : Expr) : (parenthesiseOp e).supported = e.supported := by
  cases e <;> rfl

theorem parenE_isOp (e : Expr) : (parenE e).isOp = e.isOp := by
  cases e <;> simp [parenE, Expr.isOp]

theorem parenE_erase : ∀ e : Expr, (parenE e).erase = e.erase := by
  have args : ∀ l : List Expr, (∀ a ∈ l, (parenE a).erase = a.erase) →
      Expr.eraseArgs (parenArgs l) = Expr.eraseArgs l := by
    intro l
    induction l with
    | nil => intros; rfl
    | cons a as ih =>
      intro ha
      rw [parenArgs, Expr.eraseArgs, Expr.eraseArgs, ha a (by simp), ih (fun b hb => ha b (by simp [hb]))]
  apply Expr.ind
  · intro op e ih; simp only [parenE, Expr.erase, erase_parenthesiseOp, ih]
  · intro l op r ihl ihr; simp only [parenE, Expr.erase, erase_parenthesiseOp, ihl, ihr]
  · intro r m as ihr iha; simp only [parenE, Expr.erase, ihr, args as iha]
  · intro e ih; simp only [parenE, Expr.erase, ih]
  · intro l; rfl
  · intro p; rfl
  · intro b m ih; simp only [parenE, Expr.erase, ih]
  · intro f as _ _; rfl
  · intro k; rfl

theorem parenE_supported : ∀ e : Expr, (parenE e).supported = e.supported := by
  have args : ∀ l : List Expr, (∀ a ∈ l, (parenE a).supported = a.supported) →
      Expr.supportedArgs (parenArgs l) = Expr.supportedArgs l := by
    intro l
    induction l with
    | nil => intros; rfl
    | cons a as ih =>
      intro ha
      rw [parenArgs, Expr.supportedArgs, Expr.supportedArgs, ha a (by simp), ih (fun b hb => ha b (by simp [hb]))]
  apply Expr.ind
  · intro op e ih; simp only [parenE, Expr.supported, supported_parenthesiseOp, ih]
  · intro l op r ihl ihr; simp only [parenE, Expr.supported, supported_parenthesiseOp, ihl, ihr]
  · intro r m as ihr iha; simp only [parenE, Expr.supported, ihr, args as iha]
  · intro e ih; simp only [parenE, Expr.supported, ih]
  · intro l; rfl
  · intro p; rfl
  · intro b m ih; simp only [parenE, Expr.supported, ih]
  · intro f as _ _; rfl
  · intro k; rfl

theorem parenE_closed : ∀ e : Expr, e.supported = true → (parenE e).operandsClosed = true := by
  have args : ∀ l : List Expr, (∀ a ∈ l, a.supported = true → (parenE a).operandsClosed = true) →
      Expr.supportedArgs l = true → Expr.operandsClosedArgs (parenArgs l) = true := by
    intro l
    induction l with
    | nil => intros; rfl
    | cons a as ih =>
      intro ha h
      simp only [Expr.supportedArgs, Bool.and_eq_true] at h
      rw [parenArgs, Expr.operandsClosedArgs, ha a (by simp) h.1, ih (fun b hb => ha b (by simp [hb])) h.2]
      rfl
  apply Expr.ind
  · intro op e ih h
    simp only [parenE, Expr.operandsClosed, isOp_parenthesiseOp, operandsClosed_parenthesiseOp, ih h]
    rfl
  · intro l op r ihl ihr h
    simp only [Expr.supported, Bool.and_eq_true] at h
    simp only [parenE, Expr.operandsClosed, isOp_parenthesiseOp, operandsClosed_parenthesiseOp, ihl h.1, ihr h.2]
    rfl
  · intro r m as ihr iha h
    simp only [Expr.supported, Bool.and_eq_true] at h
    simp only [parenE, Expr.operandsClosed, ihr h.1, args as iha h.2]
    rfl
  · intro e ih h; simp only [parenE, Expr.operandsClosed, ih h]
  · intro l h; rfl
  · intro p h; rfl
  · intro b m ih h; simp only [parenE, Expr.operandsClosed, ih h]
  · intro f as _ _ h; simp [Expr.supported] at h
  · intro k h; simp [Expr.supported] at h

/-- `paren` leaves alone what needs no parentheses. -/
theorem parenE_of_closed : ∀ e : Expr, e.operandsClosed = true → parenE e = e := by
  have args : ∀ l : List Expr, (∀ a ∈ l, a.operandsClosed = true → parenE a = a) →
      Expr.operandsClosedArgs l = true → parenArgs l = l := by
    intro l
    induction l with
    | nil => intros; rfl
    | cons a as ih =>
      intro ha h
      simp only [Expr.operandsClosedArgs, Bool.and_eq_true] at h
      rw [parenArgs, ha a (by simp) h.1, ih (fun b hb => ha b (by simp [hb])) h.2]
  have hop : ∀ e : Expr, e.isOp = false → parenthesiseOp e = e := by
    intro e h; cases e <;> first | rfl | simp [Expr.isOp] at h
  apply Expr.ind
  · intro op e ih h
    simp only [Expr.operandsClosed, Bool.and_eq_true, Bool.not_eq_true'] at h
    rw [parenE, ih h.2, hop e h.1]
  · intro l op r ihl ihr h
    simp only [Expr.operandsClosed, Bool.and_eq_true, Bool.not_eq_true'] at h
    rw [parenE, ihl h.1.2, ihr h.2, hop l h.1.1.1, hop r h.1.1.2]
  · intro r m as ihr iha h
    simp only [Expr.operandsClosed, Bool.and_eq_true] at h
    rw [parenE, ihr h.1, args as iha h.2]
  · intro e ih h; rw [parenE, ih h]
  · intro l h; rfl
  · intro p h; rfl
  · intro b m ih h; rw [parenE, ih h]
  · intro f as _ _ h; rfl
  · intro k h; rfl

end Verif
