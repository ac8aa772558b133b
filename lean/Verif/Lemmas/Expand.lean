import Mathlib.Algebra.BigOperators.Group.List.Basic
import Mathlib.Algebra.Ring.Basic
import Mathlib.Algebra.BigOperators.Ring.List
import Mathlib.Tactic.Ring
import Mathlib.Data.List.Induction
import Verif.Lemmas.Leaves

/-! # `match_sum` and `make_sum` -/

namespace Verif

theorem matchSumAux_ne_nil : ∀ (e : Expr) (s n : Bool), matchSumAux s n e ≠ [] := by
  have flat : ∀ (l r : List Expr), l ≠ [] → r ≠ [] →
      (l.flatMap fun lhs => r.map fun rhs => makeBinary lhs .mul rhs) ≠ [] := by
    intro l r hl hr
    cases l with
    | nil => exact absurd rfl hl
    | cons a as => cases r with
      | nil => exact absurd rfl hr
      | cons b bs => simp
  apply Expr.ind
  · intro op e ih s n; cases n <;> simp [matchSumAux]
  · intro l op r ihl ihr s n
    cases op <;> simp only [matchSumAux]
    case add => simp [ihl]
    case sub => simp [ihl]
    case mul => exact flat _ _ (ihl _ _) (ihr _ _)
    all_goals (cases n <;> simp)
  · intro r m args _ _ s n; cases n <;> simp [matchSumAux]
  · intro e ih s n
    cases s
    · cases n <;> simp [matchSumAux]
    · simpa [matchSumAux] using ih false n
  all_goals (intros; rename_i n; cases n <;> simp [matchSumAux])

theorem expand_visit_unary (op : UnOp) (e : Expr) : expandVisitor.visit (.unary op e) = expandUnary op e := by
  rw [Visitor.visit]; simp only [expandVisitor]; cases expandUnary op e <;> rfl

theorem expand_visit_binary (l : Expr) (op : BinOp) (r : Expr) :
    expandVisitor.visit (.binary l op r) = expandBinary l op r := by
  rw [Visitor.visit]; simp only [expandVisitor]; cases expandBinary l op r <;> rfl

theorem makeSumRev_ok : ∀ l : List Expr, l ≠ [] → ∃ e, makeSumRev l = .ok e
  | [], h => absurd rfl h
  | [e], _ => ⟨e, rfl⟩
  | a :: b :: rest, _ => by
    obtain ⟨e, he⟩ := makeSumRev_ok (b :: rest) (by simp)
    exact ⟨sumStep e a, by rw [makeSumRev, he]; rfl; simp⟩

theorem makeSum_ok (l : List Expr) (h : l ≠ []) : ∃ e, makeSum l = .ok e :=
  makeSumRev_ok _ (by simpa using h)

theorem makeSum_snoc (l : List Expr) (r e : Expr) (hl : l ≠ []) (h : makeSum l = .ok e) :
    makeSum (l ++ [r]) = .ok (sumStep e r) := by
  unfold makeSum at *
  rw [List.reverse_append, List.reverse_singleton, List.singleton_append]
  cases hrev : l.reverse with
  | nil => simp at hrev; exact absurd hrev hl
  | cons a as =>
    rw [hrev] at h
    rw [makeSumRev, h]; rfl
    simp

end Verif
