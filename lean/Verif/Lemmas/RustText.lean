import Verif.Spec.RustText
import Verif.Lemmas.Grammar

/-!
# Reading printed Rust programs
-/

namespace Verif

theorem Lit.rtoks_eq (l : Lit) : l.rtoks = l.rtree.print rustLang := by
  unfold Lit.rtoks Lit.rtree
  split <;> simp [PExpr.print]

mutual
/-- The tokens are those of the tree. -/
theorem rtoks_eq (e : RExpr) : e.toks = e.tree.print rustLang := by
  match e with
  | .lit l => exact l.rtoks_eq
  | .path p => simp [RExpr.toks, RExpr.tree, PExpr.print]
  | .unary op e => simp [RExpr.toks, RExpr.tree, PExpr.print, rtoks_eq e]
  | .binary l op r => simp [RExpr.toks, RExpr.tree, PExpr.print, rtoks_eq l, rtoks_eq r]
  | .method r m as => simp [RExpr.toks, RExpr.tree, PExpr.print, rtoks_eq r, rtoksArgs_eq as]
  | .call f as => simp [RExpr.toks, RExpr.tree, PExpr.print, rtoks_eq f, rtoksArgs_eq as]
  | .paren e => simp [RExpr.toks, RExpr.tree, PExpr.print, rtoks_eq e]
  | .cast e ty => simp [RExpr.toks, RExpr.tree, PExpr.print, rtoks_eq e, rustLang]
  | .assign l r => simp [RExpr.toks, RExpr.tree, PExpr.print, rtoks_eq l, rtoks_eq r]
  | .assignOp l op r => simp [RExpr.toks, RExpr.tree, PExpr.print, rtoks_eq l, rtoks_eq r]
  | .ifThen c t | .ifElse c t f | .block b | .array es | .tuple es | .verbatim | .other k => simp [RExpr.toks, RExpr.tree, PExpr.print]

theorem rtoksArgs_eq (as : List RExpr) : RExpr.toksArgs as = PExpr.printArgs rustLang (RExpr.trees as) := by
  match as with
  | [] => rfl
  | a :: as => simp [RExpr.toksArgs, RExpr.trees, PExpr.printArgs, rtoks_eq a, rtoksRest_eq as]

theorem rtoksRest_eq (as : List RExpr) : RExpr.toksRest as = PExpr.printRest rustLang (RExpr.trees as) := by
  match as with
  | [] => rfl
  | a :: as => simp [RExpr.toksRest, RExpr.trees, PExpr.printRest, rtoks_eq a, rtoksRest_eq as]
end

/-- An expression is read as itself exactly if its operands are tight enough. -/
theorem rreads_iff (e : RExpr) : rustLang.Reads e.toks e.tree ↔ e.tree.fits rustLang 0 := by
  rw [Lang.reads_iff rustLang rustLang_sound]
  exact ⟨fun h => h.1, fun h => ⟨h, rtoks_eq e⟩⟩

/-! ## A check by computation -/

/-- The precedence level. -/
def BinOp.lvl : BinOp → ℕ
  | .mul | .div | .rem => 9
  | .add | .sub => 8
  | .shl | .shr => 7
  | .bitAnd => 6
  | .bitXor => 5
  | .bitOr => 4
  | .eq | .lt | .le | .ne | .ge | .gt => 3
  | .and => 2
  | .or => 1
  | _ => 0

theorem BinOp.lvl_eq (op : BinOp) : rustLang.level op.sym = some op.lvl := by cases op <;> decide

theorem UnOp.prefix_ok (op : UnOp) : rustLang.isPrefix op.sym = true := by cases op <;> decide

/-- Levels that the operands of an operator must have. -/
def BinOp.sides (op : BinOp) : ℕ × ℕ := if op.lvl = 0 then (1, 0) else if op.lvl = 3 then (4, 4) else (op.lvl, op.lvl + 1)

mutual
/-- The expression can stand where level `k` is asked for. -/
def RExpr.fitsB : ℕ → RExpr → Bool
  | k, .lit l => !l.signed || decide (k ≤ 11)
  | _, .path _ => true
  | k, .unary _ e => decide (k ≤ 11) && e.fitsB 11
  | k, .binary l op r => decide (k ≤ op.lvl) && l.fitsB op.sides.1 && r.fitsB op.sides.2
  | _, .method r _ args => r.fitsB 12 && RExpr.fitsBAll args
  | _, .call f args => f.fitsB 12 && RExpr.fitsBAll args
  | _, .paren e => e.fitsB 0
  | k, .cast e _ => decide (k ≤ 10) && e.fitsB 10
  | k, .assign l r => decide (k ≤ 0) && l.fitsB 1 && r.fitsB 0
  | k, .assignOp l op r => decide (k ≤ op.lvl) && l.fitsB op.sides.1 && r.fitsB op.sides.2
  | _, _ => true

def RExpr.fitsBAll : List RExpr → Bool
  | [] => true
  | e :: es => e.fitsB 0 && RExpr.fitsBAll es
end

theorem fits_binary (l r : PExpr RWord) (op : BinOp) (k : ℕ) :
    (PExpr.binary l op.sym r).fits rustLang k ↔ k ≤ op.lvl ∧ l.fits rustLang op.sides.1 ∧ r.fits rustLang op.sides.2 := by
  simp only [PExpr.fits, op.lvl_eq, Option.some.injEq, exists_eq_left']
  cases op <;> simp [BinOp.lvl, BinOp.sides, rustLang]

theorem fits_assign (l r : PExpr RWord) (k : ℕ) :
    (PExpr.binary l "=" r).fits rustLang k ↔ k ≤ 0 ∧ l.fits rustLang 1 ∧ r.fits rustLang 0 := by
  have : rustLang.level "=" = some 0 := by decide
  simp only [PExpr.fits, this, Option.some.injEq, exists_eq_left']
  simp [rustLang]

theorem RExpr.tree_isField (e : RExpr) : e.tree.isField = false := by
  cases e with
  | lit l => simp only [RExpr.tree]; unfold Lit.rtree; split <;> rfl
  | _ => rfl

theorem lit_fits (l : Lit) (k : ℕ) : l.rtree.fits rustLang k ↔ (!l.signed || decide (k ≤ 11)) = true := by
  unfold Lit.rtree Lit.signed
  cases l with
  | int ds s => split <;> simp_all [PExpr.fits, rustLang]
  | float ds s => split <;> simp_all [PExpr.fits, rustLang]
  | bool b => simp [PExpr.fits]
  | other t => simp [PExpr.fits]

mutual
theorem fits_iff (e : RExpr) (k : ℕ) : e.tree.fits rustLang k ↔ e.fitsB k = true := by
  match e with
  | .lit l => exact lit_fits l k
  | .path p => simp [RExpr.tree, PExpr.fits, RExpr.fitsB]
  | .unary op e => simp [RExpr.tree, PExpr.fits, RExpr.fitsB, UnOp.prefix_ok, show rustLang.height = 11 from rfl, fits_iff e]
  | .binary l op r => simp [RExpr.tree, RExpr.fitsB, fits_binary, fits_iff l, fits_iff r, and_assoc]
  | .method r m as => simp [RExpr.tree, PExpr.fits, RExpr.fitsB, show rustLang.height = 11 from rfl, fits_iff r, fitsAll_iff as]
  | .call f as => simp [RExpr.tree, PExpr.fits, RExpr.fitsB, show rustLang.height = 11 from rfl, RExpr.tree_isField, fits_iff f, fitsAll_iff as]
  | .paren e => simp [RExpr.tree, PExpr.fits, RExpr.fitsB, fits_iff e]
  | .cast e ty =>
    simp only [RExpr.tree, PExpr.fits, RExpr.fitsB, Bool.and_eq_true, decide_eq_true_eq]
    rw [if_neg (by decide), ← fits_iff e]
    constructor
    · rintro ⟨j, h1, h2, h3, h4⟩
      have hj : j = 10 := by
        simp only [rustLang] at h1
        split_ifs at h1 with a b c
        exact c
      subst hj
      exact ⟨h3, h4⟩
    · rintro ⟨h1, h2⟩
      exact ⟨10, by decide, by decide, h1, h2⟩
  | .assign l r => simp [RExpr.tree, RExpr.fitsB, fits_assign, fits_iff l, fits_iff r, and_assoc]
  | .assignOp l op r => simp [RExpr.tree, RExpr.fitsB, fits_binary, fits_iff l, fits_iff r, and_assoc]
  | .ifThen c t | .ifElse c t f | .block b | .array es | .tuple es | .verbatim | .other k => simp [RExpr.tree, PExpr.fits, RExpr.fitsB]

theorem fitsAll_iff (as : List RExpr) : PExpr.fitsAll rustLang (RExpr.trees as) ↔ RExpr.fitsBAll as = true := by
  match as with
  | [] => simp [RExpr.trees, PExpr.fitsAll, RExpr.fitsBAll]
  | a :: as => simp [RExpr.trees, PExpr.fitsAll, RExpr.fitsBAll, fits_iff a, fitsAll_iff as]
end

/-- The place is in order. -/
def Spot.ok (s : Spot) : Bool := s.e.fitsB 0 && (!s.stmt || !s.e.startsBlock || s.e.blockLike)

theorem Spot.reads_iff (s : Spot) : s.Reads ↔ s.ok = true := by
  unfold Spot.Reads Spot.ok
  rw [rreads_iff, fits_iff]
  simp only [Bool.and_eq_true, Bool.or_eq_true, Bool.not_eq_true']
  cases s.stmt <;> cases s.e.startsBlock <;> cases s.e.blockLike <;> simp

theorem fitsB_mono {j k : ℕ} (h : j ≤ k) (e : RExpr) (hk : e.fitsB k = true) : e.fitsB j = true :=
  (fits_iff e j).mp (Lang.fits_mono rustLang h _ ((fits_iff e k).mpr hk))

end Verif
