import Verif.Model.Generated
import Verif.Spec.RealMeaning
import Mathlib.Tactic.NormNum
import Mathlib.Tactic.Ring

/-! # Computing what generated code does over the reals -/

namespace Verif
open RExpr

section
variable {α : Type} (I : RInterp α) (env : Name → α)

@[simp] theorem denote_v (s : String) : (v s).denote I env = env [s] := rfl
@[simp] theorem denote_add (a b : RExpr) : (a + b).denote I env = I.bin .add (a.denote I env) (b.denote I env) := rfl
@[simp] theorem denote_sub (a b : RExpr) : (a - b).denote I env = I.bin .sub (a.denote I env) (b.denote I env) := rfl
@[simp] theorem denote_mul (a b : RExpr) : (a * b).denote I env = I.bin .mul (a.denote I env) (b.denote I env) := rfl
@[simp] theorem denote_div (a b : RExpr) : (a / b).denote I env = I.bin .div (a.denote I env) (b.denote I env) := rfl
@[simp] theorem denote_neg (a : RExpr) : (-a).denote I env = I.un .neg (a.denote I env) := rfl
@[simp] theorem denote_lt (a b : RExpr) : (lt a b).denote I env = I.bin .lt (a.denote I env) (b.denote I env) := rfl
@[simp] theorem denote_le (a b : RExpr) : (le a b).denote I env = I.bin .le (a.denote I env) (b.denote I env) := rfl
@[simp] theorem denote_gt (a b : RExpr) : (gt a b).denote I env = I.bin .gt (a.denote I env) (b.denote I env) := rfl
@[simp] theorem denote_ge (a b : RExpr) : (ge a b).denote I env = I.bin .ge (a.denote I env) (b.denote I env) := rfl
@[simp] theorem denote_paren (a : RExpr) : (RExpr.paren a).denote I env = a.denote I env := by rw [RExpr.denote]
@[simp] theorem denote_cond (c a b : RExpr) :
    (cond c a b).denote I env = if I.test (c.denote I env) then a.denote I env else b.denote I env := by
  simp [RExpr.cond, RExpr.denote, RStmt.denoteBlock]
@[simp] theorem denote_ifElse (c : RExpr) (t : List RStmt) (f : RExpr) :
    (RExpr.ifElse c t f).denote I env = if I.test (c.denote I env) then RStmt.denoteBlock I env t else f.denote I env := by
  rw [RExpr.denote]
@[simp] theorem denote_block (t : List RStmt) : (RExpr.block t).denote I env = RStmt.denoteBlock I env t := by rw [RExpr.denote]
@[simp] theorem denote_as (a : RExpr) (t : String) : (as a t).denote I env = I.cast [t] (a.denote I env) := by
  simp [as, RExpr.denote]
@[simp] theorem denote_app (f : String) (args : List RExpr) : (app f args).denote I env = I.call [f] (RExpr.denoteArgs I env args) := by
  simp [app, RExpr.denote]
@[simp] theorem denote_fromBits (a : RExpr) : (fromBits a).denote I env = I.call ["fty", "from_bits"] [a.denote I env] := by
  simp [fromBits, RExpr.denote, RExpr.denoteArgs]
@[simp] theorem denote_method (a : RExpr) (m : String) (args : List RExpr) :
    (RExpr.method a m args).denote I env = I.meth m (a.denote I env) (RExpr.denoteArgs I env args) := by rw [RExpr.denote]
@[simp] theorem denote_binary (a : RExpr) (op : BinOp) (b : RExpr) :
    (RExpr.binary a op b).denote I env = I.bin op (a.denote I env) (b.denote I env) := by rw [RExpr.denote]
@[simp] theorem denoteArgs_nil : RExpr.denoteArgs I env [] = [] := by rw [RExpr.denoteArgs]
@[simp] theorem denoteArgs_cons (a : RExpr) (as : List RExpr) :
    RExpr.denoteArgs I env (a :: as) = a.denote I env :: RExpr.denoteArgs I env as := by rw [RExpr.denoteArgs]
@[simp] theorem denoteBlock_letT (n t : String) (e : RExpr) (rest : List RStmt) :
    RStmt.denoteBlock I env (.letT n t e :: rest) = RStmt.denoteBlock I (envSet env n (e.denote I env)) rest := by
  rw [RStmt.letT, RStmt.denoteBlock]
@[simp] theorem denoteBlock_letU (n : String) (e : RExpr) (rest : List RStmt) :
    RStmt.denoteBlock I env (.letU n e :: rest) = RStmt.denoteBlock I (envSet env n (e.denote I env)) rest := by
  rw [RStmt.letU, RStmt.denoteBlock]
@[simp] theorem denoteBlock_const (n : String) (t : Name) (e : RExpr) (rest : List RStmt) :
    RStmt.denoteBlock I env (.const n t e :: rest) = RStmt.denoteBlock I (envSet env n (e.denote I env)) rest := by
  rw [RStmt.denoteBlock]
@[simp] theorem denoteBlock_expr (e : RExpr) : RStmt.denoteBlock I env [.expr e] = e.denote I env := by
  rw [RStmt.denoteBlock]
@[simp] theorem envSet_one (n m : String) (a : α) : envSet env n a [m] = if m = n then a else env [m] := by
  simp [envSet]

theorem ofFty_apply (g : Name → α) (n : String) (ps : List String) (body : List RStmt) (args : List α) :
    (RFn.ofFty n ps body).apply I g args = RStmt.denoteBlock I (bindParams g (ps.map (fun p => (p, ["fty"]))) args) body := rfl
end

section
variable (F : FloatFmt) (calls : String → List RV → RV) (env : Name → RV)

@[simp] theorem real_un : (realInterp F calls).un = unRV := rfl
@[simp] theorem real_bin : (realInterp F calls).bin = binRV := rfl
@[simp] theorem real_meth : (realInterp F calls).meth = methRV F := rfl
@[simp] theorem real_cast : (realInterp F calls).cast = castRV F := rfl
@[simp] theorem real_call (g : String) (args : List RV) : (realInterp F calls).call [g] args = calls g args := by
  simp [realInterp]
@[simp] theorem real_test (t : Bool) : (realInterp F calls).test (.b t) = t := rfl
theorem real_fromBits (n : ℤ) (h : 0 ≤ n) (h2 : n < 2 ^ F.width) :
    (realInterp F calls).call ["fty", "from_bits"] [.i n] = F.decode n.toNat := by
  simp [realInterp, h, h2]

@[simp] theorem bin_add (x y : ℝ) : binRV .add (.f x) (.f y) = .f (x + y) := rfl
@[simp] theorem bin_sub (x y : ℝ) : binRV .sub (.f x) (.f y) = .f (x - y) := rfl
@[simp] theorem bin_mul (x y : ℝ) : binRV .mul (.f x) (.f y) = .f (x * y) := rfl
@[simp] theorem bin_lt (x y : ℝ) : binRV .lt (.f x) (.f y) = .b (decide (x < y)) := by simp [binRV]
@[simp] theorem bin_le (x y : ℝ) : binRV .le (.f x) (.f y) = .b (decide (x ≤ y)) := by simp [binRV]
@[simp] theorem bin_gt (x y : ℝ) : binRV .gt (.f x) (.f y) = .b (decide (y < x)) := by simp [binRV]
@[simp] theorem bin_ge (x y : ℝ) : binRV .ge (.f x) (.f y) = .b (decide (y ≤ x)) := by simp [binRV]
theorem bin_div {x y : ℝ} (h : y ≠ 0) : binRV .div (.f x) (.f y) = .f (x / y) := by simp [binRV, h]
@[simp] theorem un_neg (x : ℝ) : unRV .neg (.f x) = .f (-x) := rfl
@[simp] theorem meth_abs (x : ℝ) : methRV F "abs" (.f x) [] = .f |x| := rfl
theorem meth_sqrt {x : ℝ} (h : 0 ≤ x) : methRV F "sqrt" (.f x) [] = .f (Real.sqrt x) := by simp [methRV, not_lt.2 h]
theorem meth_recip {x : ℝ} (h : x ≠ 0) : methRV F "recip" (.f x) [] = .f x⁻¹ := by simp [methRV, h]
theorem meth_ln {x : ℝ} (h : 0 < x) : methRV F "ln" (.f x) [] = .f (Real.log x) := by
  simp [methRV, not_lt.2 h.le, h.ne']
@[simp] theorem meth_copysign (x y : ℝ) : methRV F "copysign" (.f x) [.f y] = .f (if y < 0 then -|x| else |x|) := rfl
@[simp] theorem meth_mul_add (x y z : ℝ) : methRV F "mul_add" (.f x) [.f y, .f z] = .f (x * y + z) := rfl
@[simp] theorem meth_to_bits (x : ℝ) : methRV F "to_bits" (.f x) [] = .i (F.encode x) := rfl
@[simp] theorem cast_fty (x : ℝ) : castRV F ["fty"] (.f x) = .f x := rfl
@[simp] theorem cast_fty_i (n : ℤ) : castRV F ["fty"] (.i n) = .f n := rfl

theorem denote_num {s : String} {d : Dec} (h : parseDec s.toList = some d) :
    (num s).denote (realInterp F calls) env = .f (d.val : ℝ) := by
  simp [num, RExpr.denote, realInterp, litRV, litValue, h]

theorem denote_int {s : String} {n : ℤ} (h : parseDec s.toList = some ⟨n, 0⟩) :
    (int s).denote (realInterp F calls) env = .i n := by
  simp [RExpr.int, RExpr.denote, realInterp, litRV, litValue, h, Dec.val]

@[simp] theorem num_0 : (num "0.0").denote (realInterp F calls) env = .f 0 := by
  rw [denote_num F calls env (d := ⟨0, 1⟩) rfl]; simp [Dec.val]
@[simp] theorem num_1 : (num "1.0").denote (realInterp F calls) env = .f 1 := by
  rw [denote_num F calls env (d := ⟨10, 1⟩) rfl]; simp [Dec.val]
@[simp] theorem num_2 : (num "2.0").denote (realInterp F calls) env = .f 2 := by
  rw [denote_num F calls env (d := ⟨20, 1⟩) rfl]; norm_num [Dec.val]
@[simp] theorem num_3 : (num "3.0").denote (realInterp F calls) env = .f 3 := by
  rw [denote_num F calls env (d := ⟨30, 1⟩) rfl]; norm_num [Dec.val]
@[simp] theorem num_half : (num "0.5").denote (realInterp F calls) env = .f (1 / 2) := by
  rw [denote_num F calls env (d := ⟨5, 1⟩) rfl]; norm_num [Dec.val]
@[simp] theorem num_quarter : (num "0.25").denote (realInterp F calls) env = .f (1 / 4) := by
  rw [denote_num F calls env (d := ⟨25, 2⟩) rfl]; norm_num [Dec.val]
@[simp] theorem num_15 : (num "1.5").denote (realInterp F calls) env = .f (3 / 2) := by
  rw [denote_num F calls env (d := ⟨15, 1⟩) rfl]; norm_num [Dec.val]
@[simp] theorem num_008 : (num "0.08").denote (realInterp F calls) env = .f (8 / 100) := by
  rw [denote_num F calls env (d := ⟨8, 2⟩) rfl]; norm_num [Dec.val]
@[simp] theorem num_lim : (num "0.70710678118654752440").denote (realInterp F calls) env
    = .f (70710678118654752440 / 10 ^ 20) := by
  rw [denote_num F calls env (d := ⟨70710678118654752440, 20⟩) rfl]; norm_num [Dec.val]
@[simp] theorem num_min : (num "0.000001").denote (realInterp F calls) env = .f (1 / 1000000) := by
  rw [denote_num F calls env (d := ⟨1, 6⟩) rfl]; norm_num [Dec.val]
@[simp] theorem int_1 : (int "1").denote (realInterp F calls) env = .i 1 := denote_int F calls env rfl
end

end Verif
