import Verif.Props.TestExp
import Verif.Props.IeeeSpecialRoot

/-!
# C99 The tests of the exponentials

The 237 samples of a test are taken in a few runs, so short that one enclosure serves all samples of a run.
-/

namespace Verif
open RExpr Dec

section
variable {ext : BdExt} {fx : FloatExt} {P : Gen.Parts} {calls : String → List RV → RV} {g : Name → RV} {v : ℝ}

/-- The generated `exp2` of the library. -/
theorem TestLibrary.exp2 (h : TestLibrary ext fx true P calls g v) : ∃ p, EncCode .f32 "x" p (fun t => (2 : ℝ) ^ t) (1 / 2) (2 / 10 ^ 10) (polyEnc ulp32 .neither 7 exp2Lits) ∧
    ∀ x, calls "exp2" [x] = (Gen.exp2 p).apply (ieeeInterp .f32 calls) g [x] := by
  obtain ⟨e, h1, h2⟩ := exp2_code_enc (ext := ext) (by have := h.fuel; omega) h.lits h.close
  have := h.approx .exp2 (by simp [approxSpecs]) _ _ e rfl h1
  have hfn : LinkedIE (fmtOf true) calls g (Gen.exp2 e.toR) := h.fn "exp2" (by decide +kernel) (by rw [← this]; rfl)
  exact ⟨e.toR, h2, fun x => hfn _⟩

/-- The generated `exp_m1` of the library. -/
theorem TestLibrary.exp_m1 (h : TestLibrary ext fx true P calls g v) : ∃ p, EncCode .f32 "x" p (fun t => (2 : ℝ) ^ t - 1) (1 / 2) (2 / 10 ^ 10) (polyEnc ulp32 .neither 7 expm1Lits) ∧
    ∀ x, calls "exp_m1" [x] = (Gen.exp_m1 p).apply (ieeeInterp .f32 calls) g [x] := by
  obtain ⟨e, h1, h2⟩ := expm1_code_enc (ext := ext) (by have := h.fuel; omega) h.lits h.close
  have := h.approx .exp_m1 (by simp [approxSpecs]) _ _ e rfl h1
  have hfn : LinkedIE (fmtOf true) calls g (Gen.exp_m1 e.toR) := h.fn "exp_m1" (by decide +kernel) (by rw [← this]; rfl)
  exact ⟨e.toR, h2, fun x => hfn _⟩

theorem TestLibrary.round_fn (h : TestLibrary ext fx true P calls g v) : LinkedIE .f32 calls g Gen.round := h.fn "round" (by decide +kernel) rfl

/-- A test passes when the runs of samples cover the table and each run meets the computable condition. -/
theorem TestLibrary.runs (h : TestLibrary ext fx true P calls g v) {s : TestSpec} (hm : s ∈ testSpecs) {tmin tmax : Expr} {k32 k64 : ℚ} {N : ℕ} (ht : s.test = .maxAbs tmin tmax k32 k64 N)
    {V : ℝ → ℝ} {a b : ℚ} (hV : ∀ V' a' b', (s.name, some (V', a', b')) ∈ testMeaning → V' = V ∧ a' = (a : ℝ) ∧ b' = (b : ℝ)) (hab : a ≤ b) {pass : Enc → Bool} {runs : List (ℕ × ℕ)}
    (hr : runsPass a b N pass runs = true) (hok : ∀ X, pass X = true → X.ok = true)
    (hp : ∀ x : ℝ, ∀ X : Enc, X.Of (FloatFmt.f32.rnd x) x → pass X = true → ∃ R d y q, s.value .f32 calls g (.f (FloatFmt.f32.rnd x)) = .f y ∧ R.Of y q ∧ |q - V x| ≤ (d : ℚ) ∧
      passEnc ulp32 (accuracyLimit true k32 k64) R d = true) : AccuracyTest ext true calls g s := by
  obtain ⟨rows, V', a', b', r1, r2, x, r3, r4⟩ := passes_of_enc h.sqrt h.fuel h.rounds true s hm _ _ _ _ _ ht eps_ulp32
  obtain ⟨rfl, rfl, rfl⟩ := hV _ _ _ r2
  unfold AccuracyTest
  rw [ht]
  refine ⟨rows, r1, r4 _ fun i hi => ?_⟩
  simp only [runsPass, Bool.and_eq_true, List.all_eq_true, List.any_eq_true, decide_eq_true_eq] at hr
  obtain ⟨p, hp1, hp2, hp3⟩ := hr.1 i (List.mem_range.2 hi)
  have hpass := hr.2 p hp1
  have hx := abs_le.1 (r3 i hi)
  have hNp : (0 : ℝ) < N := by exact_mod_cast (Nat.zero_le i).trans_lt hi
  have hba : (0 : ℝ) ≤ b - a := sub_nonneg.2 (by exact_mod_cast hab)
  have h1 : (p.1 : ℝ) * (b - a) / N ≤ i * (b - a) / N := by gcongr
  have h2 : (i : ℝ) * (b - a) / N ≤ p.2 * (b - a) / N := by gcongr
  have hX : (⟨a + p.1 * (b - a) / N - 2 / 10 ^ 5, a + p.2 * (b - a) / N + 2 / 10 ^ 5, 0, true⟩ : Enc).Of (x i) (x i) :=
    ⟨by push_cast; linarith, by push_cast; linarith, by simp⟩
  exact hp (x i) _ (hX.round (FloatFmt.wide_fmtOf true) (ε := ulp32) eps_ulp32 (hok _ hpass)).2 hpass

theorem exp2Pass_ok {lim : ℚ} {U : Enc} (h : exp2Pass lim U = true) : U.ok = true := by
  simp only [exp2Pass, redOk, Bool.and_eq_true] at h
  exact h.1.1.1.1

theorem expm1Pass_ok {lim : ℚ} {U : Enc} (h : expm1Pass lim U = true) : U.ok = true := by
  simp only [expm1Pass, redOk, Bool.and_eq_true] at h
  exact h.1.1.1.1

/-- The argument times `LOG2_E`. -/
def timesE (X : Enc) : Enc := (X.mul log2eEnc).round ulp32

theorem timesE_ok {X : Enc} (h : (timesE X).ok = true) : X.ok = true := by
  have := Enc.round_ok h
  simp only [Enc.mul, Bool.and_eq_true] at this
  exact this.1

/-- The constant `LOG2_E` of the library. -/
theorem TestLibrary.log2e (h : TestLibrary ext fx true P calls g v) : ∃ c, g ["LOG2_E"] = .f c ∧ FloatFmt.f32.Repr c ∧ log2eEnc.Of c (1 / Real.log 2) := by
  have hd := inv_log_two_digits
  have hd' := hd
  push_cast at hd'
  norm_num at hd'
  rw [← one_div] at hd'
  obtain ⟨c, hc, hC⟩ := h.const (name := "LOG2_E") (m := 1 / Real.log 2) (by rw [← logb_exp_one]; simp [constMeaning]) (by rw [abs_of_nonneg] <;> linarith) eps_ulp32 hd.1 hd.2
    (by rw [abs_of_nonneg] <;> linarith)
  obtain ⟨c', hc', hr, -⟩ := h.consts.get h.sqrt (by have := h.fuel; omega) (name := "LOG2_E") (m := 1 / Real.log 2) (by rw [← logb_exp_one]; simp [constMeaning])
    (by rw [abs_of_nonneg] <;> linarith)
  rw [hc] at hc'
  cases hc'
  exact ⟨c, hc, hr, hC⟩

/-- The samples of `exp2`. -/
theorem exp2_passes {p : RExpr} (hp : EncCode .f32 "x" p (fun t => (2 : ℝ) ^ t) (1 / 2) (2 / 10 ^ 10) (polyEnc ulp32 .neither 7 exp2Lits)) (hg : BitConsts .f32 g)
    (hl : LinkedIE .f32 calls g Gen.round) {u w : ℝ} (hu : FloatFmt.f32.Repr u) {U : Enc} (hU : U.Of u w) {lim : ℚ} (h : exp2Pass lim U = true) :
    ∃ R d y q, (Gen.exp2 p).apply (ieeeInterp .f32 calls) g [.f u] = .f y ∧ R.Of y q ∧ |q - (2 : ℝ) ^ w| ≤ (d : ℚ) ∧ passEnc ulp32 lim R d = true := by
  simp only [exp2Pass, Bool.and_eq_true] at h
  obtain ⟨y, q, h1, h2, h3⟩ := exp2_at hp hg hl hu hU h.1
  exact ⟨_, _, y, q, h1, h2, h3, h.2⟩

/-- The samples of `exp`. -/
theorem exp_sample (h : TestLibrary ext fx true P calls g v) {x : ℝ} {X : Enc} (hX : X.Of (FloatFmt.f32.rnd x) x) {lim : ℚ} (hpass : exp2Pass lim (timesE X) = true) :
    ∃ R d y q, calls "exp" [.f (FloatFmt.f32.rnd x)] = .f y ∧ R.Of y q ∧ |q - Real.exp x| ≤ (d : ℚ) ∧ passEnc ulp32 lim R d = true := by
  obtain ⟨p, hp, hexp⟩ := h.exp2
  obtain ⟨c, hc, -, hC⟩ := h.log2e
  obtain ⟨z1, z2⟩ := (hX.mul hC).round (FloatFmt.wide_fmtOf true) (ε := ulp32) eps_ulp32 (exp2Pass_ok hpass)
  have hfn : LinkedIE .f32 calls g Gen.exp := h.fn "exp" (by decide +kernel) rfl
  have hval : calls "exp" [.f (FloatFmt.f32.rnd x)] = (Gen.exp2 p).apply (ieeeInterp .f32 calls) g [.f ((fmtOf true).rnd (FloatFmt.f32.rnd x * c))] := by
    rw [← hexp, ← z1]
    refine (hfn [_]).trans ?_
    simp only [Gen.exp, ofFty_apply, List.map, bindParams]
    simp [hc, fmtOf]
  rw [hval, ← two_pow_div_log x, div_eq_mul_one_div]
  exact exp2_passes hp h.bits h.round_fn (FloatFmt.rnd_repr _) z2 hpass

/-- The samples of `exp_m1`. -/
theorem expm1_sample (h : TestLibrary ext fx true P calls g v) {x : ℝ} {X : Enc} (hX : X.Of (FloatFmt.f32.rnd x) x) {lim : ℚ} (hpass : expm1Pass lim (timesE X) = true) :
    ∃ R d y q, calls "exp_m1" [.f (FloatFmt.f32.rnd x)] = .f y ∧ R.Of y q ∧ |q - (Real.exp x - 1)| ≤ (d : ℚ) ∧ passEnc ulp32 lim R d = true := by
  obtain ⟨p, hp, hexp⟩ := h.exp_m1
  obtain ⟨c, hc, -, hC⟩ := h.log2e
  obtain ⟨z1, z2⟩ := (hX.mul hC).round (FloatFmt.wide_fmtOf true) (ε := ulp32) eps_ulp32 (expm1Pass_ok hpass)
  rw [hexp, ← two_pow_div_log x, div_eq_mul_one_div]
  simp only [expm1Pass, Bool.and_eq_true] at hpass
  obtain ⟨y, q, h1, h2, h3⟩ := expm1_at hp h.bits h.round_fn hc z1 (FloatFmt.rnd_repr _) z2 hpass.1 (passEnc_ok hpass.2)
  exact ⟨_, _, y, q, h1, h2, h3, hpass.2⟩

theorem exp2_1_runs : runsPass (-1) 0 237 (exp2Pass (accuracyLimit true 1 1)) [(0, 40), (41, 81), (82, 118), (119, 159), (160, 200), (201, 236)] = true := by decide +kernel

/-- **C99** `test_exp2_1` passes. -/
theorem C99_exp2_1 (h : TestLibrary ext fx true P calls g v) : ∀ s ∈ testSpecs, s.name = "test_exp2_1" → AccuracyTest ext true calls g s := by
  intro s hm hn
  have hs : s = TestSpec.maxAbs "exp2" "test_exp2_1" (TestSpec.meth "exp2") (TestSpec.app "exp2" [.path ["x"]]) (TestSpec.neg (litInt "1")) (litInt "0") 1 1 237 := by
    revert hn; revert s; simp [testSpecs, TestSpec.maxAbs]
  subst hs
  refine h.runs hm rfl (V := (fun x => (2 : ℝ) ^ x)) (by simp [testMeaning, TestSpec.maxAbs]) (by norm_num) exp2_1_runs (fun X hX => ?_) fun x X hX hpass => ?_
  · exact exp2Pass_ok hX
  · obtain ⟨p, hp, hexp⟩ := h.exp2
    have hval : ∀ x, (TestSpec.maxAbs "exp2" "test_exp2_1" (TestSpec.meth "exp2") (TestSpec.app "exp2" [.path ["x"]]) (TestSpec.neg (litInt "1")) (litInt "0") 1 1 237).value .f32 calls g x =
        (Gen.exp2 p).apply (ieeeInterp .f32 calls) g [x] := fun x => hexp x
    simp only [hval]
    exact exp2_passes hp h.bits h.round_fn (FloatFmt.rnd_repr _) hX hpass

theorem exp2_2_runs : runsPass (0) 1 237 (exp2Pass (accuracyLimit true 2 2)) [(0, 40), (41, 81), (82, 118), (119, 159), (160, 200), (201, 236)] = true := by decide +kernel

/-- **C99** `test_exp2_2` passes. -/
theorem C99_exp2_2 (h : TestLibrary ext fx true P calls g v) : ∀ s ∈ testSpecs, s.name = "test_exp2_2" → AccuracyTest ext true calls g s := by
  intro s hm hn
  have hs : s = TestSpec.maxAbs "exp2" "test_exp2_2" (TestSpec.meth "exp2") (TestSpec.app "exp2" [.path ["x"]]) (litInt "0") (litInt "1") 2 2 237 := by
    revert hn; revert s; simp [testSpecs, TestSpec.maxAbs]
  subst hs
  refine h.runs hm rfl (V := (fun x => (2 : ℝ) ^ x)) (by simp [testMeaning, TestSpec.maxAbs]) (by norm_num) exp2_2_runs (fun X hX => ?_) fun x X hX hpass => ?_
  · exact exp2Pass_ok hX
  · obtain ⟨p, hp, hexp⟩ := h.exp2
    have hval : ∀ x, (TestSpec.maxAbs "exp2" "test_exp2_2" (TestSpec.meth "exp2") (TestSpec.app "exp2" [.path ["x"]]) (litInt "0") (litInt "1") 2 2 237).value .f32 calls g x =
        (Gen.exp2 p).apply (ieeeInterp .f32 calls) g [x] := fun x => hexp x
    simp only [hval]
    exact exp2_passes hp h.bits h.round_fn (FloatFmt.rnd_repr _) hX hpass

theorem exp_1_runs : runsPass (-1) 0 237 (fun X => exp2Pass (accuracyLimit true 1 1) (timesE X)) [(0, 40), (41, 81), (82, 122), (123, 154), (155, 195), (196, 236)] = true := by decide +kernel

/-- **C99** `test_exp_1` passes. -/
theorem C99_exp_1 (h : TestLibrary ext fx true P calls g v) : ∀ s ∈ testSpecs, s.name = "test_exp_1" → AccuracyTest ext true calls g s := by
  intro s hm hn
  have hs : s = TestSpec.maxAbs "exp" "test_exp_1" (TestSpec.meth "exp") (TestSpec.app "exp" [.path ["x"]]) (TestSpec.neg (litInt "1")) (litInt "0") 1 1 237 := by
    revert hn; revert s; simp [testSpecs, TestSpec.maxAbs]
  subst hs
  refine h.runs hm rfl (V := Real.exp) (by simp [testMeaning, TestSpec.maxAbs]) (by norm_num) exp_1_runs (fun X hX => ?_) fun x X hX hpass => ?_
  · exact timesE_ok (exp2Pass_ok hX)
  · exact exp_sample h hX hpass

theorem exp_3_runs : runsPass (1) 2 237 (fun X => exp2Pass (accuracyLimit true 16 16) (timesE X)) [(0, 9), (10, 50), (51, 91), (92, 132), (133, 173), (174, 214), (215, 236)] = true := by decide +kernel

/-- **C99** `test_exp_3` passes. -/
theorem C99_exp_3 (h : TestLibrary ext fx true P calls g v) : ∀ s ∈ testSpecs, s.name = "test_exp_3" → AccuracyTest ext true calls g s := by
  intro s hm hn
  have hs : s = TestSpec.maxAbs "exp" "test_exp_3" (TestSpec.meth "exp") (TestSpec.app "exp" [.path ["x"]]) (litInt "1") (litInt "2") 16 16 237 := by
    revert hn; revert s; simp [testSpecs, TestSpec.maxAbs]
  subst hs
  refine h.runs hm rfl (V := Real.exp) (by simp [testMeaning, TestSpec.maxAbs]) (by norm_num) exp_3_runs (fun X hX => ?_) fun x X hX hpass => ?_
  · exact timesE_ok (exp2Pass_ok hX)
  · exact exp_sample h hX hpass

theorem exp_m1_1_runs : runsPass (-1) 0 237 (fun X => expm1Pass (accuracyLimit true 1 1) (timesE X)) [(0, 4), (5, 45), (46, 72), (73, 113), (114, 154), (155, 195), (196, 236)] = true := by decide +kernel

/-- **C99** `test_exp_m1_1` passes. -/
theorem C99_exp_m1_1 (h : TestLibrary ext fx true P calls g v) : ∀ s ∈ testSpecs, s.name = "test_exp_m1_1" → AccuracyTest ext true calls g s := by
  intro s hm hn
  have hs : s = TestSpec.maxAbs "exp_m1" "test_exp_m1_1" (.binary (TestSpec.meth "exp") .sub (litInt "1")) (TestSpec.app "exp_m1" [.path ["x"]]) (TestSpec.neg (litInt "1")) (litInt "0") 1 1 237 := by
    revert hn; revert s; simp [testSpecs, TestSpec.maxAbs]
  subst hs
  refine h.runs hm rfl (V := (fun x => Real.exp x - 1)) (by simp [testMeaning, TestSpec.maxAbs]) (by norm_num) exp_m1_1_runs (fun X hX => ?_) fun x X hX hpass => ?_
  · exact timesE_ok (expm1Pass_ok hX)
  · exact expm1_sample h hX hpass

theorem exp_m1_2_runs : runsPass (0) 1 237 (fun X => expm1Pass (accuracyLimit true 4 4) (timesE X)) [(0, 40), (41, 81), (82, 82), (83, 123), (124, 164), (165, 205), (206, 236)] = true := by decide +kernel

/-- **C99** `test_exp_m1_2` passes. -/
theorem C99_exp_m1_2 (h : TestLibrary ext fx true P calls g v) : ∀ s ∈ testSpecs, s.name = "test_exp_m1_2" → AccuracyTest ext true calls g s := by
  intro s hm hn
  have hs : s = TestSpec.maxAbs "exp_m1" "test_exp_m1_2" (.binary (TestSpec.meth "exp") .sub (litInt "1")) (TestSpec.app "exp_m1" [.path ["x"]]) (litInt "0") (litInt "1") 4 4 237 := by
    revert hn; revert s; simp [testSpecs, TestSpec.maxAbs]
  subst hs
  refine h.runs hm rfl (V := (fun x => Real.exp x - 1)) (by simp [testMeaning, TestSpec.maxAbs]) (by norm_num) exp_m1_2_runs (fun X hX => ?_) fun x X hX hpass => ?_
  · exact timesE_ok (expm1Pass_ok hX)
  · exact expm1_sample h hX hpass

/-! ## The normal density -/

def srEnc : Enc := Enc.lit ulp32 (1 / 10 ^ 17) (39894228040143267793 / 10 ^ 20, 39894228040143267795 / 10 ^ 20)

/-- The exponent of the density. -/
def dnU (X : Enc) : Enc := ((((⟨-1 / 2, -1 / 2, 0, true⟩ : Enc).mul log2eEnc).mul X).round ulp32 |>.mul X).round ulp32

def dnPass (lim : ℚ) (X : Enc) : Bool :=
  let U := dnU X
  let r := nearE U
  let E := polyEnc ulp32 .neither 7 exp2Lits (redE r U)
  decide (X.mag + X.err ≤ 2) && redOk r U E && passEnc ulp32 lim ((srEnc.mul (scaleE r E)).round ulp32) (2 / 5 * expD 0 r U E)

theorem dnPass_ok {lim : ℚ} {X : Enc} (h : dnPass lim X = true) : (dnU X).ok = true := by
  simp only [dnPass, redOk, Bool.and_eq_true] at h
  exact h.1.2.1.1.1

theorem dnU_ok {X : Enc} (h : (dnU X).ok = true) : ((((⟨-1 / 2, -1 / 2, 0, true⟩ : Enc).mul log2eEnc).mul X).round ulp32).ok = true ∧ X.ok = true := by
  have := Enc.round_ok h
  simp only [Enc.mul, Bool.and_eq_true] at this ⊢
  exact this

theorem sqrt_recip_digits : ((39894228040143267793 / 10 ^ 20 : ℚ) : ℝ) ≤ √(1 / (2 * Real.pi)) ∧ √(1 / (2 * Real.pi)) ≤ ((39894228040143267795 / 10 ^ 20 : ℚ) : ℝ) := by
  have h1 := Real.pi_gt_d20
  have h2 := Real.pi_lt_d20
  push_cast
  constructor
  · refine Real.le_sqrt_of_sq_le ?_
    rw [le_div_iff₀ (by linarith)]; norm_num at h2 ⊢; linarith
  · rw [Real.sqrt_le_left (by norm_num), div_le_iff₀ (by linarith)]; norm_num at h1 ⊢; linarith

/-- The constant `SQRT_RECIP_2PI` of the library. -/
theorem TestLibrary.sqrtRecip (h : TestLibrary ext fx true P calls g v) : ∃ c, g ["SQRT_RECIP_2PI"] = .f c ∧ FloatFmt.f32.Repr c ∧ srEnc.Of c (√(1 / (2 * Real.pi))) := by
  have hd := sqrt_recip_digits
  have hd' := sqrt_recip_bounds
  obtain ⟨c, hc, hC⟩ := h.const (name := "SQRT_RECIP_2PI") (m := √(1 / (2 * Real.pi))) (by simp [constMeaning]) (by rw [abs_of_nonneg] <;> linarith) eps_ulp32 hd.1 hd.2
    (by rw [abs_of_nonneg] <;> linarith)
  obtain ⟨c', hc', hr, -⟩ := h.consts.get h.sqrt (by have := h.fuel; omega) (name := "SQRT_RECIP_2PI") (m := √(1 / (2 * Real.pi))) (by simp [constMeaning])
    (by rw [abs_of_nonneg] <;> linarith)
  rw [hc] at hc'
  cases hc'
  exact ⟨c, hc, hr, hC⟩

/-- The samples of `dnorm`. -/
theorem dnorm_sample (h : TestLibrary ext fx true P calls g v) {x : ℝ} {X : Enc} (hX : X.Of (FloatFmt.f32.rnd x) x) {lim : ℚ} (hpass : dnPass lim X = true) :
    ∃ R d y q, calls "dnorm" [.f (FloatFmt.f32.rnd x), .f 0, .f 1] = .f y ∧ R.Of y q ∧ |q - normalPdf x| ≤ (d : ℚ) ∧ passEnc ulp32 lim R d = true := by
  obtain ⟨p, hp, hexp⟩ := h.exp2
  obtain ⟨c, hc, hcr, hC⟩ := h.log2e
  obtain ⟨k, hk, hkr, hK⟩ := h.sqrtRecip
  have hF : FloatFmt.f32.Wide := FloatFmt.wide_fmtOf true
  have hU := dnPass_ok hpass
  have hhalf : (⟨-1 / 2, -1 / 2, 0, true⟩ : Enc).Of (-(1 / 2)) (-(1 / 2)) := ⟨by norm_num, by norm_num, by simp⟩
  obtain ⟨y1, y2⟩ := ((hhalf.mul hC).mul hX).round hF (ε := ulp32) eps_ulp32 (dnU_ok hU).1
  obtain ⟨z1, z2⟩ := (y2.mul hX).round hF (ε := ulp32) eps_ulp32 hU
  simp only [dnPass, Bool.and_eq_true, decide_eq_true_eq] at hpass
  have hx : |FloatFmt.f32.rnd x| ≤ 2 := by
    refine hX.float_le.trans ?_
    rw [← Rat.cast_add]
    exact (Rat.cast_le (K := ℝ).2 hpass.1.1).trans (by norm_num)
  obtain ⟨y, q, h1, h2, h3⟩ := exp2_at (calls := calls) hp h.bits h.round_fn (FloatFmt.rnd_repr _) z2 hpass.1.2
  obtain ⟨t1, t2⟩ := (hK.mul h2).round hF (ε := ulp32) eps_ulp32 (passEnc_ok hpass.2)
  rw [← hexp] at h1
  have hc1 : |c| ≤ 2 := by
    have := hC.float_le
    refine this.trans ?_
    rw [← Rat.cast_add]
    exact (Rat.cast_le (K := ℝ).2 (show log2eEnc.mag + log2eEnc.err ≤ 2 by decide +kernel)).trans (by norm_num)
  have hk1 : |k| ≤ 2 := by
    have := hK.float_le
    refine this.trans ?_
    rw [← Rat.cast_add]
    exact (Rat.cast_le (K := ℝ).2 (show srEnc.mag + srEnc.err ≤ 2 by decide +kernel)).trans (by norm_num)
  have hcl : 1 ≤ |c| := by
    have h5 := hC.2.2
    have h6 := hC.1
    have h7 : (1 : ℝ) ≤ log2eEnc.lo - log2eEnc.err := by
      rw [← Rat.cast_sub, ← Rat.cast_one (α := ℝ)]
      exact Rat.cast_le.2 (show (1 : ℚ) ≤ log2eEnc.lo - log2eEnc.err by decide +kernel)
    have := (abs_le.1 h5).1
    exact le_trans (by linarith) (le_abs_self c)
  have big : (2 : ℝ) < 2 ^ (FloatFmt.f32.bias + 1) := by rw [f32_bias]; norm_num
  have e1 : ∀ {z : ℝ}, FloatFmt.f32.Repr z → |z| ≤ 2 → FloatFmt.f32.rne z = .f z := fun hz hb => FloatFmt.rne_repr hz (hb.trans_lt big)
  have ex := e1 (FloatFmt.rnd_repr (F := .f32) x) hx
  have ek := e1 hkr hk1
  have ec : FloatFmt.f32.rne (-(1 / 2 * c)) = .f (-(1 / 2 * c)) := by
    refine e1 ?_ ?_
    · have := (hcr.scale (r := -1) (k := 0) (.inr ⟨by simpa using hcl, by rw [f32_bias]; norm_num⟩)).neg
      rwa [zpow_neg_one, mul_comm, ← one_div] at this
    · rw [abs_neg, abs_mul]; norm_num; linarith
  have e11 : FloatFmt.f32.rne 1 = .f 1 := e1 (by have := repr_1024 1024 (by decide); norm_num at this; exact this) (by norm_num)
  refine ⟨_, _, _, _, ?_, t2, ?_, hpass.2⟩
  · refine Eq.trans ?_ t1
    have hfn : LinkedIE .f32 calls g Gen.dnorm := h.fn "dnorm" (by decide +kernel) rfl
    refine (hfn [_, _, _]).trans ?_
    simp only [Gen.dnorm, ofFty_apply, List.map, bindParams]
    simp only [denoteBlock_letT, denoteBlock_expr, denote_v, denote_sub, denote_mul, denote_div, denote_neg, denote_paren, denote_as, denote_app, denoteArgs_cons, denoteArgs_nil,
      numIE_1 hF, numIE_half hF, ieee_bin, ieee_un, ieee_cast, ieee_call, castIE_fty, show unRV .neg (.f (1 / 2)) = .f (-(1 / 2)) from rfl]
    have e : binIE .f32 .div (.f 1) (.f 1) = .f 1 := by rw [binIE_div _ one_ne_zero, div_one, e11]
    rw [← neg_mul] at ec
    simp [hc, hk, e, ex, ek, ec, castIE_fty, y1, z1, h1, -one_div, -neg_mul]
  · rw [show normalPdf x = √(1 / (2 * Real.pi)) * 2 ^ (-(1 / 2) * (1 / Real.log 2) * x * x) by
      rw [normalPdf, show -(1 / 2) * (1 / Real.log 2) * x * x = (-x ^ 2 / 2) / Real.log 2 by ring, two_pow_div_log, Real.sqrt_div (by norm_num), Real.sqrt_one]]
    rw [← mul_sub, abs_mul, abs_of_nonneg (Real.sqrt_nonneg _)]
    push_cast
    exact mul_le_mul sqrt_recip_bounds.2 h3 (abs_nonneg _) (by norm_num)

theorem dnorm_runs : runsPass (-1) 1 237 (dnPass (accuracyLimit true 1 1)) [(0, 19), (20, 60), (61, 101), (102, 142), (143, 183), (184, 217), (218, 236)] = true := by decide +kernel

/-- **C99** `test_dnorm_1` passes. -/
theorem C99_dnorm_1 (h : TestLibrary ext fx true P calls g v) : ∀ s ∈ testSpecs, s.name = "test_dnorm_1" → AccuracyTest ext true calls g s := by
  intro s hm hn
  have hs : s = TestSpec.maxAbs "dnorm" "test_dnorm_1" (TestSpec.meth01 "dnorm") (TestSpec.app "dnorm" [.path ["x"], TestSpec.asFty "0.0", TestSpec.asFty "1.0"]) (TestSpec.neg (litInt "1")) (litInt "1") 1 1 237 := by
    revert hn; revert s; simp [testSpecs, TestSpec.maxAbs]
  subst hs
  refine h.runs hm rfl (V := normalPdf) (by simp [testMeaning, TestSpec.maxAbs]) (by norm_num) dnorm_runs (fun X hX => (dnU_ok (dnPass_ok hX)).2) fun x X hX hpass => ?_
  have hval : ∀ x, (TestSpec.maxAbs "dnorm" "test_dnorm_1" (TestSpec.meth01 "dnorm") (TestSpec.app "dnorm" [.path ["x"], TestSpec.asFty "0.0", TestSpec.asFty "1.0"]) (TestSpec.neg (litInt "1")) (litInt "1") 1 1 237).value .f32 calls g x =
      calls "dnorm" [x, .f 0, .f 1] := fun x => by
    have hF : FloatFmt.f32.Wide := FloatFmt.wide_fmtOf true
    have h0 : ∀ env, (RExpr.lit (.float "0.0".toList "")).denote (ieeeInterp .f32 calls) env = .f 0 := fun env =>
      (denoteIE_num (d := ⟨0, 1⟩) .f32 calls env rfl).trans (by
        rw [show (((⟨0, 1⟩ : Dec).val : ℚ) : ℝ) = 0 by simp [Dec.val]]
        exact FloatFmt.rne_repr FloatFmt.repr_zero (by rw [f32_bias]; norm_num))
    have h1 : ∀ env, (RExpr.lit (.float "1.0".toList "")).denote (ieeeInterp .f32 calls) env = .f 1 := fun env => numIE_1 hF
    show calls "dnorm" [x, castIE .f32 ["fty"] ((RExpr.lit (.float "0.0".toList "")).denote (ieeeInterp .f32 calls) _),
      castIE .f32 ["fty"] ((RExpr.lit (.float "1.0".toList "")).denote (ieeeInterp .f32 calls) _)] = _
    rw [h0, h1]
    rfl
  rw [hval]
  exact dnorm_sample h hX hpass

end

end Verif
