import Verif.Props.TestFails
import Verif.Lemmas.EncLast

/-!
# C101 The generated 64-bit `log` fails its first accuracy test
-/

namespace Verif
open RExpr Dec

/-! ## The polynomial of `log2` at 64 bits -/

/-- Bounds of the coefficients of `log2` at 64 bits. -/
def log2Box64 : List (ℚ × ℚ) :=
  [(584962500721156318766229 / 1000000000000000000000000, 5849625007211563187664291 / 10000000000000000000000000),
  (2404491734814938793789353 / 2500000000000000000000000, 9617966939259755175158079 / 10000000000000000000000000),
  (-641197795950849120344379 / 2000000000000000000000000, -3205988979754245601721661 / 10000000000000000000000000),
  (712441995501038847146971 / 5000000000000000000000000, 284976798200415538858813 / 2000000000000000000000000),
  (-712441995381169733857449 / 10000000000000000000000000, -712441995381169733857353 / 10000000000000000000000000),
  (379969064190965125732357 / 10000000000000000000000000, 94992266047741281433119 / 2500000000000000000000000),
  (-211093930205161388140013 / 10000000000000000000000000, -105546965102580694069907 / 5000000000000000000000000),
  (120625103339109213066771 / 10000000000000000000000000, 120625103339109213067147 / 10000000000000000000000000),
  (-35182253602647649995773 / 5000000000000000000000000, -70364507205295299990807 / 10000000000000000000000000),
  (5212184983437739874867 / 1250000000000000000000000, 20848739933750959500203 / 5000000000000000000000000),
  (-25020389226135275929357 / 10000000000000000000000000, -25020389226135275926421 / 10000000000000000000000000),
  (7581964160051051934277 / 5000000000000000000000000, 15163928320102103874421 / 10000000000000000000000000),
  (-1850125875726038165201 / 2000000000000000000000000, -4625314689315095407137 / 5000000000000000000000000),
  (1423092653491528954067 / 2500000000000000000000000, 5692370613966115839729 / 10000000000000000000000000),
  (-1804912125662287979931 / 5000000000000000000000000, -3609824251324575912941 / 10000000000000000000000000),
  (2247232989797674602501 / 10000000000000000000000000, 1123616494898837348171 / 5000000000000000000000000),
  (-1127976264356255694621 / 10000000000000000000000000, -56398813217812775347 / 500000000000000000000000),
  (352813412154590288349 / 5000000000000000000000000, 705626824309180952059 / 10000000000000000000000000),
  (-234613732644648050913 / 2500000000000000000000000, -234613732644647863233 / 2500000000000000000000000),
  (594408115698942045571 / 10000000000000000000000000, 59440811569894354701 / 1000000000000000000000000)]

/-- The certificate of `log2`. -/
def log2Cert64 : ChebBudget := log2Cert 19 40 (8 / 10 ^ 39) 6 7 (169 / 10 ^ 18) (1170 / 1000)

theorem log2Box64_ok : log2Cert64.boxOk .neither invLog2 log2Mid log2Box64 := by decide +kernel
theorem log2Box64_small : ∀ r ∈ log2Box64, |r.1| ≤ 10 ^ 30 ∧ |r.2| ≤ 10 ^ 30 := by decide +kernel

/-- The mantissa of the float next to 1/10, less 3/2. -/
def tenthAt : ℚ := 7205759403792794 / 2 ^ 52 - 3 / 2

def log2Head (x : ℚ) : Enc := headEnc ulp64 18 (litBox ulp64 (1 / 10 ^ 18) log2Box64) ⟨x, x, 0, true⟩

theorem log2Head_ok : ((log2Head tenthAt).ok = true ∧ (log2Head tenthAt).err ≤ 3 / 2 * ulp64) ∧ (log2Head (-1 / 4)).ok = true ∧ (log2Head (-1 / 4)).err ≤ 3 / 2 * ulp64 := by decide +kernel

/-- The series at `x`. -/
def log2Series (x : ℚ) : ℚ := zEval (x / log2Cert64.hi) (monoList 19 log2Cert64.l) / 2 ^ 320

theorem log2_series : (|invLog2.1 * log2Series tenthAt + log2Mid.1 - 6780719051126376341964 / 10 ^ 22| ≤ 1 / 10 ^ 22 ∧ |log2Series tenthAt| ≤ 1) ∧
    (|invLog2.1 * log2Series (-1 / 4) + log2Mid.1 - 3219280948873622253906 / 10 ^ 22| ≤ 1 / 10 ^ 22 ∧ |log2Series (-1 / 4)| ≤ 1) ∧ log2Cert64.residual ≤ 1 / 10 ^ 30 := by decide +kernel

/-- The interpolant at `x` from the series. -/
theorem log2_interpolant {x V : ℚ} (h : |invLog2.1 * log2Series x + log2Mid.1 - V| ≤ 1 / 10 ^ 22 ∧ |log2Series x| ≤ 1) :
    |log2Cert64.interpolant (1 / Real.log 2) (Real.logb 2 (3 / 2)) x - V| ≤ 5 / 10 ^ 22 := by
  have e1 : log2Cert64.interpolant (1 / Real.log 2) (Real.logb 2 (3 / 2)) x = 1 / Real.log 2 * (log2Series x : ℚ) + Real.logb 2 (3 / 2) := by
    rw [ChebBudget.interpolant, ← Rat.cast_div, zEval_eq, log2Series]
    push_cast
    rfl
  rw [e1]
  have h1 : |(invLog2.1 : ℝ) * (log2Series x : ℚ) + log2Mid.1 - V| ≤ 1 / 10 ^ 22 := by
    have := (Rat.cast_le (K := ℝ)).2 h.1
    push_cast at this
    exact this
  have h2 : |((log2Series x : ℚ) : ℝ)| ≤ 1 := by exact_mod_cast h.2
  have k1 := inv_log_two_digits
  have k2 := logb_three_halves_digits
  have i1 : (invLog2.1 : ℝ) = ((14426950408889634073599 / 10 ^ 22 : ℚ) : ℝ) := rfl
  have i2 : (log2Mid.1 : ℝ) = ((5849625007211561814537 / 10 ^ 22 : ℚ) : ℝ) := rfl
  rw [i1, i2] at h1
  generalize ((log2Series x : ℚ) : ℝ) = Z at *
  generalize 1 / Real.log 2 = κ at *
  generalize Real.logb 2 (3 / 2) = c at *
  have e : κ * Z + c - V = (((14426950408889634073599 / 10 ^ 22 : ℚ) : ℝ) * Z + ((5849625007211561814537 / 10 ^ 22 : ℚ) : ℝ) - V) + (κ - ((14426950408889634073599 / 10 ^ 22 : ℚ) : ℝ)) * Z +
      (c - ((5849625007211561814537 / 10 ^ 22 : ℚ) : ℝ)) := by ring
  have b1 : |(κ - ((14426950408889634073599 / 10 ^ 22 : ℚ) : ℝ)) * Z| ≤ 1 / 10 ^ 22 := by
    rw [abs_mul]
    have : |κ - ((14426950408889634073599 / 10 ^ 22 : ℚ) : ℝ)| ≤ 1 / 10 ^ 22 := by
      rw [abs_of_nonneg (by linarith [k1.1])]
      have := k1.2
      push_cast at this ⊢
      linarith
    calc _ ≤ 1 / 10 ^ 22 * (1 : ℝ) := mul_le_mul this h2 (abs_nonneg _) (by norm_num)
      _ = _ := mul_one _
  have b2 : |c - ((5849625007211561814537 / 10 ^ 22 : ℚ) : ℝ)| ≤ 2 / 10 ^ 22 := by
    rw [abs_of_nonneg (by linarith [k2.1])]
    have := k2.2
    push_cast at this ⊢
    linarith
  rw [e]
  refine (abs_add_le _ _).trans ((add_le_add ((abs_add_le _ _).trans (add_le_add h1 b1)) b2).trans ?_)
  norm_num

/-- The last sum lies half way between two floats. -/
theorem tenth_tie : FloatFmt.f64.rnd (6107528758391354 / 2 ^ 53 - 4) = -(7480317065143154 / 2 ^ 51) := by
  rw [show (6107528758391354 / 2 ^ 53 - 4 : ℝ) = -(14960634130286307 / 2 ^ 52) by norm_num, FloatFmt.rnd_neg]
  have hl : FloatFmt.f64.lastPlace (14960634130286307 / 2 ^ 52) = -51 := by
    have := FloatFmt.log_of (q := 14960634130286307 / 2 ^ 53) (by norm_num) (by norm_num) 1
    rw [show (14960634130286307 / 2 ^ 53 * (2 : ℝ) ^ (1 : ℤ)) = 14960634130286307 / 2 ^ 52 by norm_num] at this
    rw [FloatFmt.lastPlace, abs_of_pos (by norm_num), this]
    decide
  have hfl : ⌊(14960634130286307 / 2 : ℝ)⌋ = 7480317065143153 := by rw [Int.floor_eq_iff]; norm_num
  have hr : roundEven (14960634130286307 / 2) = 7480317065143154 := by
    rw [roundEven, hfl]
    norm_num
  rw [FloatFmt.rnd, hl, show (14960634130286307 / 2 ^ 52 / (2 : ℝ) ^ (-51 : ℤ)) = 14960634130286307 / 2 by norm_num [zpow_neg], hr]
  norm_num [zpow_neg]

section
variable {ext : BdExt} {fx : FloatExt} {P : Gen.Parts} {calls : String → List RV → RV} {g : Name → RV} {v : ℝ}

/-- The polynomial of the library at the two mantissas. -/
theorem log2_poly_64 (h : TestLibrary ext fx false P calls g v) (hv : v ≤ 1 / 10 ^ 18) :
    ∃ e : Expr, (∀ x, calls "log2" [x] = (Gen.log2 e.toR).apply (ieeeInterp .f64 calls) g [x]) ∧
      (∀ env : Name → RV, env ["x"] = .f (tenthAt : ℝ) → e.toR.denote (ieeeInterp .f64 calls) env = .f (6107528758391354 / 2 ^ 53)) ∧
      ∃ r, (∀ env : Name → RV, env ["x"] = .f ((-1 / 4 : ℚ) : ℝ) → e.toR.denote (ieeeInterp .f64 calls) env = .f r) ∧ |r + 3 - 7480317065143153 / 2 ^ 51| ≤ 1 / 2 ^ 53 := by
  have hF : FloatFmt.f64.Wide := FloatFmt.wide_fmtOf false
  have hfit := log2_fits ext (by have := h.fuel; omega) 19 40 (8 / 10 ^ 39) 6 7 (169 / 10 ^ 18) (1170 / 1000) log2_ok_20
  obtain ⟨e, a, z, a0, h1, h2, h3, h4, h5, h6⟩ := hfit.code_last log2_ok_20 log2Box64_ok rfl log2Box64_small inv_log_two_digits logb_three_halves_digits h.lits eps_ulp64 (v' := 1 / 10 ^ 18)
    (by push_cast; exact hv) rfl rfl rfl (n := 18) rfl
  have hP := h.approx .log2 (by simp [approxSpecs]) _ _ e rfl h1
  have hfn : LinkedIE .f64 calls g (Gen.log2 e.toR) := h.fn "log2" (by decide +kernel) (by rw [← hP]; rfl)
  have h2' : (584962500721156318766229 / 1000000000000000000000000 : ℝ) ≤ a0 := by
    have : ((log2Box64.getD 0 (0, 0)).1 : ℝ) = ((584962500721156318766229 / 1000000000000000000000000 : ℚ) : ℝ) := rfl
    rw [this] at h2
    push_cast at h2
    exact h2
  have h3' : a0 ≤ (5849625007211563187664291 / 10000000000000000000000000 : ℝ) := by
    have : ((log2Box64.getD 0 (0, 0)).2 : ℝ) = ((5849625007211563187664291 / 10000000000000000000000000 : ℚ) : ℝ) := rfl
    rw [this] at h3
    push_cast at h3
    exact h3
  have h5' : |z - a0| ≤ 1 / 10 ^ 18 := by
    refine h5.trans ?_
    rw [abs_of_pos (by linarith)]
    have hv0 := h.lits.nonneg
    calc v * a0 ≤ 1 / 10 ^ 18 * 1 := mul_le_mul hv (by norm_num at h3' ⊢; linarith) (by linarith) (by norm_num)
      _ = _ := mul_one _
  have ha : a = 5268873800547026 / 2 ^ 53 := by
    rw [h4]
    have := abs_le.1 h5'
    norm_num at this h2' h3'
    refine FloatFmt.rnd_eq (F := .f64) (E := -1) ⟨5268873800547026, -53, by norm_num, by decide, by decide⟩ (by norm_num) (by decide) ?_ (by norm_num; linarith)
    have e : ((-1 : ℤ) - (FloatFmt.f64.mant : ℤ)) = -53 := by decide
    rw [e, abs_lt]
    norm_num
    constructor <;> linarith
  -- the value before the last rounding
  have key : ∀ x V : ℚ, |x| ≤ 1 / 4 → (log2Head x).ok = true → (log2Head x).err ≤ 3 / 2 * ulp64 → |invLog2.1 * log2Series x + log2Mid.1 - V| ≤ 1 / 10 ^ 22 ∧ |log2Series x| ≤ 1 →
      ∃ t : ℝ, |t - ((V : ℝ) + (5268873800547026 / 2 ^ 53 - 584962500721156318766229 / 1000000000000000000000000))| ≤ |(x : ℝ)| * (3 / 2 * (1 / 2 ^ 53)) + 1 / 10 ^ 21 ∧
        ∀ env : Name → RV, env ["x"] = .f (x : ℝ) → e.toR.denote (ieeeInterp .f64 calls) env = FloatFmt.f64.rne t := by
    intro x V hx hok herr hV
    have hx' : |(x : ℝ)| ≤ 1 / 4 := by
      have := (Rat.cast_le (K := ℝ)).2 hx
      push_cast at this
      exact this
    have hhi : ((log2Cert64.hi : ℚ) : ℝ) = 1 / 2 := by simp [log2Cert64, log2Cert]
    obtain ⟨y, q, y1, y2, y3⟩ := h6 ⟨x, x, 0, true⟩ x x ⟨le_rfl, le_rfl, by simp⟩ (by
      refine hx'.trans ?_
      rw [show (((log2Cert 19 40 (8 / 10 ^ 39) 6 7 (169 / 10 ^ 18) (1170 / 1000)).hi : ℚ) : ℝ) = 1 / 2 from hhi]; norm_num) hok
    have e1 := log2_interpolant hV
    have e2 : |q * x + a0 - log2Cert64.interpolant (1 / Real.log 2) (Real.logb 2 (3 / 2)) x| ≤ 1 / 10 ^ 30 := by
      refine y2.trans ?_
      have := (Rat.cast_le (K := ℝ)).2 log2_series.2.2
      push_cast at this
      exact this
    have e3 : |y - q| ≤ 3 / 2 * (1 / 2 ^ 53) := by
      have := (Rat.cast_le (K := ℝ)).2 herr
      push_cast [ulp64] at this
      exact y1.2.2.trans this
    have e4 : |(y - q) * x| ≤ |(x : ℝ)| * (3 / 2 * (1 / 2 ^ 53)) := by
      rw [abs_mul, mul_comm]
      exact mul_le_mul_of_nonneg_left e3 (abs_nonneg _)
    refine ⟨y * x + a, ?_, fun env henv => ?_⟩
    · rw [ha]
      generalize log2Cert64.interpolant (1 / Real.log 2) (Real.logb 2 (3 / 2)) x = I at *
      generalize |(x : ℝ)| * (3 / 2 * (1 / 2 ^ 53)) = B at *
      have e5 : y * x + 5268873800547026 / 2 ^ 53 - (V + (5268873800547026 / 2 ^ 53 - 584962500721156318766229 / 1000000000000000000000000)) =
        (y - q) * x + (q * x + a0 - I) + (I - V) - (a0 - 584962500721156318766229 / 1000000000000000000000000) := by ring
      rw [e5]
      generalize (y - q) * (x : ℝ) = A at *
      generalize q * (x : ℝ) = C at *
      rw [abs_le] at e1 e2 e4 ⊢
      norm_num at e1 e2 h2' h3' ⊢
      constructor <;> linarith
    · exact (y3 calls env henv).trans (methIE_mul_add (F := .f64) y x a)
  refine ⟨e, fun x => hfn [x], ?_, ?_⟩
  · obtain ⟨t, t1, t2⟩ := key tenthAt _ (by norm_num [tenthAt, abs_le]) log2Head_ok.1.1 log2Head_ok.1.2 log2_series.1
    have hx : |(tenthAt : ℝ)| ≤ 101 / 1000 := by
      have : |tenthAt| ≤ 101 / 1000 := by decide +kernel
      have := (Rat.cast_le (K := ℝ)).2 this
      push_cast at this
      exact this
    generalize |(tenthAt : ℝ)| = B at *
    push_cast at t1
    rw [abs_le] at t1
    norm_num at t1
    have ht : FloatFmt.f64.rne t = .f (6107528758391354 / 2 ^ 53) := by
      have hB := (FloatFmt.bias_pow_ge hF).1
      norm_num at hB
      rw [FloatFmt.rne_f hF.ok (by rw [abs_le]; constructor <;> linarith)]
      refine congrArg RV.f ?_
      refine FloatFmt.rnd_eq (F := .f64) (E := -1) ⟨6107528758391354, -53, by norm_num, by decide, by decide⟩ (by norm_num) (by decide) ?_ (by norm_num; linarith)
      have e : ((-1 : ℤ) - (FloatFmt.f64.mant : ℤ)) = -53 := by decide
      rw [e, abs_lt]
      norm_num
      constructor <;> linarith
    rw [← ht]
    exact t2
  · obtain ⟨t, t1, t2⟩ := key (-1 / 4) _ (by norm_num [abs_le]) log2Head_ok.2.1 log2Head_ok.2.2 log2_series.2.1
    rw [show |(((-1 / 4 : ℚ)) : ℝ)| = 1 / 4 by norm_num [abs_of_neg]] at t1
    push_cast at t1
    rw [abs_le] at t1
    norm_num at t1
    have hB := (FloatFmt.bias_pow_ge hF).1
    norm_num at hB
    refine ⟨FloatFmt.f64.rnd t, fun env henv => (t2 env henv).trans (FloatFmt.rne_f hF.ok (by rw [abs_le]; constructor <;> linarith)), ?_⟩
    have h7 := FloatFmt.rnd_below (F := .f64) (x := t) (b := -1) (by decide) (by rw [abs_le]; norm_num; constructor <;> linarith)
    rw [show FloatFmt.f64.eps = 1 / 2 ^ 53 from eps_f64, abs_le] at h7
    norm_num at h7
    rw [abs_le]
    norm_num
    constructor <;> linarith

/-- The generated 64-bit `log2` at the float next to 1/10 and at 10. -/
theorem log2_value_64 (h : TestLibrary ext fx false P calls g v) (hv : v ≤ 1 / 10 ^ 18) :
    calls "log2" [.f (7205759403792794 / 2 ^ 56)] = .f (-(7480317065143154 / 2 ^ 51)) ∧ calls "log2" [.f 10] = .f (7480317065143153 / 2 ^ 51) := by
  have hF : FloatFmt.f64.Wide := FloatFmt.wide_fmtOf false
  have hB := (FloatFmt.bias_pow_ge hF).1
  norm_num at hB
  obtain ⟨e, h1, h2, r, h3, h4⟩ := log2_poly_64 h hv
  have hb : FloatFmt.f64.bias = 1023 := by decide
  have hm : FloatFmt.f64.mant = 52 := by decide
  constructor
  · rw [h1]
    have := log2_value (F := .f64) (calls := calls) (g := g) hF (bias_lt_mant false) h.bits (p := e.toR) (E := 1019) (f := 2702159776422298) (by norm_num) (by decide) (by decide)
      (r := 6107528758391354 / 2 ^ 53) (fun env henv => h2 env (henv.trans (by rw [hm]; norm_num [tenthAt]))) (z := .f (-(7480317065143154 / 2 ^ 51))) (by
        rw [hb, show (6107528758391354 / 2 ^ 53 + (((1019 : ℕ) : ℤ) - ((1023 : ℕ) : ℤ) : ℤ) : ℝ) = 6107528758391354 / 2 ^ 53 - 4 by norm_num]
        rw [FloatFmt.rne_f hF.ok (by rw [abs_le]; norm_num; constructor <;> linarith), tenth_tie])
    rw [← this, hb, hm]
    refine congrArg (fun t => RFn.apply _ _ _ [RV.f t]) ?_
    norm_num [zpow_neg]
  · rw [h1]
    have := log2_value (F := .f64) (calls := calls) (g := g) hF (bias_lt_mant false) h.bits (p := e.toR) (E := 1026) (f := 1125899906842624) (by norm_num) (by decide) (by decide)
      (r := r) (fun env henv => h3 env (henv.trans (by rw [hm]; norm_num))) (z := .f (7480317065143153 / 2 ^ 51)) (by
        rw [abs_le] at h4
        norm_num at h4
        rw [hb, show (r + (((1026 : ℕ) : ℤ) - ((1023 : ℕ) : ℤ) : ℤ) : ℝ) = r + 3 by norm_num]
        rw [FloatFmt.rne_f hF.ok (by rw [abs_le]; constructor <;> linarith)]
        refine congrArg RV.f ?_
        refine FloatFmt.rnd_eq (F := .f64) (E := 1) ⟨7480317065143153, -51, by norm_num, by decide, by decide⟩ (by norm_num) (by decide) ?_ (by norm_num; linarith)
        have e : ((1 : ℤ) - (FloatFmt.f64.mant : ℤ)) = -51 := by decide
        rw [e, abs_lt]
        norm_num
        constructor <;> linarith)
    rw [← this, hb, hm]
    refine congrArg (fun t => RFn.apply _ _ _ [RV.f t]) ?_
    norm_num

/-- The generated 64-bit `log` of the float next to 1/10, to base 10. -/
theorem log_tenth (h : TestLibrary ext fx false P calls g v) (hv : v ≤ 1 / 10 ^ 18) : calls "log" [.f (7205759403792794 / 2 ^ 56), .f 10] = .f (-(1 + 1 / 2 ^ 52)) := by
  have hF : FloatFmt.f64.Wide := FloatFmt.wide_fmtOf false
  obtain ⟨h1, h2⟩ := log2_value_64 h hv
  have hfn : LinkedIE .f64 calls g Gen.log := h.fn "log" (by decide +kernel) rfl
  have hB := (FloatFmt.bias_pow_ge hF).1
  norm_num at hB
  have hq : FloatFmt.f64.rne (-(7480317065143154 / 2 ^ 51) / (7480317065143153 / 2 ^ 51)) = .f (-(1 + 1 / 2 ^ 52)) := by
    rw [FloatFmt.rne_f hF.ok (by rw [abs_le]; norm_num; constructor <;> linarith)]
    refine congrArg RV.f ?_
    rw [show (-(7480317065143154 / 2 ^ 51) / (7480317065143153 / 2 ^ 51) : ℝ) = -(7480317065143154 / 7480317065143153) by norm_num, FloatFmt.rnd_neg]
    refine congrArg (fun t => -t) ?_
    refine FloatFmt.rnd_eq (F := .f64) (E := 0) ⟨4503599627370497, -52, by norm_num, by decide, by decide⟩ (by norm_num) (by decide) ?_ (by norm_num)
    have e : ((0 : ℤ) - (FloatFmt.f64.mant : ℤ)) = -52 := by decide
    rw [e, abs_lt]
    norm_num
  rw [show calls "log" [.f (7205759403792794 / 2 ^ 56), .f 10] = _ from hfn [.f _, .f _]]
  simp only [Gen.log, ofFty_apply, List.map, bindParams]
  rw [← hq, ← binIE_div .f64 (by norm_num : (7480317065143153 / 2 ^ 51 : ℝ) ≠ 0), ← h1, ← h2]
  simp

end

/-! ## The sample and its logarithm -/

/-- Half way between 1/10 and the float next to it. -/
def nearTenth : ℚ := 1 / 10 + 2775 / 10 ^ 21

theorem tenth_rnd {x : ℝ} (hx : |x - nearTenth| ≤ 28 / 10 ^ 19) : FloatFmt.f64.rnd x = 7205759403792794 / 2 ^ 56 := by
  have h1 := abs_le.1 hx
  norm_num [nearTenth] at h1
  refine FloatFmt.rnd_eq (F := .f64) (E := -4) ⟨7205759403792794, -56, by norm_num, by decide, by decide⟩ (by norm_num) (by decide) ?_ (by norm_num; linarith)
  have e : ((-4 : ℤ) - (FloatFmt.f64.mant : ℤ)) = -56 := by decide
  rw [e, abs_lt]
  norm_num
  constructor <;> linarith

theorem log_ten_ge : 225 / 100 ≤ Real.log 10 := by
  have h1 : Real.log ((2 : ℝ) ^ 13) ≤ Real.log ((10 : ℝ) ^ 4) := Real.log_le_log (by norm_num) (by norm_num)
  rw [Real.log_pow, Real.log_pow] at h1
  have := Real.log_two_gt_d9
  norm_num at h1 this
  linarith

theorem tenth_log {x : ℝ} (hx : |x - nearTenth| ≤ 28 / 10 ^ 19) : |Real.logb 10 x + 1| ≤ 248 / 10 ^ 19 := by
  have h1 := abs_le.1 hx
  norm_num [nearTenth] at h1
  have hL := log_ten_ge
  have hL0 : 0 < Real.log 10 := by linarith
  have h0 : 0 < x := by linarith
  have e : Real.logb 10 x + 1 = Real.log (10 * x) / Real.log 10 := by
    rw [Real.log_mul (by norm_num) h0.ne', Real.logb]
    field_simp
    ring
  have u1 := Real.log_le_sub_one_of_pos (x := 10 * x) (by linarith)
  have u2 := Real.log_le_sub_one_of_pos (x := (10 * x)⁻¹) (by positivity)
  rw [Real.log_inv] at u2
  have u3 : (10 * x)⁻¹ ≤ 1 + 1 / 10 ^ 18 := by
    rw [inv_le_comm₀ (by linarith) (by norm_num)]
    norm_num
    linarith
  rw [e, abs_div, abs_of_pos hL0, div_le_iff₀ hL0]
  have : |Real.log (10 * x)| ≤ 248 / 10 ^ 19 * (225 / 100) := by
    rw [abs_le]
    generalize (10 * x)⁻¹ = r at *
    norm_num at u3 ⊢
    constructor <;> linarith
  exact this.trans (mul_le_mul_of_nonneg_left hL (by norm_num))

section
variable {ext : BdExt} {fx : FloatExt} {P : Gen.Parts} {calls : String → List RV → RV} {g : Name → RV} {v : ℝ}

/-- **C101** The generated 64-bit `log` fails the accuracy test `test_log_1` of the library: at the first sample, `log(0.1, 10.0)` is -1 - 2^-52, two units off, and the test allows one and a
half.  The conversions may be exact or go through 16 digits. -/
theorem C101_log_1_fails (h : TestLibrary ext fx false P calls g v) (hv : v ≤ 1 / 10 ^ 18) (hk : KeepsNumber ext nearTenth (28 / 10 ^ 19) (28 / 10 ^ 19))
    (hk' : KeepsNumber ext (-1) (25 / 10 ^ 18) (25 / 10 ^ 18)) : ∀ s ∈ testSpecs, s.name = "test_log_1" → ¬AccuracyTest ext false calls g s := by
  intro s hm hn
  have hs : s = TestSpec.maxAbs "log" "test_log_1" (TestSpec.meth "log10") (TestSpec.app "log" [.path ["x"], TestSpec.asFty "10.0"]) (TestSpec.fl "0.1") (TestSpec.fl "1.0") (3 / 2) (3 / 2) 237 := by
    revert hn; revert s; simp [testSpecs, TestSpec.maxAbs]
  subst hs
  have hε : FloatFmt.f64.eps = 1 / 2 ^ 53 := eps_f64
  have hF : FloatFmt.f64.Wide := FloatFmt.wide_fmtOf false
  have r10 : FloatFmt.f64.Repr 10 := ⟨10, 0, by norm_num, by decide, by decide⟩
  have hval : ∀ x, (TestSpec.maxAbs "log" "test_log_1" (TestSpec.meth "log10") (TestSpec.app "log" [.path ["x"], TestSpec.asFty "10.0"]) (TestSpec.fl "0.1") (TestSpec.fl "1.0") (3 / 2) (3 / 2) 237).value .f64 calls g x =
      calls "log" [x, .f 10] := fun x => by
    have h10 : FloatFmt.f64.rne 10 = .f 10 := FloatFmt.rne_repr r10 (by
      rw [abs_of_nonneg (by norm_num)]
      exact lt_of_lt_of_le (by norm_num : (10 : ℝ) < 2 ^ 5) (pow_le_pow_right₀ (by norm_num) (by decide)))
    have hlit : ∀ env, (RExpr.lit (.float "10.0".toList "")).denote (ieeeInterp .f64 calls) env = .f 10 := fun env => by
      rw [← h10]
      exact (denoteIE_num (d := ⟨100, 1⟩) .f64 calls env rfl).trans (by norm_num [Dec.val, zpow_neg])
    show calls "log" [x, castIE .f64 ["fty"] ((RExpr.lit (.float "10.0".toList "")).denote (ieeeInterp .f64 calls) _)] = _
    rw [hlit]
    rfl
  suffices hh : ∃ rows, testRows ext false (TestSpec.meth "log10") (TestSpec.fl "0.1") (TestSpec.fl "1.0") 237 = .ok rows ∧
      ¬TestPassesIE .f64 (rows.map (rowIE .f64)) (limitIE false (3 / 2) (3 / 2)) (fun x => calls "log" [x, .f 10]) by
    rintro ⟨rows, h1, h2⟩
    obtain ⟨rows', h3, h4⟩ := hh
    have h5 : rows = rows' := Res.ok.inj (h1.symm.trans h3)
    subst h5
    rw [← funext hval] at h4
    exact h4 h2
  refine fails_at h.sqrt h.fuel h.rounds false
    (TestSpec.maxAbs "log" "test_log_1" (TestSpec.meth "log10") (TestSpec.app "log" [.path ["x"], TestSpec.asFty "10.0"]) (TestSpec.fl "0.1") (TestSpec.fl "1.0") (3 / 2) (3 / 2) 237)
    hm _ _ _ _ _ rfl (V := Real.logb 10) (a := 1 / 10) (b := 1) (fun V' a' b' hV => by simpa [testMeaning, TestSpec.maxAbs] using hV)
    (f := fun x => calls "log" [x, .f 10]) (fun j hj x hx => ?_) (i := 0) (by norm_num) (fun d dy de hd hv1 _ => ?_)
  · have hτ := FloatFmt.tiny_le hF
    have hτ0 := FloatFmt.tiny_pos (F := .f64)
    have hlib : LibraryOk ext fx false P calls g (FloatFmt.f64.eps * (1 + v) + v) (FloatFmt.f64.eps * FloatFmt.f64.tiny) := ⟨h.toLibrary, h.sqrt, by have := h.fuel; omega, h.lits.ieee, by
      have := h.close; have := h.lits.nonneg
      rw [hε]; norm_num at *; linarith, by rw [hε]; norm_num at *; linarith⟩
    have hx1 : 1 / 16 ≤ x ∧ x ≤ 2 := by
      have h5 := abs_le.1 hx
      have h6 : (j : ℝ) ≤ 236 := by exact_mod_cast Nat.le_of_lt_succ hj
      have h7 : (0 : ℝ) ≤ j := by positivity
      push_cast at h5
      norm_num at h5
      constructor <;> linarith
    have a1 : 1 / 16 ≤ FloatFmt.f64.rnd x := FloatFmt.le_rnd ⟨1, -4, by norm_num, by decide, by decide⟩ hx1.1
    have a2 : FloatFmt.f64.rnd x ≤ 2 := FloatFmt.rnd_le ⟨1, 1, by norm_num, by decide, by decide⟩ hx1.2
    have hb : (16 : ℝ) < 2 ^ (FloatFmt.f64.bias + 1) := lt_of_lt_of_le (by norm_num : (16 : ℝ) < 2 ^ 5) (pow_le_pow_right₀ (by norm_num) (by decide))
    have hl : (3 : ℝ) ≤ Real.logb 2 10 := by
      rw [Real.le_logb_iff_rpow_le (by norm_num) (by norm_num)]; norm_num
    norm_num at hτ
    obtain ⟨y, y1, y2⟩ := C76_log hlib (a := FloatFmt.f64.rnd x) (b := 10) (FloatFmt.rnd_repr _) (by change FloatFmt.f64.tiny ≤ _; linarith)
      (by change _ < (2 : ℝ) ^ (FloatFmt.f64.bias + 1); linarith) r10 (by change FloatFmt.f64.tiny ≤ _; linarith) (by change _ < (2 : ℝ) ^ (FloatFmt.f64.bias + 1); linarith)
      (by rw [abs_of_nonneg (by linarith)]; linarith)
    refine ⟨y, y1, ?_⟩
    have hV : |Real.logb 10 (FloatFmt.f64.rnd x)| ≤ 2 := by
      rw [abs_le]
      constructor
      · rw [Real.le_logb_iff_rpow_le (by norm_num) (by linarith)]
        rw [Real.rpow_neg (by norm_num)]
        norm_num
        linarith
      · rw [Real.logb_le_iff_le_rpow (by norm_num) (by linarith)]
        norm_num
        linarith
    have hδ := hlib.log2_small
    have h8 : log2Bound false (FloatFmt.f64.eps * (1 + v) + v) (FloatFmt.f64.eps * FloatFmt.f64.tiny) / |Real.logb 2 10| ≤ 1 := by
      rw [div_le_one (by rw [abs_of_nonneg] <;> linarith), abs_of_nonneg (by linarith)]
      linarith
    generalize log2Bound false (FloatFmt.f64.eps * (1 + v) + v) (FloatFmt.f64.eps * FloatFmt.f64.tiny) / |Real.logb 2 10| = D at *
    rw [show (fmtOf false).eps = 1 / 2 ^ 53 from hε] at y2
    change |y - Real.logb 10 (FloatFmt.f64.rnd x)| ≤ 3 / 2 * D * (|Real.logb 10 (FloatFmt.f64.rnd x)| + 1) + 4 * (1 / 2 ^ 53) * (|Real.logb 10 (FloatFmt.f64.rnd x)| + 1) at y2
    have h9 := abs_sub_abs_le_abs_sub y (Real.logb 10 (FloatFmt.f64.rnd x))
    have h10 := abs_nonneg (Real.logb 10 (FloatFmt.f64.rnd x))
    generalize |Real.logb 10 (FloatFmt.f64.rnd x)| = L at *
    have h11 : 3 / 2 * D * (L + 1) ≤ 3 / 2 * 1 * (2 + 1) := by
      have : D * (L + 1) ≤ 1 * (2 + 1) := mul_le_mul h8 (by linarith) (by linarith) (by norm_num)
      linarith
    norm_num at h11 ⊢
    linarith
  · obtain ⟨w1, w, dw, w2, w3, w4, w5⟩ := row_entries hd
    have hx : |(d.val : ℝ) - nearTenth| ≤ 28 / 10 ^ 19 := by
      have hpt := first_point (ext := ext) (n := configDigits false) evals_01 evals_1 237 (by norm_num)
      obtain ⟨t, p, p1, p2, p3⟩ := hpt
      have hpt' : EvalsTo ext (configDigits false) (samplePoint (TestSpec.fl "0.1") (TestSpec.fl "1.0") 237 0) nearTenth (2775 / 10 ^ 21) := by
        refine ⟨t, p, p1, p2, ?_⟩
        have := abs_le.1 p3
        rw [abs_le]
        norm_num [nearTenth] at this ⊢
        constructor <;> linarith
      have := KeepsNumber.sample hk hpt' (by norm_num) w1
      push_cast at this
      exact this
    have hV := tenth_log hx
    have hy : |(dy.val : ℝ) + 1| ≤ 25 / 10 ^ 18 := by
      have hw : EvalsTo ext (configDigits false) w ((-1 : ℚ) : ℝ) (249 / 10 ^ 19) := by
        refine ⟨w, dw, w2, w3, ?_⟩
        rw [w4]
        push_cast
        have e1 := abs_le.1 hV
        have e2 := abs_le.1 hv1
        rw [show configDigits false = 40 from rfl] at e2
        norm_num at e1 e2
        rw [abs_le]
        norm_num
        constructor <;> linarith
      have := KeepsNumber.sample hk' hw (by norm_num) w5
      push_cast at this
      rwa [sub_neg_eq_add] at this
    refine ⟨-(1 + 1 / 2 ^ 52), 25 / 10 ^ 18, ?_, ?_, ?_⟩
    · show calls "log" [.f (FloatFmt.f64.rnd d.val), .f 10] = _
      rw [tenth_rnd hx]
      exact log_tenth h hv
    · refine (FloatFmt.rnd_nearest (F := .f64) (dy.val : ℝ) (z := -1) ⟨-1, 0, by norm_num, by decide, by decide⟩).trans ?_
      rw [abs_sub_comm, sub_neg_eq_add]
      exact hy
    · have h3 : 2 / 2 ^ 53 - 248 / 10 ^ 19 ≤ |-(1 + 1 / 2 ^ 52) - Real.logb 10 d.val| := by
        rw [abs_sub_comm]
        refine le_trans ?_ (le_abs_self _)
        have := abs_le.1 hV
        norm_num at this ⊢
        linarith
      show ((accuracyLimit false (3 / 2) (3 / 2) : ℚ) : ℝ) < (1 - 3 * FloatFmt.f64.eps) * |-(1 + 1 / 2 ^ 52) - Real.logb 10 d.val| -
        (1 + 3 * FloatFmt.f64.eps) * (25 / 10 ^ 18) - FloatFmt.f64.eps / 100
      generalize |-(1 + 1 / 2 ^ 52) - Real.logb 10 d.val| = D at h3 ⊢
      have hlim : ((accuracyLimit false (3 / 2) (3 / 2) : ℚ) : ℝ) = 3 / 2 / 2 ^ 53 := by norm_num [accuracyLimit]
      rw [hε, hlim]
      norm_num at h3 ⊢
      linarith

end

/-- The hypotheses can be met. -/
example : ∃ calls, ∀ s ∈ testSpecs, s.name = "test_log_1" → ¬AccuracyTest tableExt false calls (bitsBy tableExt false) s := by
  obtain ⟨calls, h⟩ := C99_library_exists (ext := tableExt) ⟨longExt_ok.1, longExt_ok.2⟩ (by decide) tableExt_rounds false
  exact ⟨calls, C101_log_1_fails h (by norm_num) (tableExt_keeps _ _) (tableExt_keeps _ _)⟩

end Verif
