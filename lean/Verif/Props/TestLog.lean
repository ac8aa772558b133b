import Verif.Props.TestAsin
import Verif.Props.IeeeLibrary
import Verif.Lemmas.LogBounds

/-!
# C99 The logarithms of the generated 32-bit library pass their accuracy tests
-/

namespace Verif
open RExpr Dec

/-- The generated library together with what the tests need: right square roots, enough steps of the decimal functions, tables that round, literals that are floats next to
their decimals. -/
structure TestLibrary (ext : BdExt) (fx : FloatExt) (b32 : Bool) (P : Gen.Parts) (calls : String → List RV → RV) (g : Name → RV) (v : ℝ) : Prop
    extends Library ext fx b32 P calls g where
  sqrt : SqrtOk ext
  fuel : 600 ≤ ext.fuel
  rounds : RoundsNear ext
  lits : RoundedLits fx b32 v
  close : v ≤ 1 / 10 ^ 12

/-- The call of a test at the sample `x`. -/
noncomputable def TestSpec.value (s : TestSpec) (F : FloatFmt) (calls : String → List RV → RV) (g : Name → RV) (x : RV) : RV :=
  s.call.denote (ieeeInterp F calls) fun n => if n = ["x"] then x else g n

/-- The accuracy test `s` can be generated and passes. -/
def AccuracyTest (ext : BdExt) (b32 : Bool) (calls : String → List RV → RV) (g : Name → RV) (s : TestSpec) : Prop :=
  match s.test with
  | .maxAbs tmin tmax k32 k64 N => ∃ rows, testRows ext b32 s.ref tmin tmax N = .ok rows ∧
      TestPassesIE (fmtOf b32) (rows.map (rowIE (fmtOf b32))) (limitIE b32 k32 k64) (s.value (fmtOf b32) calls g)
  | _ => False

section
variable {ext : BdExt} {fx : FloatExt} {b32 : Bool} {P : Gen.Parts} {calls : String → List RV → RV} {g : Name → RV} {v : ℝ}

/-- A declared constant: the float next to a number very close to its meaning. -/
theorem TestLibrary.const (h : TestLibrary ext fx b32 P calls g v) {name : String} {m : ℝ} (hm : (name, m) ∈ constMeaning) (hm3 : 3 / 10 ≤ |m|) {ε : ℚ} (hε : (fmtOf b32).eps = ε)
    {lo hi : ℚ} (hlo : lo ≤ m) (hhi : m ≤ hi) (hm4 : |m| ≤ 4) : ∃ c, g [name] = .f c ∧ (Enc.lit ε (1 / 10 ^ 17) (lo, hi)).Of c m := by
  obtain ⟨p, hp, h1, l, y, h2, h3, h4⟩ := forall2_get (C69_constants_in_code h.sqrt (by have := h.fuel; omega) b32 (fmtOf b32) calls g) hm
  obtain ⟨l', h5, h6⟩ := h.consts p hp
  rw [h2] at h5
  cases h5
  simp only at h1
  subst h1
  have hF := FloatFmt.wide_fmtOf b32
  have hκ := constErr_le b32
  simp only at h4
  have h4' : |y - m| ≤ constErr b32 := h4
  have hy : |y| ≤ |m| + constErr b32 := by
    have := abs_sub_abs_le_abs_sub y m
    linarith
  have hl : litRV l = .f y := h3
  have hr : g [p.1] = (fmtOf b32).rne y := by rw [h6]; simp [RExpr.denote, ieeeInterp, litIE, hl]
  rw [FloatFmt.rne_f hF.ok (by
    have := (FloatFmt.bias_pow_ge hF).1
    norm_num at this hκ ⊢; linarith)] at hr
  refine ⟨_, hr, Enc.lit_sound hF hε hlo hhi (by norm_num) ?_⟩
  push_cast
  norm_num at hκ ⊢
  linarith

theorem forall_sample {N : ℕ} {a b : ℝ} (hN : 0 < N) (hab : a ≤ b) {x : ℕ → ℝ} (h : ∀ i < N, |x i - (a + i * (b - a) / N)| ≤ 2 / 10 ^ 5) {i : ℕ} (hi : i < N) :
    a - 2 / 10 ^ 5 ≤ x i ∧ x i ≤ a + (N - 1 : ℕ) * (b - a) / N + 2 / 10 ^ 5 := by
  have h1 := abs_le.1 (h i hi)
  have h2 : (0 : ℝ) ≤ i * (b - a) / N := by have := sub_nonneg.2 hab; positivity
  have h3 : (i : ℝ) * (b - a) / N ≤ (N - 1 : ℕ) * (b - a) / N := by
    have h4 : (i : ℝ) ≤ (N - 1 : ℕ) := by exact_mod_cast Nat.le_sub_one_of_lt hi
    have := sub_nonneg.2 hab
    gcongr
  constructor <;> linarith

end

/-! ## `log2` -/

/-- Bounds of the coefficients of `log2` at 32 bits. -/
def log2Box : List (ℚ × ℚ) :=
  [(5849624882701 / 10000000000000, 2924812441351 / 5000000000000), (9617967015027 / 10000000000000, 9617967015029 / 10000000000000),
  (-1602984303367 / 5000000000000, -400746075819 / 1250000000000), (35621789839 / 250000000000, 56994863757 / 400000000000),
  (-89124024559 / 1250000000000, -712992195743 / 10000000000000), (380303811317 / 10000000000000, 380303812773 / 10000000000000),
  (-102908384341 / 5000000000000, -20581676577 / 1000000000000), (117415556401 / 10000000000000, 117415562223 / 10000000000000),
  (-5677309109 / 625000000000, -45418467051 / 5000000000000), (27069455891 / 5000000000000, 27069467533 / 5000000000000)]

def invLog2 : ℚ × ℚ := (14426950408889634073599 / 10 ^ 22, 14426950408889634073600 / 10 ^ 22)
def log2Mid : ℚ × ℚ := (5849625007211561814537 / 10 ^ 22, 5849625007211561814539 / 10 ^ 22)

theorem log2Box_ok : (log2Cert 9 20 (28 / 10 ^ 20) 5 6 (152 / 10 ^ 10) (1170 / 1000)).boxOk .neither invLog2 log2Mid log2Box := by decide +kernel
theorem log2Box_small : ∀ r ∈ log2Box, |r.1| ≤ 10 ^ 30 ∧ |r.2| ≤ 10 ^ 30 := by decide +kernel
def log2Lits : List Enc := litBox ulp32 (1 / 10 ^ 12) log2Box

/-- The sum of the polynomial and the exponent. -/
def log2Enc (k : ℤ) (X : Enc) : Enc := ((polyEnc ulp32 .neither 9 log2Lits X).add ⟨k, k, 0, true⟩).round ulp32

theorem log2_code_enc {ext : BdExt} {fx : FloatExt} {v : ℝ} (hf : 5 ≤ ext.fuel) (h : RoundedLits fx true v) (hv : v ≤ 1 / 10 ^ 12) :
    ∃ e, polynomialCode ext fx true .log2 ⟨-5, 1⟩ ⟨5, 1⟩ = .ok e ∧
      EncCode .f32 "x" e.toR (fun t => Real.logb 2 (t + 3 / 2)) (1 / 2) (152 / 10 ^ 10) (polyEnc ulp32 .neither 9 log2Lits) := by
  obtain ⟨e, h1, h2⟩ := (log2_fits ext hf 9 20 (28 / 10 ^ 20) 5 6 (152 / 10 ^ 10) (1170 / 1000) log2_ok_10).encCode log2_ok_10 log2Box_ok rfl
    log2Box_small inv_log_two_digits logb_three_halves_digits h eps_ulp32 (v' := 1 / 10 ^ 12) (by push_cast; exact hv) rfl rfl
  refine ⟨e, h1, ?_⟩
  have e1 : (((log2Cert 9 20 (28 / 10 ^ 20) 5 6 (152 / 10 ^ 10) (1170 / 1000)).hi : ℚ) : ℝ) = 1 / 2 := by simp [log2Cert]
  have e2 : (((log2Cert 9 20 (28 / 10 ^ 20) 5 6 (152 / 10 ^ 10) (1170 / 1000)).ε : ℚ) : ℝ) = 152 / 10 ^ 10 := by simp [log2Cert]
  rw [e1, e2] at h2
  exact h2

section
variable {calls : String → List RV → RV} {g : Name → RV}

/-- The generated `log2` at a float between two powers of two. -/
theorem log2_at {p : RExpr} (hp : EncCode .f32 "x" p (fun t => Real.logb 2 (t + 3 / 2)) (1 / 2) (152 / 10 ^ 10) (polyEnc ulp32 .neither 9 log2Lits)) (hg : BitConsts .f32 g) {a : ℝ}
    (har : FloatFmt.f32.Repr a) {k : ℤ} (hk1 : -100 ≤ k) (hk2 : k ≤ 100) (h1 : (2 : ℝ) ^ k ≤ a) (h2 : a < 2 ^ (k + 1)) {X : Enc} (hX : X.Of (a / 2 ^ k - 3 / 2) (a / 2 ^ k - 3 / 2))
    (hok : (log2Enc k X).ok = true) :
    ∃ y q, (Gen.log2 p).apply (ieeeInterp .f32 calls) g [.f a] = .f y ∧ (log2Enc k X).Of y q ∧ |q - Real.logb 2 a| ≤ 152 / 10 ^ 10 := by
  have hF : FloatFmt.f32.Wide := FloatFmt.wide_fmtOf true
  have hpk : (0 : ℝ) < 2 ^ k := by positivity
  obtain ⟨q1, q2, q3⟩ := FloatFmt.repr_pattern hF.ok har (h1.trans' (zpow_le_zpow_right₀ (by norm_num) (by
    have : FloatFmt.f32.bias = 127 := by decide
    rw [this]; norm_num; omega))) (h2.trans_le (by
      rw [← zpow_natCast]
      refine zpow_le_zpow_right₀ (by norm_num) ?_
      have : FloatFmt.f32.bias = 127 := by decide
      rw [this]; push_cast; omega))
  have hf' : FloatFmt.f32.encode a % 2 ^ FloatFmt.f32.mant < 2 ^ FloatFmt.f32.mant := Nat.mod_lt _ (by positivity)
  have hE : FloatFmt.f32.encode a / 2 ^ FloatFmt.f32.mant < 2 ^ FloatFmt.f32.ebits - 1 := (Nat.div_lt_iff_lt_mul (by positivity)).2 q2
  have hE0 : 0 < FloatFmt.f32.encode a / 2 ^ FloatFmt.f32.mant := Nat.div_pos q1 (by positivity)
  have hsplit : FloatFmt.f32.encode a / 2 ^ FloatFmt.f32.mant * 2 ^ FloatFmt.f32.mant + FloatFmt.f32.encode a % 2 ^ FloatFmt.f32.mant = FloatFmt.f32.encode a :=
    Nat.div_add_mod' _ _
  rw [← hsplit, FloatFmt.decode_normal hE0 hE hf'] at q3
  have ha' := RV.f.inj q3
  generalize FloatFmt.f32.encode a / 2 ^ FloatFmt.f32.mant = E at *
  generalize FloatFmt.f32.encode a % 2 ^ FloatFmt.f32.mant = f at *
  have hM : (0 : ℝ) < 2 ^ FloatFmt.f32.mant := by positivity
  have hq0 : (0 : ℝ) ≤ f / 2 ^ FloatFmt.f32.mant := by positivity
  have hq1 : (f : ℝ) / 2 ^ FloatFmt.f32.mant < 1 := by rw [div_lt_one hM]; exact_mod_cast hf'
  -- the exponent
  have hEk : (E : ℤ) - FloatFmt.f32.bias = k := by
    have e1 := FloatFmt.log_of (q := 1 + f / 2 ^ FloatFmt.f32.mant) (by linarith) (by linarith) ((E : ℤ) - FloatFmt.f32.bias)
    have e2 := FloatFmt.log_of (q := a / 2 ^ k) (by rwa [le_div_iff₀ hpk, one_mul]) (by rw [div_lt_iff₀ hpk]; rw [zpow_add_one₀ (by norm_num)] at h2; linarith) k
    rw [div_mul_cancel₀ _ hpk.ne', ← ha'] at e2
    exact e1.symm.trans e2
  have hm : a / 2 ^ k = 1 + f / 2 ^ FloatFmt.f32.mant := by rw [← ha', hEk]; field_simp
  rw [hm] at hX
  have hok1 := Enc.round_ok hok
  simp only [Enc.add, Bool.and_eq_true] at hok1
  obtain ⟨r, q, y1, y2, y3, -⟩ := hp X _ _ hX (by rw [abs_le]; constructor <;> linarith) hok1.1
  have hsum := y2.add (show (⟨k, k, 0, true⟩ : Enc).Of (k : ℝ) k from ⟨by simp, by simp, by simp⟩)
  obtain ⟨z1, z2⟩ := hsum.round hF (ε := ulp32) eps_ulp32 hok
  refine ⟨_, q + k, ?_, z2, ?_⟩
  · rw [← ha']
    refine log2_value hF (bias_lt_mant true) hg hE0 hE hf' (fun env henv => y1 calls env henv) ?_
    rw [hEk]
    exact z1
  · have hlog : Real.logb 2 a = Real.logb 2 (1 + f / 2 ^ FloatFmt.f32.mant) + k := by
      rw [← ha', hEk, Real.logb_mul (by positivity) (by positivity), ← Real.rpow_intCast, Real.logb_rpow (by norm_num) (by norm_num)]
    rw [hlog, add_sub_add_right_eq_sub]
    simpa using y3

/-- How far rounding the argument moves the logarithm. -/
theorem logb_move {x a B m : ℝ} {k : ℤ} (hB : 0 ≤ B) (hB1 : B ≤ 1 / 10 ^ 7) (h1 : |a - x| ≤ 2 ^ k * B) (hm : 1 ≤ m) (h2 : 2 ^ k * m ≤ a) :
    |Real.logb 2 a - Real.logb 2 x| ≤ B * (1 + 1 / 10 ^ 6) * (14427 / 10000) / m := by
  have hpk : (0 : ℝ) < 2 ^ k := by positivity
  have ha : 0 < a := by nlinarith
  obtain ⟨t, ht⟩ : ∃ t, t = (x - a) / a := ⟨_, rfl⟩
  have hx : x = a * (1 + t) := by rw [ht]; field_simp; ring
  have ht1 : |t| ≤ B / m := by
    rw [ht, abs_div, abs_of_pos ha, abs_sub_comm, div_le_div_iff₀ ha (by linarith)]
    calc |a - x| * m ≤ 2 ^ k * B * m := by gcongr
      _ = B * (2 ^ k * m) := by ring
      _ ≤ B * a := by gcongr
  have hBm : B / m ≤ B := div_le_self hB hm
  have ht2 : |t| ≤ 1 / 10 ^ 7 := by linarith
  have htt := abs_le.1 ht2
  norm_num at htt
  have hlog : |Real.log (1 + t)| ≤ |t| * (1 + 1 / 10 ^ 6) := by
    have u1 : Real.log (1 + t) ≤ t := by have := Real.log_le_sub_one_of_pos (x := 1 + t) (by linarith); linarith
    have u3 : -Real.log (1 + t) ≤ -t * (1 + t)⁻¹ := by
      have := Real.log_le_sub_one_of_pos (x := (1 + t)⁻¹) (inv_pos.2 (by linarith))
      rw [Real.log_inv] at this
      have e : (1 + t)⁻¹ - 1 = -t * (1 + t)⁻¹ := by
        have : (1 + t) * (1 + t)⁻¹ = 1 := mul_inv_cancel₀ (by linarith)
        linarith
      linarith
    have u4 : (1 + t)⁻¹ ≤ 1 + 1 / 10 ^ 6 := by
      rw [inv_le_comm₀ (by linarith) (by norm_num)]
      norm_num
      linarith
    have u5 : 0 < (1 + t)⁻¹ := inv_pos.2 (by linarith)
    rw [abs_le]
    constructor
    · have : -t * (1 + t)⁻¹ ≤ |t| * (1 + 1 / 10 ^ 6) := by
        refine (mul_le_mul_of_nonneg_right (neg_le_abs t) u5.le).trans ?_
        gcongr
      linarith
    · have := le_abs_self t
      have := abs_nonneg t
      norm_num
      linarith
  have hkap := inv_log_two_digits.2
  have hl0 : 0 < Real.log 2 := Real.log_pos (by norm_num)
  rw [abs_sub_comm, hx, Real.logb, Real.logb, Real.log_mul ha.ne' (by linarith), add_div, add_sub_cancel_left, abs_div, abs_of_pos hl0]
  calc |Real.log (1 + t)| / Real.log 2 = |Real.log (1 + t)| * (1 / Real.log 2) := by ring
    _ ≤ |t| * (1 + 1 / 10 ^ 6) * (14427 / 10000) := by
        refine mul_le_mul hlog (hkap.trans (by norm_num)) (by positivity) (by positivity)
    _ ≤ B / m * (1 + 1 / 10 ^ 6) * (14427 / 10000) := by gcongr
    _ = _ := by ring

/-- The samples with exponent `k` and mantissa between `m₀` and `m₀ + n h` pass, when the values go through `T` and the reference is `s` times the binary logarithm. -/
def logSeg (lim s : ℚ) (T : Enc → Enc) (k : ℤ) (m₀ h : ℚ) (n : ℕ) : Bool :=
  (List.range n).all fun i => passEnc ulp32 lim (T (log2Enc k (cell (m₀ - 3 / 2) h i))) (s * (152 / 10 ^ 10 + ulp32 * (1 + 1 / 10 ^ 6) * (14427 / 10000) / (m₀ + i * h)))

/-- The enclosures of the polynomial on the 32 cells of width `1/32`. -/
def logTable : List Enc := [
  ⟨-22736993244984101 / 1237940039285380274899124224, 1717414322130289979392719 / 38685626227668133590597632, 52200057424489016393 / 1237940039285380274899124224, true⟩,
  ⟨27478629137985956235166257 / 618970019642690137449562112, 13534220398427873461613047 / 154742504910672534362390528, 50612083709303838269 / 1237940039285380274899124224, true⟩,
  ⟨108273763164533212562906433 / 1237940039285380274899124224, 160044630612726277636684607 / 1237940039285380274899124224, 51474725136099660145 / 1237940039285380274899124224, true⟩,
  ⟨160044630596426685850207347 / 1237940039285380274899124224, 210356960063870632772226301 / 1237940039285380274899124224, 23931069775149280791 / 618970019642690137449562112, true⟩,
  ⟨105178480026120572245223423 / 618970019642690137449562112, 64822673881770219050201791 / 309485009821345068724781056, 22189198523680896801 / 618970019642690137449562112, true⟩,
  ⟨259290695518771447978436285 / 1237940039285380274899124224, 149862979096059586583467 / 604462909807314587353088, 20508086559795013209 / 618970019642690137449562112, true⟩,
  ⟨306919381182793380625418387 / 1237940039285380274899124224, 353310824550807742997454481 / 1237940039285380274899124224, 11748301079676754187 / 309485009821345068724781056, true⟩,
  ⟨353310824546578097666742407 / 1237940039285380274899124224, 398527678433359314707135389 / 1237940039285380274899124224, 43856228506667599193 / 1237940039285380274899124224, true⟩,
  ⟨49815959803795740699659961 / 154742504910672534362390528, 442627952156393984582954111 / 1237940039285380274899124224, 20411560779954579577 / 618970019642690137449562112, true⟩,
  ⟨442627952154300377678819063 / 1237940039285380274899124224, 242832730545082671752577677 / 618970019642690137449562112, 1184023917730282549 / 38685626227668133590597632, true⟩,
  ⟨121416365272181828949084947 / 309485009821345068724781056, 263845111364127148012865005 / 618970019642690137449562112, 35048382329762758753 / 1237940039285380274899124224, true⟩,
  ⟨263845111363645627480516783 / 618970019642690137449562112, 568748806472535259543030561 / 1237940039285380274899124224, 4037187793033137577 / 154742504910672534362390528, true⟩,
  ⟨142187201617977716691809165 / 309485009821345068724781056, 608884643422879629005517321 / 1237940039285380274899124224, 29631933740763420983 / 1237940039285380274899124224, true⟩,
  ⟨152221160855622198252009561 / 309485009821345068724781056, 648138301637346813427843325 / 1237940039285380274899124224, 42035717221975079953 / 1237940039285380274899124224, true⟩,
  ⟨648138301637106930440251783 / 1237940039285380274899124224, 343273865785316198334348553 / 618970019642690137449562112, 40682106505220483555 / 1237940039285380274899124224, true⟩,
  ⟨171636932892619348090918155 / 309485009821345068724781056, 362074242854842593123012703 / 618970019642690137449562112, 9850665287703552909 / 309485009821345068724781056, true⟩,
  ⟨724148485709561392242096867 / 1237940039285380274899124224, 761356193411030473486183797 / 1237940039285380274899124224, 9850665287703552909 / 309485009821345068724781056, true⟩,
  ⟨760591472515797087257760687 / 1237940039285380274899124224, 797809951858374112661552909 / 1237940039285380274899124224, 40682106505220483555 / 1237940039285380274899124224, true⟩,
  ⟨398150048042756397485202977 / 618970019642690137449562112, 833540152465531089966367861 / 1237940039285380274899124224, 42035717221975079953 / 1237940039285380274899124224, true⟩,
  ⟨831302909278620016438873435 / 1237940039285380274899124224, 868575415910199340379360371 / 1237940039285380274899124224, 43466991796045584695 / 1237940039285380274899124224, true⟩,
  ⟨865626798081694098368709885 / 1237940039285380274899124224, 56433920667601929934811383 / 77371252455336267181195264, 5622454861867552169 / 154742504910672534362390528, true⟩,
  ⟨449648553224935227989228065 / 618970019642690137449562112, 234166894718808566800502859 / 309485009821345068724781056, 46577597375831228513 / 1237940039285380274899124224, true⟩,
  ⟨932337749279030525591687095 / 1237940039285380274899124224, 969774050470877533397742981 / 1237940039285380274899124224, 1508283090900958261 / 38685626227668133590597632, true⟩,
  ⟨964771314547729398643037097 / 1237940039285380274899124224, 250571236791266346563979489 / 309485009821345068724781056, 25023246798381967481 / 618970019642690137449562112, true⟩,
  ⟨124577394445395535798888619 / 154742504910672534362390528, 64638867295605767285801551 / 77371252455336267181195264, 51926667754475898201 / 1237940039285380274899124224, true⟩,
  ⟨513950737104726563697911027 / 618970019642690137449562112, 266401334710430892955647389 / 309485009821345068724781056, 13472179224848144651 / 309485009821345068724781056, true⟩,
  ⟨1058637396129585777742402671 / 1237940039285380274899124224, 1096454803368930813739578659 / 1237940039285380274899124224, 27892289495049528921 / 618970019642690137449562112, true⟩,
  ⟨272211259718656579269714793 / 309485009821345068724781056, 1126788782206703728953057743 / 1237940039285380274899124224, 28961973950717310753 / 618970019642690137449562112, true⟩,
  ⟨1118541574225084061778415823 / 1237940039285380274899124224, 1156624895939981357636784403 / 1237940039285380274899124224, 30085501475758943767 / 618970019642690137449562112, true⟩,
  ⟨286935821532458224985750283 / 309485009821345068724781056, 1185979936852487354924064885 / 1237940039285380274899124224, 62531123422363603313 / 1237940039285380274899124224, true⟩,
  ⟨294116406504385887882125125 / 309485009821345068724781056, 1214869930122720204514970915 / 1237940039285380274899124224, 64984118376318096957 / 1237940039285380274899124224, true⟩,
  ⟨1204723267614301310597088113 / 1237940039285380274899124224, 155413774429067220433361923 / 154742504910672534362390528, 104472212399471520841 / 1237940039285380274899124224, true⟩]

theorem logTable_right : (List.range 32).map (fun i => polyEnc ulp32 .neither 9 log2Lits (cell (-1 / 2) (1 / 32) i)) = logTable := by decide +kernel

/-- The condition with the enclosures taken from the table. -/
def logSegT (lim s : ℚ) (T : Enc → Enc) (k : ℤ) (j n : ℕ) : Bool :=
  (List.range n).all fun i => passEnc ulp32 lim (T (((logTable.getD (j + i) ⟨0, 0, 0, false⟩).add ⟨k, k, 0, true⟩).round ulp32))
    (s * (152 / 10 ^ 10 + ulp32 * (1 + 1 / 10 ^ 6) * (14427 / 10000) / (1 + j / 32 + i * (1 / 32))))

theorem logSeg_table {lim s : ℚ} {T : Enc → Enc} {k : ℤ} {j n : ℕ} (h : logSegT lim s T k j n = true) {m₀ : ℚ} (hm : m₀ = 1 + j / 32 ∧ j + n ≤ 32) : logSeg lim s T k m₀ (1 / 32) n = true := by
  obtain ⟨rfl, hn⟩ := hm
  rw [logSegT, List.all_eq_true] at h
  rw [logSeg, List.all_eq_true]
  intro i hi
  have hi' := List.mem_range.1 hi
  have h1 := h i hi
  have h2 : logTable.getD (j + i) ⟨0, 0, 0, false⟩ = polyEnc ulp32 .neither 9 log2Lits (cell (-1 / 2) (1 / 32) (j + i)) := by
    rw [← logTable_right, List.getD_eq_getElem _ _ (by simp; omega), List.getElem_map, List.getElem_range]
  have h3 : cell (1 + j / 32 - 3 / 2) (1 / 32) i = cell (-1 / 2) (1 / 32) (j + i) := by
    simp only [cell, Enc.mk.injEq, and_true]
    push_cast
    constructor <;> ring
  rw [h2] at h1
  rw [h3]
  exact h1

theorem log_sample {p : RExpr} (hp : EncCode .f32 "x" p (fun t => Real.logb 2 (t + 3 / 2)) (1 / 2) (152 / 10 ^ 10) (polyEnc ulp32 .neither 9 log2Lits)) (hg : BitConsts .f32 g)
    {lim s : ℚ} {T : Enc → Enc} {σ : ℝ} {f : RV → RV} (hσ : |σ| ≤ s) (hTok : ∀ R, (T R).ok = true → R.ok = true)
    (hT : ∀ (a y : ℝ), (Gen.log2 p).apply (ieeeInterp .f32 calls) g [.f a] = .f y → ∀ R q, R.Of y q → (T R).ok = true → ∃ z, f (.f a) = .f z ∧ (T R).Of z (σ * q))
    {k : ℤ} (hk1 : -100 ≤ k) (hk2 : k ≤ 100) {m₀ h : ℚ} {n : ℕ} (hm : 1 ≤ m₀) (hh : 0 < h) (hn : 0 < n) (hseg : logSeg lim s T k m₀ h n = true) {x : ℝ}
    (h1 : 2 ^ k * (m₀ : ℝ) ≤ FloatFmt.f32.rnd x) (h2 : FloatFmt.f32.rnd x ≤ 2 ^ k * (m₀ + n * h : ℝ)) (h3 : FloatFmt.f32.rnd x < 2 ^ (k + 1)) :
    ∃ R d y q, f (.f (FloatFmt.f32.rnd x)) = .f y ∧ R.Of y q ∧ |q - σ * Real.logb 2 x| ≤ (d : ℚ) ∧ passEnc ulp32 lim R d = true := by
  have hpk : (0 : ℝ) < 2 ^ k := by positivity
  have hm' : (1 : ℝ) ≤ m₀ := by exact_mod_cast hm
  have hh' : (0 : ℝ) < h := by exact_mod_cast hh
  obtain ⟨a, ha⟩ : ∃ a, a = FloatFmt.f32.rnd x := ⟨_, rfl⟩
  rw [← ha] at h1 h2 h3 ⊢
  have hae : |a - x| ≤ 2 ^ k * FloatFmt.f32.eps := by
    have h4 : x ≤ 2 ^ (k + 1) := by
      by_contra hc
      have := FloatFmt.le_rnd (F := .f32) (FloatFmt.repr_zpow (e := k + 1) (by have : FloatFmt.f32.bias = 127 := by decide
                                                                               have : FloatFmt.f32.mant = 23 := by decide
                                                                               omega)) (not_le.1 hc).le
      linarith
    have h5 : 0 ≤ x := by
      by_contra hc
      have := FloatFmt.rnd_le (F := .f32) FloatFmt.repr_zero (not_le.1 hc).le
      nlinarith
    have := FloatFmt.rnd_below (F := .f32) (x := x) (b := k + 1) (by have : FloatFmt.f32.bias = 127 := by decide
                                                                     omega) (by rwa [abs_of_nonneg h5])
    rw [← ha, zpow_add_one₀ (by norm_num)] at this
    linarith
  obtain ⟨i, hi, hX⟩ := grid_cover (a := m₀ - 3 / 2) (h := h) (n := n) hh hn (x := a / 2 ^ k - 3 / 2)
    (by push_cast; have : (m₀ : ℝ) ≤ a / 2 ^ k := by rw [le_div_iff₀ hpk]; linarith
        linarith)
    (by push_cast; have : a / 2 ^ k ≤ m₀ + n * h := by rw [div_le_iff₀ hpk]; linarith
        linarith)
  simp only [logSeg, List.all_eq_true] at hseg
  have hpass := hseg i hi
  have hok := passEnc_ok hpass
  obtain ⟨y, q, y1, y2, y3⟩ := log2_at (calls := calls) hp hg (ha ▸ FloatFmt.rnd_repr x) hk1 hk2 (by nlinarith) h3 hX (hTok _ hok)
  obtain ⟨z, z1, z2⟩ := hT a y y1 _ q y2 hok
  refine ⟨_, _, z, _, z1, z2, ?_, hpass⟩
  have hmi : 2 ^ k * ((m₀ : ℝ) + i * h) ≤ a := by
    have := hX.1
    simp only [cell] at this
    push_cast at this
    have h6 : (m₀ : ℝ) + i * h ≤ a / 2 ^ k := by linarith
    rw [le_div_iff₀ hpk] at h6
    linarith
  have hmove := logb_move (FloatFmt.eps_pos (F := .f32)).le (by rw [show FloatFmt.f32.eps = 1 / 2 ^ 24 from eps_f32]; norm_num) hae (m := (m₀ : ℝ) + i * h) (by nlinarith [(Nat.cast_nonneg i : (0 : ℝ) ≤ i)]) hmi
  have := abs_add_le (q - Real.logb 2 a) (Real.logb 2 a - Real.logb 2 x)
  rw [sub_add_sub_cancel] at this
  rw [← mul_sub, abs_mul]
  have e : FloatFmt.f32.eps = (ulp32 : ℝ) := eps_ulp32
  rw [e] at hmove
  push_cast
  refine mul_le_mul hσ (by linarith) (abs_nonneg _) ((abs_nonneg _).trans hσ)

end

/-! ## The tests -/

section
variable {ext : BdExt} {fx : FloatExt} {P : Gen.Parts} {calls : String → List RV → RV} {g : Name → RV} {v : ℝ}

/-- The generated `log2` of the library. -/
theorem TestLibrary.log2 (h : TestLibrary ext fx true P calls g v) : ∃ p, EncCode .f32 "x" p (fun t => Real.logb 2 (t + 3 / 2)) (1 / 2) (152 / 10 ^ 10) (polyEnc ulp32 .neither 9 log2Lits) ∧
    ∀ x, calls "log2" [x] = (Gen.log2 p).apply (ieeeInterp .f32 calls) g [x] := by
  obtain ⟨e, h1, h2⟩ := log2_code_enc (ext := ext) (by have := h.fuel; omega) h.lits h.close
  have := h.approx .log2 (by simp [approxSpecs]) _ _ e rfl h1
  have hfn : LinkedIE (fmtOf true) calls g (Gen.log2 e.toR) := h.fn "log2" (by decide +kernel) (by rw [← this]; rfl)
  exact ⟨e.toR, h2, fun x => hfn _⟩

/-- A test passes when each sample meets the computable condition. -/
theorem TestLibrary.test (h : TestLibrary ext fx true P calls g v) {s : TestSpec} (hm : s ∈ testSpecs) {tmin tmax : Expr} {k32 k64 : ℚ} {N : ℕ} (ht : s.test = .maxAbs tmin tmax k32 k64 N)
    {V : ℝ → ℝ} {a b : ℝ} (hV : ∀ V' a' b', (s.name, some (V', a', b')) ∈ testMeaning → V' = V ∧ a' = a ∧ b' = b) (hN : 0 < N) (hab : a ≤ b)
    (hp : ∀ x : ℝ, a - 2 / 10 ^ 5 ≤ x → x ≤ a + (N - 1 : ℕ) * (b - a) / N + 2 / 10 ^ 5 → ∃ R d y q, s.value .f32 calls g (.f (FloatFmt.f32.rnd x)) = .f y ∧ R.Of y q ∧ |q - V x| ≤ (d : ℚ) ∧
      passEnc ulp32 (accuracyLimit true k32 k64) R d = true) : AccuracyTest ext true calls g s := by
  obtain ⟨rows, V', a', b', r1, r2, x, r3, r4⟩ := passes_of_enc h.sqrt h.fuel h.rounds true s hm _ _ _ _ _ ht eps_ulp32
  obtain ⟨rfl, rfl, rfl⟩ := hV _ _ _ r2
  unfold AccuracyTest
  rw [ht]
  refine ⟨rows, r1, r4 _ fun i hi => ?_⟩
  obtain ⟨k1, k2⟩ := forall_sample hN hab r3 hi
  exact hp _ k1 k2

/-- Rounding keeps bounds that are floats. -/
theorem rnd_between {lo hi x : ℝ} (hlo : FloatFmt.f32.Repr lo) (hhi : FloatFmt.f32.Repr hi) (h1 : lo ≤ x) (h2 : x ≤ hi) : lo ≤ FloatFmt.f32.rnd x ∧ FloatFmt.f32.rnd x ≤ hi :=
  ⟨FloatFmt.le_rnd hlo h1, FloatFmt.rnd_le hhi h2⟩

/-- Multiples of `2⁻¹⁰`. -/
theorem repr_1024 (k : ℤ) (hk : |k| ≤ 2 ^ 20) : FloatFmt.f32.Repr ((k : ℝ) / 1024) := by
  refine ⟨k, -10, ?_, ?_, by decide⟩
  · rw [zpow_neg]; norm_num; ring
  · exact hk.trans (by decide)

/-- `log2` itself. -/
theorem plain_sample {p : RExpr} (hp : EncCode .f32 "x" p (fun t => Real.logb 2 (t + 3 / 2)) (1 / 2) (152 / 10 ^ 10) (polyEnc ulp32 .neither 9 log2Lits)) (hg : BitConsts .f32 g)
    {lim : ℚ} {k : ℤ} {m₀ h : ℚ} {n : ℕ} (hseg : logSeg lim 1 id k m₀ h n = true) (hk : (-100 ≤ k ∧ k ≤ 100) ∧ 1 ≤ m₀ ∧ 0 < h ∧ 0 < n) {x : ℝ}
    (h1 : 2 ^ k * (m₀ : ℝ) ≤ FloatFmt.f32.rnd x) (h2 : FloatFmt.f32.rnd x ≤ 2 ^ k * (m₀ + n * h : ℝ)) (h3 : FloatFmt.f32.rnd x < 2 ^ (k + 1)) :
    ∃ R d y q, (Gen.log2 p).apply (ieeeInterp .f32 calls) g [.f (FloatFmt.f32.rnd x)] = .f y ∧ R.Of y q ∧ |q - Real.logb 2 x| ≤ (d : ℚ) ∧ passEnc ulp32 lim R d = true := by
  have := log_sample (calls := calls) (σ := 1) (f := fun x => (Gen.log2 p).apply (ieeeInterp .f32 calls) g [x]) hp hg (by norm_num) (fun R hR => hR) (fun a y hy R q hR _ => ⟨y, hy, by rw [one_mul]; exact hR⟩)
    hk.1.1 hk.1.2 hk.2.1 hk.2.2.1 hk.2.2.2 hseg h1 h2 h3
  rwa [one_mul] at this

/-- The product of `log2` with a constant. -/
def timesEnc (C R : Enc) : Enc := (R.mul C).round ulp32

theorem times_sample {p : RExpr} (hp : EncCode .f32 "x" p (fun t => Real.logb 2 (t + 3 / 2)) (1 / 2) (152 / 10 ^ 10) (polyEnc ulp32 .neither 9 log2Lits)) (hg : BitConsts .f32 g)
    {C : Enc} {c σ : ℝ} (hC : C.Of c σ) {lim s : ℚ} (hσ : |σ| ≤ s) {k : ℤ} {m₀ h : ℚ} {n : ℕ} (hseg : logSeg lim s (timesEnc C) k m₀ h n = true)
    (hk : (-100 ≤ k ∧ k ≤ 100) ∧ 1 ≤ m₀ ∧ 0 < h ∧ 0 < n) {x : ℝ}
    (h1 : 2 ^ k * (m₀ : ℝ) ≤ FloatFmt.f32.rnd x) (h2 : FloatFmt.f32.rnd x ≤ 2 ^ k * (m₀ + n * h : ℝ)) (h3 : FloatFmt.f32.rnd x < 2 ^ (k + 1)) :
    ∃ R d y q, binIE .f32 .mul ((Gen.log2 p).apply (ieeeInterp .f32 calls) g [.f (FloatFmt.f32.rnd x)]) (.f c) = .f y ∧ R.Of y q ∧ |q - σ * Real.logb 2 x| ≤ (d : ℚ) ∧
      passEnc ulp32 lim R d = true := by
  refine log_sample (calls := calls) (f := fun x => binIE .f32 .mul ((Gen.log2 p).apply (ieeeInterp .f32 calls) g [x]) (.f c)) hp hg hσ (fun R hR => ?_) (fun a y hy R q hR hok => ?_)
    hk.1.1 hk.1.2 hk.2.1 hk.2.2.1 hk.2.2.2 hseg h1 h2 h3
  · have := Enc.round_ok hR
    simp only [Enc.mul, Bool.and_eq_true] at this
    exact this.1
  · obtain ⟨z1, z2⟩ := (hR.mul hC).round (FloatFmt.wide_fmtOf true) (ε := ulp32) eps_ulp32 hok
    refine ⟨_, ?_, mul_comm q σ ▸ z2⟩
    simp only [hy, binIE_mul]
    exact z1

def lnConst : Enc := Enc.lit ulp32 (1 / 10 ^ 17) (693147180559945309417232 / 10 ^ 24, 693147180559945309417233 / 10 ^ 24)
def log10Const : Enc := Enc.lit ulp32 (1 / 10 ^ 17) (3010299956639811952137 / 10 ^ 22, 3010299956639811952138 / 10 ^ 22)

theorem log2_1_seg0 : logSeg (accuracyLimit true (3 / 2) (3 / 2)) 1 id (-1) (44 / 32) (1 / 32) 20 = true := logSeg_table (j := 12) (by decide +kernel) (by norm_num)
theorem log2_1_seg1 : logSeg (accuracyLimit true (3 / 2) (3 / 2)) 1 id (0) (1) (1 / 32) 1 = true := logSeg_table (j := 0) (by decide +kernel) (by norm_num)

/-- **C99** `test_log2_1` passes. -/
theorem C99_log2_1 (h : TestLibrary ext fx true P calls g v) : ∀ s ∈ testSpecs, s.name = "test_log2_1" → AccuracyTest ext true calls g s := by
  intro s hm hn
  obtain ⟨p, hp, hlog⟩ := h.log2
  have hs : s = TestSpec.maxAbs "log2" "test_log2_1" (TestSpec.meth "log2") (TestSpec.app "log2" [.path ["x"]]) (TestSpec.fl "0.7") (TestSpec.fl "1.0") (3 / 2) (3 / 2) 237 := by
    revert hn; revert s; simp [testSpecs, TestSpec.maxAbs]
  subst hs
  refine h.test hm rfl (V := Real.logb 2) (a := 7 / 10) (b := 1) (by simp [testMeaning, TestSpec.maxAbs]) (by norm_num) (by norm_num) fun x hx1 hx2 => ?_
  have hval : ∀ x, (TestSpec.maxAbs "log2" "test_log2_1" (TestSpec.meth "log2") (TestSpec.app "log2" [.path ["x"]]) (TestSpec.fl "0.7") (TestSpec.fl "1.0") (3 / 2) (3 / 2) 237).value .f32 calls g x =
      (Gen.log2 p).apply (ieeeInterp .f32 calls) g [x] := fun x => hlog x
  simp only [hval]
  norm_num at hx1 hx2
  have hr := rnd_between (x := x) (repr_1024 704 (by decide)) (repr_1024 1030 (by decide)) (by norm_num; linarith) (by norm_num; linarith)
  norm_num at hr
  rcases lt_or_ge (FloatFmt.f32.rnd x) (1) with hlt | hge
  · exact plain_sample hp h.bits log2_1_seg0 ⟨by norm_num, by norm_num, by norm_num, by norm_num⟩ (by norm_num; linarith) (by norm_num; linarith) (by norm_num; linarith)
  exact plain_sample hp h.bits log2_1_seg1 ⟨by norm_num, by norm_num, by norm_num, by norm_num⟩ (by norm_num; linarith) (by norm_num; linarith) (by norm_num; linarith)

theorem log2_2_seg0 : logSeg (accuracyLimit true 2 2) 1 id (-1) (60 / 32) (1 / 32) 4 = true := logSeg_table (j := 28) (by decide +kernel) (by norm_num)
theorem log2_2_seg1 : logSeg (accuracyLimit true 2 2) 1 id (0) (1) (1 / 32) 31 = true := logSeg_table (j := 0) (by decide +kernel) (by norm_num)
theorem log2_2_seg2 : logSeg (accuracyLimit true 2 2) 1 id (0) (63 / 32) (7 / 1024) 4 = true := by decide +kernel

/-- **C99** `test_log2_2` passes. -/
theorem C99_log2_2 (h : TestLibrary ext fx true P calls g v) : ∀ s ∈ testSpecs, s.name = "test_log2_2" → AccuracyTest ext true calls g s := by
  intro s hm hn
  obtain ⟨p, hp, hlog⟩ := h.log2
  have hs : s = TestSpec.maxAbs "log2" "test_log2_2" (TestSpec.meth "log2") (TestSpec.app "log2" [.path ["x"]]) (TestSpec.fl "1.0") (litInt "2") 2 2 237 := by
    revert hn; revert s; simp [testSpecs, TestSpec.maxAbs]
  subst hs
  refine h.test hm rfl (V := Real.logb 2) (a := 1) (b := 2) (by simp [testMeaning, TestSpec.maxAbs]) (by norm_num) (by norm_num) fun x hx1 hx2 => ?_
  have hval : ∀ x, (TestSpec.maxAbs "log2" "test_log2_2" (TestSpec.meth "log2") (TestSpec.app "log2" [.path ["x"]]) (TestSpec.fl "1.0") (litInt "2") 2 2 237).value .f32 calls g x =
      (Gen.log2 p).apply (ieeeInterp .f32 calls) g [x] := fun x => hlog x
  simp only [hval]
  norm_num at hx1 hx2
  have hr := rnd_between (x := x) (repr_1024 1000 (by decide)) (repr_1024 2044 (by decide)) (by norm_num; linarith) (by norm_num; linarith)
  norm_num at hr
  rcases lt_or_ge (FloatFmt.f32.rnd x) (1) with hlt | hge
  · exact plain_sample hp h.bits log2_2_seg0 ⟨by norm_num, by norm_num, by norm_num, by norm_num⟩ (by norm_num; linarith) (by norm_num; linarith) (by norm_num; linarith)
  rcases lt_or_ge (FloatFmt.f32.rnd x) (63 / 32) with hlt | hge
  · exact plain_sample hp h.bits log2_2_seg1 ⟨by norm_num, by norm_num, by norm_num, by norm_num⟩ (by norm_num; linarith) (by norm_num; linarith) (by norm_num; linarith)
  exact plain_sample hp h.bits log2_2_seg2 ⟨by norm_num, by norm_num, by norm_num, by norm_num⟩ (by norm_num; linarith) (by norm_num; linarith) (by norm_num; linarith)

theorem ln_1_seg0 : logSeg (accuracyLimit true (3 / 2) (3 / 2)) (6931472 / 10 ^ 7) (timesEnc lnConst) (-1) (44 / 32) (1 / 32) 20 = true := logSeg_table (j := 12) (by decide +kernel) (by norm_num)
theorem ln_1_seg1 : logSeg (accuracyLimit true (3 / 2) (3 / 2)) (6931472 / 10 ^ 7) (timesEnc lnConst) (0) (1) (1 / 32) 1 = true := logSeg_table (j := 0) (by decide +kernel) (by norm_num)

/-- **C99** `test_ln_1` passes. -/
theorem C99_ln_1 (h : TestLibrary ext fx true P calls g v) : ∀ s ∈ testSpecs, s.name = "test_ln_1" → AccuracyTest ext true calls g s := by
  intro s hm hn
  obtain ⟨p, hp, hlog⟩ := h.log2
  have hs : s = TestSpec.maxAbs "ln" "test_ln_1" (TestSpec.meth "ln") (TestSpec.app "ln" [.path ["x"]]) (TestSpec.fl "0.7") (TestSpec.fl "1.0") (3 / 2) (3 / 2) 237 := by
    revert hn; revert s; simp [testSpecs, TestSpec.maxAbs]
  subst hs
  refine h.test hm rfl (V := Real.log) (a := 7 / 10) (b := 1) (by simp [testMeaning, TestSpec.maxAbs]) (by norm_num) (by norm_num) fun x hx1 hx2 => ?_
  have hm : 1 / Real.logb 2 (Real.exp 1) = Real.log 2 := by rw [logb_exp_one, one_div_one_div]
  have hd := log_two_digits
  have hd' := hd
  push_cast at hd'
  norm_num at hd'
  obtain ⟨c, hc, hC⟩ := h.const (name := "RECIP_LOG2_E") (m := Real.log 2) (by rw [← hm]; simp [constMeaning]) (by rw [abs_of_nonneg] <;> linarith) eps_ulp32 hd.1 hd.2
    (by rw [abs_of_nonneg] <;> linarith)
  have hσ : |Real.log 2| ≤ ((6931472 / 10 ^ 7 : ℚ) : ℝ) := by push_cast; norm_num; rw [abs_of_nonneg] <;> linarith
  have hfn : LinkedIE .f32 calls g Gen.ln := h.fn "ln" (by decide +kernel) rfl
  have hval : ∀ x, (TestSpec.maxAbs "ln" "test_ln_1" (TestSpec.meth "ln") (TestSpec.app "ln" [.path ["x"]]) (TestSpec.fl "0.7") (TestSpec.fl "1.0") (3 / 2) (3 / 2) 237).value .f32 calls g x =
      binIE .f32 .mul ((Gen.log2 p).apply (ieeeInterp .f32 calls) g [x]) (.f c) := fun x => by
    rw [← hlog]
    refine (hfn [x]).trans ?_
    simp only [Gen.ln, ofFty_apply, List.map, bindParams]
    simp [hc]
  simp only [hval]
  rw [show Real.log x = Real.log 2 * Real.logb 2 x by rw [mul_comm, logb_mul_log]]
  norm_num at hx1 hx2
  have hr := rnd_between (x := x) (repr_1024 704 (by decide)) (repr_1024 1030 (by decide)) (by norm_num; linarith) (by norm_num; linarith)
  norm_num at hr
  rcases lt_or_ge (FloatFmt.f32.rnd x) (1) with hlt | hge
  · exact times_sample hp h.bits hC hσ ln_1_seg0 ⟨by norm_num, by norm_num, by norm_num, by norm_num⟩ (by norm_num; linarith) (by norm_num; linarith) (by norm_num; linarith)
  exact times_sample hp h.bits hC hσ ln_1_seg1 ⟨by norm_num, by norm_num, by norm_num, by norm_num⟩ (by norm_num; linarith) (by norm_num; linarith) (by norm_num; linarith)

theorem ln_2_seg0 : logSeg (accuracyLimit true 2 2) (6931472 / 10 ^ 7) (timesEnc lnConst) (-1) (60 / 32) (1 / 32) 4 = true := logSeg_table (j := 28) (by decide +kernel) (by norm_num)
theorem ln_2_seg1 : logSeg (accuracyLimit true 2 2) (6931472 / 10 ^ 7) (timesEnc lnConst) (0) (1) (1 / 32) 31 = true := logSeg_table (j := 0) (by decide +kernel) (by norm_num)
theorem ln_2_seg2 : logSeg (accuracyLimit true 2 2) (6931472 / 10 ^ 7) (timesEnc lnConst) (0) (63 / 32) (7 / 1024) 4 = true := by decide +kernel

/-- **C99** `test_ln_2` passes. -/
theorem C99_ln_2 (h : TestLibrary ext fx true P calls g v) : ∀ s ∈ testSpecs, s.name = "test_ln_2" → AccuracyTest ext true calls g s := by
  intro s hm hn
  obtain ⟨p, hp, hlog⟩ := h.log2
  have hs : s = TestSpec.maxAbs "ln" "test_ln_2" (TestSpec.meth "ln") (TestSpec.app "ln" [.path ["x"]]) (TestSpec.fl "1.0") (litInt "2") 2 2 237 := by
    revert hn; revert s; simp [testSpecs, TestSpec.maxAbs]
  subst hs
  refine h.test hm rfl (V := Real.log) (a := 1) (b := 2) (by simp [testMeaning, TestSpec.maxAbs]) (by norm_num) (by norm_num) fun x hx1 hx2 => ?_
  have hm : 1 / Real.logb 2 (Real.exp 1) = Real.log 2 := by rw [logb_exp_one, one_div_one_div]
  have hd := log_two_digits
  have hd' := hd
  push_cast at hd'
  norm_num at hd'
  obtain ⟨c, hc, hC⟩ := h.const (name := "RECIP_LOG2_E") (m := Real.log 2) (by rw [← hm]; simp [constMeaning]) (by rw [abs_of_nonneg] <;> linarith) eps_ulp32 hd.1 hd.2
    (by rw [abs_of_nonneg] <;> linarith)
  have hσ : |Real.log 2| ≤ ((6931472 / 10 ^ 7 : ℚ) : ℝ) := by push_cast; norm_num; rw [abs_of_nonneg] <;> linarith
  have hfn : LinkedIE .f32 calls g Gen.ln := h.fn "ln" (by decide +kernel) rfl
  have hval : ∀ x, (TestSpec.maxAbs "ln" "test_ln_2" (TestSpec.meth "ln") (TestSpec.app "ln" [.path ["x"]]) (TestSpec.fl "1.0") (litInt "2") 2 2 237).value .f32 calls g x =
      binIE .f32 .mul ((Gen.log2 p).apply (ieeeInterp .f32 calls) g [x]) (.f c) := fun x => by
    rw [← hlog]
    refine (hfn [x]).trans ?_
    simp only [Gen.ln, ofFty_apply, List.map, bindParams]
    simp [hc]
  simp only [hval]
  rw [show Real.log x = Real.log 2 * Real.logb 2 x by rw [mul_comm, logb_mul_log]]
  norm_num at hx1 hx2
  have hr := rnd_between (x := x) (repr_1024 1000 (by decide)) (repr_1024 2044 (by decide)) (by norm_num; linarith) (by norm_num; linarith)
  norm_num at hr
  rcases lt_or_ge (FloatFmt.f32.rnd x) (1) with hlt | hge
  · exact times_sample hp h.bits hC hσ ln_2_seg0 ⟨by norm_num, by norm_num, by norm_num, by norm_num⟩ (by norm_num; linarith) (by norm_num; linarith) (by norm_num; linarith)
  rcases lt_or_ge (FloatFmt.f32.rnd x) (63 / 32) with hlt | hge
  · exact times_sample hp h.bits hC hσ ln_2_seg1 ⟨by norm_num, by norm_num, by norm_num, by norm_num⟩ (by norm_num; linarith) (by norm_num; linarith) (by norm_num; linarith)
  exact times_sample hp h.bits hC hσ ln_2_seg2 ⟨by norm_num, by norm_num, by norm_num, by norm_num⟩ (by norm_num; linarith) (by norm_num; linarith) (by norm_num; linarith)

theorem log10_2_seg0 : logSeg (accuracyLimit true 2 2) (3010300 / 10 ^ 7) (timesEnc log10Const) (-1) (60 / 32) (1 / 32) 4 = true := logSeg_table (j := 28) (by decide +kernel) (by norm_num)
theorem log10_2_seg1 : logSeg (accuracyLimit true 2 2) (3010300 / 10 ^ 7) (timesEnc log10Const) (0) (1) (1 / 32) 32 = true := logSeg_table (j := 0) (by decide +kernel) (by norm_num)
theorem log10_2_seg2 : logSeg (accuracyLimit true 2 2) (3010300 / 10 ^ 7) (timesEnc log10Const) (1) (1) (1 / 32) 32 = true := logSeg_table (j := 0) (by decide +kernel) (by norm_num)
theorem log10_2_seg3 : logSeg (accuracyLimit true 2 2) (3010300 / 10 ^ 7) (timesEnc log10Const) (2) (1) (1 / 32) 32 = true := logSeg_table (j := 0) (by decide +kernel) (by norm_num)
theorem log10_2_seg4 : logSeg (accuracyLimit true 2 2) (3010300 / 10 ^ 7) (timesEnc log10Const) (3) (1) (1 / 32) 7 = true := logSeg_table (j := 0) (by decide +kernel) (by norm_num)
theorem log10_2_seg5 : logSeg (accuracyLimit true 2 2) (3010300 / 10 ^ 7) (timesEnc log10Const) (3) (39 / 32) (1 / 256) 7 = true := by decide +kernel

/-- **C99** `test_log10_2` passes. -/
theorem C99_log10_2 (h : TestLibrary ext fx true P calls g v) : ∀ s ∈ testSpecs, s.name = "test_log10_2" → AccuracyTest ext true calls g s := by
  intro s hm hn
  obtain ⟨p, hp, hlog⟩ := h.log2
  have hs : s = TestSpec.maxAbs "log10" "test_log10_2" (TestSpec.meth "log10") (TestSpec.app "log10" [.path ["x"]]) (TestSpec.fl "1.0") (litInt "10") 2 2 237 := by
    revert hn; revert s; simp [testSpecs, TestSpec.maxAbs]
  subst hs
  refine h.test hm rfl (V := Real.logb 10) (a := 1) (b := 10) (by simp [testMeaning, TestSpec.maxAbs]) (by norm_num) (by norm_num) fun x hx1 hx2 => ?_
  have hd := inv_logb_ten_digits
  have hd' := hd
  push_cast at hd'
  norm_num at hd'
  rw [← one_div] at hd'
  obtain ⟨c, hc, hC⟩ := h.const (name := "RECIP_LOG2_10") (m := 1 / Real.logb 2 10) (by simp [constMeaning]) (by rw [abs_of_nonneg] <;> linarith) eps_ulp32 hd.1 hd.2
    (by rw [abs_of_nonneg] <;> linarith)
  have hσ : |1 / Real.logb 2 10| ≤ ((3010300 / 10 ^ 7 : ℚ) : ℝ) := by rw [abs_of_nonneg] <;> push_cast <;> linarith
  have hfn : LinkedIE .f32 calls g Gen.log10 := h.fn "log10" (by decide +kernel) rfl
  have hval : ∀ x, (TestSpec.maxAbs "log10" "test_log10_2" (TestSpec.meth "log10") (TestSpec.app "log10" [.path ["x"]]) (TestSpec.fl "1.0") (litInt "10") 2 2 237).value .f32 calls g x =
      binIE .f32 .mul ((Gen.log2 p).apply (ieeeInterp .f32 calls) g [x]) (.f c) := fun x => by
    rw [← hlog]
    refine (hfn [x]).trans ?_
    simp only [Gen.log10, ofFty_apply, List.map, bindParams]
    simp [hc]
  simp only [hval]
  rw [show Real.logb 10 x = 1 / Real.logb 2 10 * Real.logb 2 x by rw [mul_comm, mul_one_div]; simp only [Real.logb]; field_simp]
  norm_num at hx1 hx2
  have hr := rnd_between (x := x) (repr_1024 1000 (by decide)) (repr_1024 10208 (by decide)) (by norm_num; linarith) (by norm_num; linarith)
  norm_num at hr
  rcases lt_or_ge (FloatFmt.f32.rnd x) (1) with hlt | hge
  · exact times_sample hp h.bits hC hσ log10_2_seg0 ⟨by norm_num, by norm_num, by norm_num, by norm_num⟩ (by norm_num; linarith) (by norm_num; linarith) (by norm_num; linarith)
  rcases lt_or_ge (FloatFmt.f32.rnd x) (2) with hlt | hge
  · exact times_sample hp h.bits hC hσ log10_2_seg1 ⟨by norm_num, by norm_num, by norm_num, by norm_num⟩ (by norm_num; linarith) (by norm_num; linarith) (by norm_num; linarith)
  rcases lt_or_ge (FloatFmt.f32.rnd x) (4) with hlt | hge
  · exact times_sample hp h.bits hC hσ log10_2_seg2 ⟨by norm_num, by norm_num, by norm_num, by norm_num⟩ (by norm_num; linarith) (by norm_num; linarith) (by norm_num; linarith)
  rcases lt_or_ge (FloatFmt.f32.rnd x) (8) with hlt | hge
  · exact times_sample hp h.bits hC hσ log10_2_seg3 ⟨by norm_num, by norm_num, by norm_num, by norm_num⟩ (by norm_num; linarith) (by norm_num; linarith) (by norm_num; linarith)
  rcases lt_or_ge (FloatFmt.f32.rnd x) (39 / 4) with hlt | hge
  · exact times_sample hp h.bits hC hσ log10_2_seg4 ⟨by norm_num, by norm_num, by norm_num, by norm_num⟩ (by norm_num; linarith) (by norm_num; linarith) (by norm_num; linarith)
  exact times_sample hp h.bits hC hσ log10_2_seg5 ⟨by norm_num, by norm_num, by norm_num, by norm_num⟩ (by norm_num; linarith) (by norm_num; linarith) (by norm_num; linarith)

end

end Verif
