import Verif.Props.GenSeeds
import Verif.Props.IeeeExp
import Verif.Lemmas.NewtonIeee

/-!
# C83 for `sqrt`, `recip` and `cbrt`

The estimate from the bit pattern, computed in floats, and the Newton steps with every operation rounded.
-/

namespace Verif
open RExpr

theorem seed_err {ε N N' B C' t a b p S : ℝ} (hε : 0 ≤ ε) (hN : 0 ≤ N) (hB : 0 ≤ B) (h1 : |N' - N| ≤ ε * (N + 1)) (ha : |a| ≤ 1)
    (hap : |a - p| ≤ 2 / 5 * ε) (hb : |b| ≤ 2) (hbp : |b - (1 - p)| ≤ 3 / 4 * ε) (hC : |C' - B * b| ≤ ε * (|B * b| + 1))
    (ht : |t - (N' * a + C')| ≤ ε * (|N' * a + C'| + 1)) (hS : |p * N + (1 - p) * B| ≤ S) :
    |t - (p * N + (1 - p) * B)| ≤ (1 + ε) * (ε * (7 / 5 * N + 11 / 4 * B + 2)) + ε * (S + 1) := by
  have e1 : |N' * a - p * N| ≤ ε * (N + 1) + N * (2 / 5 * ε) := by
    rw [show N' * a - p * N = (N' - N) * a + N * (a - p) by ring]
    refine (abs_add_le _ _).trans (add_le_add ?_ ?_)
    · rw [abs_mul]
      calc |N' - N| * |a| ≤ ε * (N + 1) * 1 := mul_le_mul h1 ha (abs_nonneg _) (by positivity)
        _ = _ := by ring
    · rw [abs_mul, abs_of_nonneg hN]; gcongr
  have e2 : |C' - (1 - p) * B| ≤ ε * (2 * B + 1) + B * (3 / 4 * ε) := by
    rw [show C' - (1 - p) * B = (C' - B * b) + B * (b - (1 - p)) by ring]
    refine (abs_add_le _ _).trans (add_le_add (hC.trans ?_) ?_)
    · rw [abs_mul, abs_of_nonneg hB]
      have : B * |b| ≤ B * 2 := mul_le_mul_of_nonneg_left hb hB
      exact mul_le_mul_of_nonneg_left (by linarith) hε
    · rw [abs_mul, abs_of_nonneg hB]; gcongr
  have e3 : |(N' * a + C') - (p * N + (1 - p) * B)| ≤ ε * (7 / 5 * N + 11 / 4 * B + 2) := by
    rw [show (N' * a + C') - (p * N + (1 - p) * B) = (N' * a - p * N) + (C' - (1 - p) * B) by ring]
    refine (abs_add_le _ _).trans ?_
    linarith
  have b3 := abs_near_le e3 hS
  have e4 := near_trans (ht.trans (mul_le_mul_of_nonneg_left (by linarith : |N' * a + C'| + 1 ≤ S + ε * (7 / 5 * N + 11 / 4 * B + 2) + 1) hε)) e3
  linarith

theorem pattern_room (b32 : Bool) : 5 * ((2 * (fmtOf b32).bias + 1) * (2 : ℝ) ^ (fmtOf b32).mant) ≤ 2 ^ (fmtOf b32).bias := by
  cases b32
  · show 5 * ((2 * ((1023 : ℕ) : ℝ) + 1) * (2 : ℝ) ^ 52) ≤ 2 ^ 1023
    exact le_trans (by norm_num : _ ≤ (2 : ℝ) ^ 70) (pow_le_pow_right₀ (by norm_num) (by norm_num))
  · show 5 * ((2 * ((127 : ℕ) : ℝ) + 1) * (2 : ℝ) ^ 23) ≤ 2 ^ 127
    norm_num

theorem eps_room (b32 : Bool) {N B : ℝ} (hN : N ≤ (2 * (fmtOf b32).bias + 1) * 2 ^ (fmtOf b32).mant) (hB : B = (fmtOf b32).bias * 2 ^ (fmtOf b32).mant) :
    (1 + (fmtOf b32).eps) * ((fmtOf b32).eps * (7 / 5 * N + 11 / 4 * B + 2)) + (fmtOf b32).eps * ((2 * (fmtOf b32).bias + 1) * 2 ^ (fmtOf b32).mant + 1) ≤
      63 / 2 ^ 20 * 2 ^ (fmtOf b32).mant := by
  subst hB
  cases b32
  · rw [FloatFmt.eps]
    simp only [show (fmtOf false).mant = 52 from rfl, show (fmtOf false).bias = 1023 from rfl] at *
    norm_num at *
    linarith
  · rw [FloatFmt.eps]
    simp only [show (fmtOf true).mant = 23 from rfl, show (fmtOf true).bias = 127 from rfl] at *
    norm_num at *
    linarith

section
variable {b32 : Bool} {calls : String → List RV → RV} {g : Name → RV}

/-- The estimate in floats. -/
theorem seed_ieee {e : RExpr} {env : Name → RV} {x a b p : ℝ} (hx : (fmtOf b32).Repr x) (h0 : (fmtOf b32).tiny ≤ x) (h1 : x < 2 ^ ((fmtOf b32).bias + 1))
    (ha : |a| ≤ 1) (hap : |a - p| ≤ 2 / 5 * (fmtOf b32).eps) (hb : |b| ≤ 2) (hbp : |b - (1 - p)| ≤ 3 / 4 * (fmtOf b32).eps)
    (hlo : 2 * 2 ^ (fmtOf b32).mant ≤ p * (fmtOf b32).encode x + (1 - p) * ((fmtOf b32).bias * 2 ^ (fmtOf b32).mant))
    (hhi : p * (fmtOf b32).encode x + (1 - p) * ((fmtOf b32).bias * 2 ^ (fmtOf b32).mant) ≤ 2 * (fmtOf b32).bias * 2 ^ (fmtOf b32).mant)
    (he : ∀ N' C' : ℝ, (fmtOf b32).rne ((fmtOf b32).encode x : ℝ) = .f N' → (fmtOf b32).rne ((fmtOf b32).bias * 2 ^ (fmtOf b32).mant * b) = .f C' →
      e.denote (ieeeInterp (fmtOf b32) calls) env = (fmtOf b32).rne (N' * a + C')) :
    ∃ y L : ℝ, (fromBits (as e "uty")).denote (ieeeInterp (fmtOf b32) calls) env = .f y ∧ (fmtOf b32).Repr y ∧ (2 : ℝ) ^ L ≤ x ∧ x ≤ 10615 / 10000 * (2 : ℝ) ^ L ∧
      99995 / 100000 * (2 : ℝ) ^ (p * L) ≤ y ∧ y ≤ 10616 / 10000 * (2 : ℝ) ^ (p * L) := by
  have hF := FloatFmt.wide_fmtOf b32
  obtain ⟨r1, r2⟩ := pattern_range hF.ok hx h0 h1
  have hroom := pattern_room b32
  have hε := FloatFmt.eps_pos (F := fmtOf b32)
  have hε' := eps_fmtOf b32
  have htiny : (fmtOf b32).tiny ≤ 1 := (FloatFmt.tiny_le hF).trans (by norm_num)
  have hm : (0 : ℝ) < 2 ^ (fmtOf b32).mant := by positivity
  have hm20 : (1 : ℝ) ≤ 2 ^ (fmtOf b32).mant := one_le_pow₀ (by norm_num)
  have hbias : (29 : ℝ) ≤ (fmtOf b32).bias := by exact_mod_cast hF.bias_ge.2
  generalize hF' : fmtOf b32 = F at *
  obtain ⟨N, hN⟩ : ∃ N : ℝ, N = F.encode x := ⟨_, rfl⟩
  obtain ⟨M, hM⟩ : ∃ M : ℝ, M = 2 ^ F.mant := ⟨_, rfl⟩
  obtain ⟨B, hB⟩ : ∃ B : ℝ, B = F.bias * M := ⟨_, rfl⟩
  obtain ⟨K, hK⟩ : ∃ K : ℝ, K = (2 * F.bias + 1) * M := ⟨_, rfl⟩
  rw [← hN] at r1 r2 hlo hhi he
  rw [← hM] at r1 r2 hlo hhi he hroom hm hm20
  rw [← hB] at hlo hhi he
  rw [← hK] at r2 hroom
  have hKB : K = 2 * B + M := by rw [hK, hB]; ring
  have hBp : 0 ≤ B := by rw [hB]; positivity
  have hNp : 0 ≤ N := by linarith
  have hBb : |B * b| ≤ 2 * B := by rw [abs_mul, abs_of_nonneg hBp]; nlinarith
  have rnd1 : ∀ v : ℝ, |F.rnd v - v| ≤ F.eps * (|v| + 1) := fun v => (FloatFmt.rnd_err v).trans (mul_le_mul_of_nonneg_left (by linarith) hε.le)
  have f1 : F.rne N = .f (F.rnd N) := FloatFmt.rne_f hF.ok (by rw [abs_of_nonneg hNp]; linarith)
  have f2 : F.rne (B * b) = .f (F.rnd (B * b)) := FloatFmt.rne_f hF.ok (by linarith)
  have n1 : |F.rnd N - N| ≤ F.eps * (N + 1) := by have := rnd1 N; rwa [abs_of_nonneg hNp] at this
  have half : ∀ v : ℝ, |F.rnd v| ≤ 3 / 2 * |v| + 1 / 2 := fun v => by
    have h := abs_near_le (rnd1 v) le_rfl
    have : F.eps * (|v| + 1) ≤ 1 / 2 * (|v| + 1) := mul_le_mul_of_nonneg_right (hε'.trans (by norm_num)) (by positivity)
    linarith
  have hN' := half N
  have hC' := half (B * b)
  rw [abs_of_nonneg hNp] at hN'
  have hw : |F.rnd N * a + F.rnd (B * b)| ≤ 2 ^ F.bias := by
    refine (abs_add_le _ _).trans ?_
    rw [abs_mul]
    have : |F.rnd N| * |a| ≤ (3 / 2 * N + 1 / 2) * 1 := mul_le_mul hN' ha (abs_nonneg _) (by linarith)
    linarith
  have hS : |p * N + (1 - p) * B| ≤ K := by
    rw [abs_of_nonneg (by linarith)]; linarith
  have herr := seed_err hε.le hNp hBp n1 ha hap hb hbp (rnd1 (B * b)) (rnd1 _) hS
  have hroom2 := eps_room b32 (N := N) (B := B) (by rw [hF', ← hM, ← hK]; exact r2.le) (by rw [hF', ← hM]; exact hB)
  rw [hF', ← hM, ← hK] at hroom2
  have herr' := herr.trans hroom2
  have hb2 := abs_le.1 herr'
  have h63 : 63 / 2 ^ 20 * M < M := by norm_num; linarith
  obtain ⟨n, y, L, k1, k2, k3, k4, k4', hL, k5, k6, k7, k8⟩ := FloatFmt.seed hF (p := p) (t := F.rnd (F.rnd N * a + F.rnd (B * b))) hx h0 h1
    (by rw [← hM]; linarith) (by rw [← hM, ← hK]; linarith) (by rw [← hN, ← hM, ← hB]; exact herr')
  refine ⟨y, L, ?_, k4', k5, k6, k7, k8⟩
  rw [denote_fromBits, denote_as, he _ _ f1 f2, FloatFmt.rne_f hF.ok hw, ieee_cast, castIE_uty, k1, ieee_fromBits F calls n k2 k3, k4]

theorem numIE_2 {env : Name → RV} : (num "2.0").denote (ieeeInterp (fmtOf b32) calls) env = .f 2 :=
  numIE (FloatFmt.wide_fmtOf b32) (d := ⟨20, 1⟩) rfl 16 (by norm_num) (by norm_num) (by norm_num [Dec.val])
theorem numIE_3 {env : Name → RV} : (num "3.0").denote (ieeeInterp (fmtOf b32) calls) env = .f 3 :=
  numIE (FloatFmt.wide_fmtOf b32) (d := ⟨30, 1⟩) rfl 24 (by norm_num) (by norm_num) (by norm_num [Dec.val])

theorem one_le_bias_pow (b32 : Bool) : (2 : ℝ) ^ 29 ≤ 2 ^ (fmtOf b32).bias := (FloatFmt.bias_pow_ge (FloatFmt.wide_fmtOf b32)).1

theorem numIE_08 {env : Name → RV} : (num "0.08").denote (ieeeInterp (fmtOf b32) calls) env = .f ((fmtOf b32).rnd (8 / 100)) := by
  rw [denoteIE_num _ _ _ (d := ⟨8, 2⟩) rfl, show ((Dec.val ⟨8, 2⟩ : ℚ) : ℝ) = 8 / 100 by norm_num [Dec.val]]
  refine FloatFmt.rne_f (FloatFmt.wide_fmtOf b32).ok ?_
  have := one_le_bias_pow b32
  rw [abs_of_pos (by norm_num)]
  norm_num at this ⊢; linarith

theorem rnd_08 (b32 : Bool) : |(fmtOf b32).rnd (8 / 100) - 8 / 100| ≤ 81 / 1000 * (fmtOf b32).eps := by
  have ht := FloatFmt.tiny_le (FloatFmt.wide_fmtOf b32)
  have := FloatFmt.rnd_err (F := fmtOf b32) (8 / 100)
  rw [abs_of_pos (by norm_num : (0 : ℝ) < 8 / 100)] at this
  have hε := FloatFmt.eps_pos (F := fmtOf b32)
  norm_num at ht
  refine this.trans ?_
  rw [mul_comm]
  exact mul_le_mul_of_nonneg_right (by linarith) hε.le

/-! ## `sqrt` -/

theorem sqrt_approx_ieee (hg : g ["EXP2_ONE"] = .f ((fmtOf b32).bias * 2 ^ (fmtOf b32).mant)) {x : ℝ} (hx : (fmtOf b32).Repr x) (h0 : (fmtOf b32).tiny ≤ x)
    (h1 : x < 2 ^ ((fmtOf b32).bias + 1)) :
    ∃ y, Gen.sqrt_approx.apply (ieeeInterp (fmtOf b32) calls) g [.f x] = (fmtOf b32).rne (y - (fmtOf b32).rnd (8 / 100)) ∧
      9705 / 10000 * √x ≤ y ∧ y ≤ 10617 / 10000 * √x := by
  have hF := FloatFmt.wide_fmtOf b32
  have hpos : 0 < x := FloatFmt.tiny_pos.trans_le h0
  obtain ⟨r1, r2⟩ := pattern_range hF.ok hx h0 h1
  have hm : (0 : ℝ) < 2 ^ (fmtOf b32).mant := by positivity
  have hb : (29 : ℝ) ≤ (fmtOf b32).bias := by exact_mod_cast hF.bias_ge.2
  have hbm : (29 : ℝ) * 2 ^ (fmtOf b32).mant ≤ (fmtOf b32).bias * 2 ^ (fmtOf b32).mant := mul_le_mul_of_nonneg_right hb hm.le
  have hε := FloatFmt.eps_pos (F := fmtOf b32)
  obtain ⟨y, L, k1, -, k5, k6, k7, k8⟩ := seed_ieee (b32 := b32) (calls := calls) (env := envSet g "x" (.f x)) (x := x) (a := 1 / 2) (b := 1 / 2) (p := 1 / 2)
    (e := .paren (.paren (.method (.paren (as (.method (.method (v "x") "abs" []) "to_bits" []) "fty")) "mul_add" [num "0.5", v "EXP2_ONE" * num "0.5"])))
    hx h0 h1 (by norm_num [abs_of_pos]) (by simpa using hε.le) (by norm_num [abs_of_pos]) (by norm_num; linarith) (by linarith) (by linarith)
    (by
      intro N' C' hN hC
      simp [numIE_half hF, hg, abs_of_pos hpos]
      rw [show (fmtOf b32).bias * 2 ^ (fmtOf b32).mant * (2 : ℝ)⁻¹ = (fmtOf b32).bias * 2 ^ (fmtOf b32).mant * (1 / 2) by norm_num, hN, hC]
      simp)
  refine ⟨y, ?_, sqrt_band k5 k6 k7 k8⟩
  simp only [Gen.sqrt_approx, Gen.powerScale, ofFty_apply, List.map, bindParams, denoteBlock_letT]
  rw [k1]
  simp [numIE_08]

theorem norm_round {v' v t S ε : ℝ} (hS : 0 < S) (hε : 0 ≤ ε) (h : |v' - v| ≤ ε * (|v| + t)) (ht : t ≤ S) : |v' / S - v / S| ≤ ε * (|v / S| + 1) := by
  rw [← sub_div, abs_div, abs_div, abs_of_pos hS, div_le_iff₀ hS]
  refine h.trans ?_
  rw [mul_assoc, add_mul, div_mul_cancel₀ _ hS.ne', one_mul]
  exact mul_le_mul_of_nonneg_left (by linarith) hε

/-- A rounded value is at most one percent and a millionth of the scale larger. -/
theorem rnd_small {v S : ℝ} (hS : (fmtOf b32).tiny ≤ S) : |(fmtOf b32).rnd v| ≤ 101 / 100 * |v| + S / 1000000 := by
  have hε := FloatFmt.eps_pos (F := fmtOf b32)
  have hε' := eps_fmtOf b32
  have ht := FloatFmt.tiny_pos (F := fmtOf b32)
  have h := abs_near_le (FloatFmt.rnd_err (F := fmtOf b32) v) le_rfl
  have : (fmtOf b32).eps * (|v| + (fmtOf b32).tiny) ≤ 1 / 2 ^ 24 * (|v| + S) := mul_le_mul hε' (by linarith) (by positivity) (by norm_num)
  have h0 := abs_nonneg v
  rw [show (1 : ℝ) / 2 ^ 24 = 1 / 16777216 by norm_num] at this
  linarith

/-- One step of `sqrt`, from an estimate within 15 percent. -/
theorem sqrt_step_ieee {x s r : ℝ} (hs : 7 / 10 ≤ s) (hxs : x = s ^ 2) (hx : x ≤ 2 ^ ((fmtOf b32).bias - 1)) (h1 : 85 / 100 * s ≤ r) (h2 : r ≤ 107 / 100 * s)
    {env : Name → RV} (hex : env ["x"] = .f x) (her : env ["r"] = .f r) :
    ∃ z, (v "r" + .paren (v "x" - v "r" * v "r") / .paren (num "2.0" * v "r") : RExpr).denote (ieeeInterp (fmtOf b32) calls) env = .f z ∧
      |z / s - 1 - (r / s - 1) ^ 2 / (2 * (r / s))| ≤ 7 * (fmtOf b32).eps := by
  have hF := FloatFmt.wide_fmtOf b32
  have hb := hF.bias_ge.2
  have hbp : (2 : ℝ) ^ (fmtOf b32).bias = 2 * 2 ^ ((fmtOf b32).bias - 1) := by rw [← pow_succ']; congr 1; omega
  have h28 : (2 : ℝ) ^ 28 ≤ 2 ^ ((fmtOf b32).bias - 1) := pow_le_pow_right₀ (by norm_num) (by omega)
  have hε := FloatFmt.eps_pos (F := fmtOf b32)
  have hε' := FloatFmt.eps_le hF
  have htiny := FloatFmt.tiny_le hF
  have ht0 := FloatFmt.tiny_pos (F := fmtOf b32)
  norm_num at h28 htiny
  have hsp : 0 < s := by linarith
  have hs2 : 49 / 100 ≤ s ^ 2 := by nlinarith
  have hs2p : 0 < s ^ 2 := by positivity
  have hs4 : 4 * s ≤ 2 ^ ((fmtOf b32).bias - 1) := by
    rcases le_total s 4 with h | h
    · linarith
    · refine le_trans ?_ hx; rw [hxs]; nlinarith
  have hrp : 0 < r := by nlinarith
  generalize hFe : fmtOf b32 = F at *
  obtain ⟨H, hH⟩ : ∃ H : ℝ, H = 2 ^ (F.bias - 1) := ⟨_, rfl⟩
  rw [← hH] at hx hbp h28 hs4
  have fin : ∀ w : ℝ, |w| ≤ 2 * H → F.rne w = .f (F.rnd w) := fun w hw => FloatFmt.rne_f hF.ok (by rw [hbp]; exact hw)
  have small : ∀ {w S : ℝ}, F.tiny ≤ S → |F.rnd w| ≤ 101 / 100 * |w| + S / 1000000 := fun {w S} h => by
    have := rnd_small (b32 := b32) (v := w) (S := S) (by rw [hFe]; exact h)
    rwa [hFe] at this
  -- r * r
  have vp : |r * r| ≤ 1145 / 1000 * s ^ 2 := by rw [abs_of_pos (by positivity)]; nlinarith
  have rp := small (w := r * r) (S := s ^ 2) (by linarith)
  obtain ⟨p, hp⟩ : ∃ p, p = F.rnd (r * r) := ⟨_, rfl⟩
  rw [← hp] at rp
  have vd : |x - p| ≤ 13 / 10 * s ^ 2 := by
    have hpn : 0 ≤ p := by
      rw [hp]
      have := FloatFmt.rnd_mono (F := F) (by positivity : (0 : ℝ) ≤ r * r)
      rwa [FloatFmt.rnd_zero] at this
    rw [abs_le]; have := abs_le.1 rp; constructor <;> linarith
  obtain ⟨d, hd⟩ : ∃ d, d = F.rnd (x - p) := ⟨_, rfl⟩
  have rd := small (w := x - p) (S := s ^ 2) (by linarith)
  rw [← hd] at rd
  obtain ⟨k, hk⟩ : ∃ k, k = F.rnd (2 * r) := ⟨_, rfl⟩
  have ek := FloatFmt.rnd_err (F := F) (2 * r)
  rw [← hk] at ek
  have vk : |2 * r| ≤ 214 / 100 * s := by rw [abs_of_pos (by positivity)]; linarith
  have hk1 : 16 / 10 * s ≤ k := by
    have e := (abs_le.1 ek).1
    have : F.eps * (|2 * r| + F.tiny) ≤ 1 / 2 ^ 21 * (4 * s) := mul_le_mul hε' (by linarith) (by positivity) (by norm_num)
    rw [show (1 : ℝ) / 2 ^ 21 = 1 / 2097152 by norm_num] at this
    linarith
  have hk0 : 0 < k := by linarith
  have vq : |d / k| ≤ s := by
    rw [abs_div, abs_of_pos hk0, div_le_iff₀ hk0]
    have : s * (16 / 10 * s) ≤ s * k := mul_le_mul_of_nonneg_left hk1 hsp.le
    nlinarith
  obtain ⟨q, hq⟩ : ∃ q, q = F.rnd (d / k) := ⟨_, rfl⟩
  have rq := small (w := d / k) (S := s) (by linarith)
  rw [← hq] at rq
  have vz : |r + q| ≤ 3 * s := by
    refine (abs_add_le _ _).trans ?_
    rw [abs_of_pos hrp]; linarith
  refine ⟨F.rnd (r + q), ?_, ?_⟩
  · simp [hex, her]
    have n2 : (num "2.0").denote (ieeeInterp F calls) env = .f 2 := by rw [← hFe]; exact numIE_2
    rw [n2, fin (r * r) (by linarith), ← hp]
    simp only [binIE_sub, binIE_mul]
    rw [fin (x - p) (by linarith), ← hd, fin (2 * r) (by linarith), ← hk, binIE_div _ hk0.ne', fin (d / k) (by linarith), ← hq, binIE_add, fin (r + q) (by linarith)]
  · refine (sqrt_step_rounded (ε := F.eps) (r := r / s) (p := p / s ^ 2) (d := d / s ^ 2) (k := k / s) (q := q / s) hε.le hε' ?_ ?_ ?_ ?_ ?_ ?_ ?_).1
    · rw [le_div_iff₀ hsp]; exact h1
    · rw [div_le_iff₀ hsp]; exact h2
    · have := norm_round hs2p hε.le (FloatFmt.rnd_err (F := F) (r * r)) (by linarith)
      rw [← hp] at this
      rwa [show r * r / s ^ 2 = r / s * (r / s) by field_simp] at this
    · have := norm_round hs2p hε.le (FloatFmt.rnd_err (F := F) (x - p)) (by linarith)
      rw [← hd] at this
      rwa [show (x - p) / s ^ 2 = 1 - p / s ^ 2 by rw [hxs]; field_simp] at this
    · have := norm_round hsp hε.le (FloatFmt.rnd_err (F := F) (2 * r)) (by linarith)
      rw [← hk] at this
      rwa [show 2 * r / s = 2 * (r / s) by ring] at this
    · have := norm_round hsp hε.le (FloatFmt.rnd_err (F := F) (d / k)) (by linarith)
      rw [← hq] at this
      rwa [show d / k / s = d / s ^ 2 / (k / s) by field_simp] at this
    · have := norm_round hsp hε.le (FloatFmt.rnd_err (F := F) (r + q)) (by linarith)
      rwa [show (r + q) / s = r / s + q / s by ring] at this

theorem sqrt_final {s ρ ζ ε : ℝ} (hs : 0 < s) (hε : 0 ≤ ε) (hε' : ε ≤ 1 / 16777216) (b1 : 8573 / 10000 ≤ ρ) (b2 : ρ ≤ 107 / 100)
    (he : |ζ - 1 - (ρ - 1) ^ 2 / (2 * ρ)| ≤ 7 * ε) : -(7 * ε * s) ≤ ζ * s - s ∧ ζ * s - s ≤ 12 / 1000 * s := by
  have b3 : (ρ - 1) ^ 2 / (2 * ρ) ≤ 11990 / 1000000 := by
    rw [div_le_iff₀ (by linarith)]
    nlinarith
  have b0 : 0 ≤ (ρ - 1) ^ 2 / (2 * ρ) := by positivity
  have h := abs_le.1 he
  have h1 : -(7 * ε) * s ≤ (ζ - 1) * s := mul_le_mul_of_nonneg_right (by linarith) hs.le
  have h2 : (ζ - 1) * s ≤ 12 / 1000 * s := mul_le_mul_of_nonneg_right (by linarith) hs.le
  constructor <;> linarith

/-- `sqrt` in floats: the error of one step from an estimate `ρ√x`. -/
theorem sqrt_ieee (hg : g ["EXP2_ONE"] = .f ((fmtOf b32).bias * 2 ^ (fmtOf b32).mant)) (hc : LinkedIE (fmtOf b32) calls g Gen.sqrt_approx) {x : ℝ}
    (hx : (fmtOf b32).Repr x) (h0 : 1 / 2 ≤ x) (h1 : x ≤ 2 ^ ((fmtOf b32).bias - 1)) :
    ∃ ζ ρ, Gen.sqrt.apply (ieeeInterp (fmtOf b32) calls) g [.f x] = .f (ζ * √x) ∧ 97049 / 100000 * √x - 8 / 100 ≤ ρ * √x ∧ ρ * √x ≤ 10618 / 10000 * √x - 8 / 100 ∧
      |ζ - 1 - (ρ - 1) ^ 2 / (2 * ρ)| ≤ 7 * (fmtOf b32).eps := by
  have hF := FloatFmt.wide_fmtOf b32
  have hb := hF.bias_ge.2
  have hε := FloatFmt.eps_pos (F := fmtOf b32)
  have hε' := eps_fmtOf b32
  have htiny := FloatFmt.tiny_le hF
  have ht0 := FloatFmt.tiny_pos (F := fmtOf b32)
  norm_num at htiny hε'
  have h2 : x < 2 ^ ((fmtOf b32).bias + 1) := h1.trans_lt (pow_lt_pow_right₀ (by norm_num) (by omega))
  obtain ⟨y, k1, k2, k3⟩ := sqrt_approx_ieee (calls := calls) hg hx (by linarith) h2
  have hs : 7071 / 10000 ≤ √x := Real.le_sqrt_of_sq_le (by norm_num; linarith)
  have hsx : x = √x ^ 2 := (Real.sq_sqrt (by linarith)).symm
  have hfin : |y - (fmtOf b32).rnd (8 / 100)| ≤ 2 ^ (fmtOf b32).bias := by
    have hbp : (2 : ℝ) ^ (fmtOf b32).bias = 2 * 2 ^ ((fmtOf b32).bias - 1) := by rw [← pow_succ']; congr 1; omega
    have h28 : (2 : ℝ) ^ 28 ≤ 2 ^ ((fmtOf b32).bias - 1) := pow_le_pow_right₀ (by norm_num) (by omega)
    have h8 := abs_le.1 (rnd_08 b32)
    have hsx' : √x ≤ x / 4 + 1 := by nlinarith [sq_nonneg (√x - 2)]
    norm_num at h28
    rw [abs_le, hbp]
    constructor <;> linarith
  have hcall : calls "sqrt_approx" [.f x] = .f ((fmtOf b32).rnd (y - (fmtOf b32).rnd (8 / 100))) := by
    rw [show calls "sqrt_approx" [.f x] = calls Gen.sqrt_approx.name [.f x] from rfl, hc, k1, FloatFmt.rne_f hF.ok hfin]
  obtain ⟨r, hr⟩ : ∃ r, r = (fmtOf b32).rnd (y - (fmtOf b32).rnd (8 / 100)) := ⟨_, rfl⟩
  rw [← hr] at hcall
  have hrn : |r - (y - 8 / 100)| ≤ 3 * (fmtOf b32).eps * √x := by
    have e1 := FloatFmt.rnd_err (F := fmtOf b32) (y - (fmtOf b32).rnd (8 / 100))
    rw [← hr] at e1
    have h8 := rnd_08 b32
    have h8' := abs_le.1 h8
    have hv : |y - (fmtOf b32).rnd (8 / 100)| + (fmtOf b32).tiny ≤ 2 * √x := by
      have : |y - (fmtOf b32).rnd (8 / 100)| ≤ 19 / 10 * √x := by rw [abs_le]; constructor <;> linarith
      linarith
    have e2 := e1.trans (mul_le_mul_of_nonneg_left hv hε.le)
    have e3 : |(y - (fmtOf b32).rnd (8 / 100)) - (y - 8 / 100)| ≤ 81 / 1000 * (fmtOf b32).eps := by
      rw [show (y - (fmtOf b32).rnd (8 / 100)) - (y - 8 / 100) = -((fmtOf b32).rnd (8 / 100) - 8 / 100) by ring, abs_neg]; exact h8
    have e4 := near_trans e2 e3
    nlinarith
  have hrn' := abs_le.1 hrn
  have hεs : 3 * (fmtOf b32).eps * √x ≤ 1 / 1000000 * √x := mul_le_mul_of_nonneg_right (by linarith) (Real.sqrt_nonneg x)
  obtain ⟨z, hz, he⟩ := sqrt_step_ieee (calls := calls) (b32 := b32) (x := x) (s := √x) (r := r) (by linarith) hsx h1 (by linarith) (by linarith)
    (env := envSet (envSet g "x" (.f x)) "r" (.f r)) (by simp) (by simp)
  have hsp : 0 < √x := by linarith
  refine ⟨z / √x, r / √x, ?_, ?_, ?_, he⟩
  · rw [div_mul_cancel₀ _ hsp.ne']
    simp only [Gen.sqrt, ofFty_apply, List.map, bindParams, denoteBlock_letT]
    rw [denote_app, ieee_call, denoteArgs_cons, denoteArgs_nil, denote_v, show envSet g "x" (RV.f x) ["x"] = .f x by simp, hcall, hz]
    simp
  · rw [div_mul_cancel₀ _ hsp.ne']; linarith
  · rw [div_mul_cancel₀ _ hsp.ne']; linarith

/-- **C74** `sqrt` in floats: never below the root by more than rounding, and too large by up to 1.2 percent. -/
theorem C74_sqrt_ieee_partial (hg : g ["EXP2_ONE"] = .f ((fmtOf b32).bias * 2 ^ (fmtOf b32).mant)) (hc : LinkedIE (fmtOf b32) calls g Gen.sqrt_approx) {x : ℝ}
    (hx : (fmtOf b32).Repr x) (h0 : 1 / 2 ≤ x) (h1 : x ≤ 2 ^ ((fmtOf b32).bias - 1)) :
    ∃ y, Gen.sqrt.apply (ieeeInterp (fmtOf b32) calls) g [.f x] = .f y ∧ -(7 * (fmtOf b32).eps * √x) ≤ y - √x ∧ y - √x ≤ 12 / 1000 * √x := by
  have hε' := eps_fmtOf b32
  norm_num at hε'
  obtain ⟨ζ, ρ, k1, k2, k3, he⟩ := sqrt_ieee (calls := calls) hg hc hx h0 h1
  have hs : 7071 / 10000 ≤ √x := Real.le_sqrt_of_sq_le (by norm_num; linarith)
  have hsp : 0 < √x := by linarith
  exact ⟨_, k1, sqrt_final hsp FloatFmt.eps_pos.le hε' (by nlinarith) (by nlinarith) he⟩

theorem sqrt_wrong_final {ρ ζ ε : ℝ} (hε' : ε ≤ 1 / 16777216) (b1 : 8570 / 10000 ≤ ρ) (b2 : ρ ≤ 9818 / 10000)
    (he : |ζ - 1 - (ρ - 1) ^ 2 / (2 * ρ)| ≤ 7 * ε) : 10001 / 10000 ≤ ζ := by
  have b3 : 16 / 100000 ≤ (ρ - 1) ^ 2 / (2 * ρ) := by
    rw [le_div_iff₀ (by linarith)]
    nlinarith
  have h := (abs_le.1 he).1
  linarith

/-- **C74** In floats of either width `sqrt` is too large by more than one part in ten thousand on the whole of `[1/2, 1]`. -/
theorem C74_sqrt_ieee_wrong (hg : g ["EXP2_ONE"] = .f ((fmtOf b32).bias * 2 ^ (fmtOf b32).mant)) (hc : LinkedIE (fmtOf b32) calls g Gen.sqrt_approx) {x : ℝ}
    (hx : (fmtOf b32).Repr x) (h0 : 1 / 2 ≤ x) (h1 : x ≤ 1) :
    ∃ y, Gen.sqrt.apply (ieeeInterp (fmtOf b32) calls) g [.f x] = .f y ∧ 10001 / 10000 * √x ≤ y := by
  have hF := FloatFmt.wide_fmtOf b32
  have hε' := eps_fmtOf b32
  norm_num at hε'
  obtain ⟨ζ, ρ, k1, k2, k3, he⟩ := sqrt_ieee (calls := calls) hg hc hx h0 (h1.trans (one_le_pow₀ (by norm_num)))
  have hs : 7071 / 10000 ≤ √x := Real.le_sqrt_of_sq_le (by norm_num; linarith)
  have hs1 : √x ≤ 1 := by rw [← Real.sqrt_one]; exact Real.sqrt_le_sqrt h1
  have hsp : 0 < √x := by linarith
  have hζ := sqrt_wrong_final hε' (by nlinarith) (by nlinarith) he
  exact ⟨_, k1, mul_le_mul_of_nonneg_right hζ hsp.le⟩

/-! ## `recip` -/

theorem recip_approx_ieee (hg : g ["EXP2_ONE"] = .f ((fmtOf b32).bias * 2 ^ (fmtOf b32).mant)) {x : ℝ} (hx : (fmtOf b32).Repr x) (h0 : (fmtOf b32).tiny ≤ |x|)
    (h1 : |x| ≤ 12) :
    ∃ r, Gen.recip_approx.apply (ieeeInterp (fmtOf b32) calls) g [.f x] = .f (if x < 0 then -|r| else |r|) ∧ 0 < r ∧
      99995 / 100000 - 8 / 100 * |x| - 4 * (fmtOf b32).eps ≤ |x| * r ∧ |x| * r ≤ 11269 / 10000 - 8 / 100 * |x| + 4 * (fmtOf b32).eps := by
  have hF := FloatFmt.wide_fmtOf b32
  have hx' : (fmtOf b32).Repr |x| := by rcases abs_choice x with h | h <;> rw [h]; exacts [hx, hx.neg]
  have hbb := hF.bias_ge.2
  have ht0 := FloatFmt.tiny_pos (F := fmtOf b32)
  have hxp : 0 < |x| := ht0.trans_le h0
  have h16 : (12 : ℝ) ≤ 2 ^ 4 := by norm_num
  have h1' : |x| < 2 ^ ((fmtOf b32).bias + 1) := (h1.trans h16).trans_lt (pow_lt_pow_right₀ (by norm_num) (by omega))
  obtain ⟨r1, r2⟩ := pattern_range hF.ok hx' h0 h1'
  have hm : (0 : ℝ) < 2 ^ (fmtOf b32).mant := by positivity
  have hb : (29 : ℝ) ≤ (fmtOf b32).bias := by exact_mod_cast hbb
  have hbm : (29 : ℝ) * 2 ^ (fmtOf b32).mant ≤ (fmtOf b32).bias * 2 ^ (fmtOf b32).mant := mul_le_mul_of_nonneg_right hb hm.le
  have hN : ((fmtOf b32).encode |x| : ℝ) ≤ ((fmtOf b32).bias + 4) * 2 ^ (fmtOf b32).mant := by
    obtain ⟨q1, q2, q3⟩ := FloatFmt.repr_pattern hF.ok hx' h0 h1'
    have h3 := (FloatFmt.pattern_pow q1 q2 q3).1.trans (h1.trans h16)
    rw [← Real.rpow_natCast 2 4, Real.rpow_le_rpow_left_iff (by norm_num), sub_le_iff_le_add, div_le_iff₀ hm] at h3
    push_cast at h3; linarith
  have hε := FloatFmt.eps_pos (F := fmtOf b32)
  have hε' := eps_fmtOf b32
  have htiny := FloatFmt.tiny_le hF
  norm_num at htiny hε'
  obtain ⟨y, L, k1, -, k5, k6, k7, k8⟩ := seed_ieee (b32 := b32) (calls := calls) (env := envSet g "x" (.f x)) (x := |x|) (a := -1) (b := 2) (p := -1)
    (e := .paren (.paren (.method (.paren (as (.method (.method (v "x") "abs" []) "to_bits" []) "fty")) "mul_add" [-num "1.0", v "EXP2_ONE" * num "2.0"])))
    hx' h0 h1' (by norm_num) (by simpa using hε.le) (by norm_num) (by norm_num; linarith) (by linarith) (by linarith)
    (by
      intro N' C' hN hC
      simp [numIE_1 hF, numIE_2, hg, hN, hC])
  obtain ⟨b1, b2⟩ := recip_band (abs_nonneg x) k5 k6 k7 k8
  have h8 := rnd_08 b32
  obtain ⟨c, hc⟩ : ∃ c, c = (fmtOf b32).rnd (8 / 100) := ⟨_, rfl⟩
  rw [← hc] at h8
  have h8' := abs_le.1 h8
  have hyp : 0 < y := by
    by_contra hn
    have : |x| * y ≤ 0 := mul_nonpos_of_nonneg_of_nonpos (abs_nonneg _) (by linarith)
    linarith
  have hyb : y ≤ 113 / 100 * 2 ^ ((fmtOf b32).bias - 1) := by
    have ht2 : (fmtOf b32).tiny * 2 ^ ((fmtOf b32).bias - 1) = 1 := by
      rw [FloatFmt.tiny, ← zpow_natCast (2 : ℝ), ← zpow_add₀ (by norm_num), show 1 - ((fmtOf b32).bias : ℤ) + (((fmtOf b32).bias - 1 : ℕ) : ℤ) = 0 by omega, zpow_zero]
    have h2 : (fmtOf b32).tiny * y ≤ 11269 / 10000 := (mul_le_mul_of_nonneg_right h0 hyp.le).trans b2
    have hp : (0 : ℝ) < 2 ^ ((fmtOf b32).bias - 1) := by positivity
    calc y = (fmtOf b32).tiny * 2 ^ ((fmtOf b32).bias - 1) * y := by rw [ht2, one_mul]
      _ = (fmtOf b32).tiny * y * 2 ^ ((fmtOf b32).bias - 1) := by ring
      _ ≤ 113 / 100 * 2 ^ ((fmtOf b32).bias - 1) := mul_le_mul_of_nonneg_right (by linarith) hp.le
  have hbp : (2 : ℝ) ^ (fmtOf b32).bias = 2 * 2 ^ ((fmtOf b32).bias - 1) := by rw [← pow_succ']; congr 1; omega
  have h28 : (2 : ℝ) ^ 28 ≤ 2 ^ ((fmtOf b32).bias - 1) := pow_le_pow_right₀ (by norm_num) (by omega)
  norm_num at h28
  have hfin : |y - c| ≤ 2 ^ (fmtOf b32).bias := by
    rw [abs_le, hbp]; constructor <;> linarith
  obtain ⟨r, hr⟩ : ∃ r, r = (fmtOf b32).rnd (y - c) := ⟨_, rfl⟩
  have er := FloatFmt.rnd_err (F := fmtOf b32) (y - c)
  rw [← hr] at er
  have hd : |(|x| * r - (|x| * y - 8 / 100 * |x|))| ≤ 4 * (fmtOf b32).eps := by
    rw [show |x| * r - (|x| * y - 8 / 100 * |x|) = |x| * (r - (y - c)) + |x| * (8 / 100 - c) by ring]
    refine (abs_add_le _ _).trans ?_
    rw [abs_mul, abs_mul, abs_abs, abs_sub_comm (8 / 100) c]
    have e1 : |x| * |r - (y - c)| ≤ (fmtOf b32).eps * (|x| * |y - c| + |x| * (fmtOf b32).tiny) := by
      calc |x| * |r - (y - c)| ≤ |x| * ((fmtOf b32).eps * (|y - c| + (fmtOf b32).tiny)) := mul_le_mul_of_nonneg_left er hxp.le
        _ = _ := by ring
    have e2 : |x| * |c - 8 / 100| ≤ 12 * (81 / 1000 * (fmtOf b32).eps) := mul_le_mul h1 h8 (abs_nonneg _) (by norm_num)
    have e3 : |x| * |y - c| ≤ 26 / 10 := by
      have : |y - c| ≤ y + 9 / 100 := by rw [abs_le]; constructor <;> linarith
      have := mul_le_mul_of_nonneg_left this hxp.le
      linarith
    have e4 : |x| * (fmtOf b32).tiny ≤ 12 * (1 / 268435456) := mul_le_mul h1 htiny ht0.le (by norm_num)
    have e5 : (fmtOf b32).eps * (|x| * |y - c| + |x| * (fmtOf b32).tiny) ≤ (fmtOf b32).eps * (27 / 10) := mul_le_mul_of_nonneg_left (by linarith) hε.le
    linarith
  have hd' := abs_le.1 hd
  refine ⟨r, ?_, ?_, by linarith, by linarith⟩
  · simp only [Gen.recip_approx, Gen.powerScale, ofFty_apply, List.map, bindParams, denoteBlock_letT]
    rw [k1]
    simp [numIE_08, ← hc]
    rw [FloatFmt.rne_f hF.ok hfin, ← hr]
    simp
  · by_contra hn
    have : |x| * r ≤ 0 := mul_nonpos_of_nonneg_of_nonpos (abs_nonneg _) (by linarith)
    linarith

/-- One step of `recip`. -/
theorem recip_step_ieee {x r e : ℝ} (h0 : (fmtOf b32).tiny ≤ |x|) (h1 : |x| ≤ 12) (he : |1 - x * r| ≤ e) (he1 : e ≤ 97 / 100) {env : Name → RV} {n : String}
    (hex : env ["x"] = .f x) (her : env [n] = .f r) :
    ∃ z, (Gen.recipStep n).denote (ieeeInterp (fmtOf b32) calls) env = .f z ∧ |1 - x * z| ≤ e ^ 2 + 6 * (fmtOf b32).eps := by
  have hF := FloatFmt.wide_fmtOf b32
  have hbb := hF.bias_ge.2
  have hε := FloatFmt.eps_pos (F := fmtOf b32)
  have hε' := FloatFmt.eps_le hF
  have htiny := FloatFmt.tiny_le hF
  have ht0 := FloatFmt.tiny_pos (F := fmtOf b32)
  have hbp : (2 : ℝ) ^ (fmtOf b32).bias = 2 * 2 ^ ((fmtOf b32).bias - 1) := by rw [← pow_succ']; congr 1; omega
  have h28 : (2 : ℝ) ^ 28 ≤ 2 ^ ((fmtOf b32).bias - 1) := pow_le_pow_right₀ (by norm_num) (by omega)
  have ht2 : (fmtOf b32).tiny * 2 ^ ((fmtOf b32).bias - 1) = 1 := by
    rw [FloatFmt.tiny, ← zpow_natCast (2 : ℝ), ← zpow_add₀ (by norm_num), show 1 - ((fmtOf b32).bias : ℤ) + (((fmtOf b32).bias - 1 : ℕ) : ℤ) = 0 by omega, zpow_zero]
  norm_num at htiny h28
  have hxp : 0 < |x| := ht0.trans_le h0
  have hu := abs_le.1 he
  have small := fun v : ℝ => rnd_small (b32 := b32) (v := v) (S := 1) (by linarith)
  generalize hFe : fmtOf b32 = F at *
  have hu1 : |x * r| ≤ 197 / 100 := by rw [abs_le]; constructor <;> linarith
  obtain ⟨u', hu'⟩ : ∃ u', u' = F.rnd (x * r) := ⟨_, rfl⟩
  have ru := small (x * r)
  rw [← hu'] at ru
  have hv : |2 - u'| ≤ 5 := by
    have := abs_le.1 ru
    rw [abs_le]; constructor <;> linarith
  obtain ⟨w, hw⟩ : ∃ w, w = F.rnd (2 - u') := ⟨_, rfl⟩
  have rnd1 : ∀ v : ℝ, |F.rnd v - v| ≤ F.eps * (|v| + 1 / 2 ^ 20) := fun v => (FloatFmt.rnd_err v).trans (mul_le_mul_of_nonneg_left (by norm_num; linarith) hε.le)
  obtain ⟨b5, hstep⟩ := recip_step_rounded hε.le hε' he he1 (by rw [hu']; exact rnd1 _) (by rw [hw]; exact rnd1 _ : |w - (2 - u')| ≤ _)
  have hp : (0 : ℝ) < 2 ^ (F.bias - 1) := by positivity
  have hrw : |r * w| ≤ 10001 / 10000 * 2 ^ (F.bias - 1) := by
    have h2 : F.tiny * |r * w| ≤ 10001 / 10000 := by
      refine (mul_le_mul_of_nonneg_right h0 (abs_nonneg _)).trans ?_
      rwa [← abs_mul, ← mul_assoc]
    calc |r * w| = F.tiny * 2 ^ (F.bias - 1) * |r * w| := by rw [ht2, one_mul]
      _ = F.tiny * |r * w| * 2 ^ (F.bias - 1) := by ring
      _ ≤ _ := mul_le_mul_of_nonneg_right h2 hp.le
  refine ⟨F.rnd (r * w), ?_, hstep _ ?_⟩
  · have n2 : (num "2.0").denote (ieeeInterp F calls) env = .f 2 := by rw [← hFe]; exact numIE_2
    simp [Gen.recipStep, hex, her, n2]
    rw [FloatFmt.rne_f hF.ok (by rw [hbp]; linarith : |x * r| ≤ 2 ^ F.bias), ← hu', binIE_sub, FloatFmt.rne_f hF.ok (by rw [hbp]; linarith : |2 - u'| ≤ 2 ^ F.bias), ← hw,
      binIE_mul, FloatFmt.rne_f hF.ok (by rw [hbp]; linarith)]
  · rw [mul_assoc, ← mul_sub, abs_mul, abs_mul]
    calc |x| * |F.rnd (r * w) - r * w| ≤ |x| * (F.eps * (|r * w| + F.tiny)) := mul_le_mul_of_nonneg_left (FloatFmt.rnd_err _) hxp.le
      _ = F.eps * (|x| * |r * w| + |x| * F.tiny) := by ring
      _ ≤ F.eps * (|x| * |r * w| + 1 / 2 ^ 20) := by
        have : |x| * F.tiny ≤ 12 * (1 / 268435456) := mul_le_mul h1 htiny ht0.le (by norm_num)
        refine mul_le_mul_of_nonneg_left ?_ hε.le
        norm_num at this ⊢
        linarith

/-- Three steps. -/
theorem recip_chain {E ε : ℝ} (hε : 0 ≤ ε) (hε' : ε ≤ 1 / 16777216) (h0 : 0 ≤ E) (h1 : E ≤ 961 / 1000) :
    E ^ 2 + 6 * ε ≤ 97 / 100 ∧ (E ^ 2 + 6 * ε) ^ 2 + 6 * ε ≤ 97 / 100 ∧ ((E ^ 2 + 6 * ε) ^ 2 + 6 * ε) ^ 2 + 6 * ε ≤ E ^ 8 + 40 * ε := by
  have a1 : E ^ 2 ≤ 9236 / 10000 := by nlinarith
  have a0 : 0 ≤ E ^ 2 := sq_nonneg E
  have b1 : (E ^ 2 + 6 * ε) ^ 2 ≤ E ^ 4 + 12 * ε := by
    have : (E ^ 2 + 6 * ε) ^ 2 = E ^ 4 + 12 * E ^ 2 * ε + 36 * ε * ε := by ring
    nlinarith
  have a4 : E ^ 4 ≤ 854 / 1000 := by nlinarith
  have a40 : 0 ≤ E ^ 4 := by positivity
  have b2 : ((E ^ 2 + 6 * ε) ^ 2 + 6 * ε) ^ 2 ≤ (E ^ 4 + 18 * ε) ^ 2 := by
    apply pow_le_pow_left₀ (by positivity); linarith
  have b3 : (E ^ 4 + 18 * ε) ^ 2 ≤ E ^ 8 + 34 * ε := by
    have : (E ^ 4 + 18 * ε) ^ 2 = E ^ 8 + 36 * E ^ 4 * ε + 324 * ε * ε := by ring
    nlinarith
  refine ⟨by linarith, by linarith, by linarith⟩

/-- **C74** `recip` in floats, for arguments up to `12`: the bound of C74 and forty rounding errors. -/
theorem C74_recip_ieee_partial (hg : g ["EXP2_ONE"] = .f ((fmtOf b32).bias * 2 ^ (fmtOf b32).mant)) (hc : LinkedIE (fmtOf b32) calls g Gen.recip_approx) {x : ℝ}
    (hx : (fmtOf b32).Repr x) (h0 : (fmtOf b32).tiny ≤ |x|) (h1 : |x| ≤ 12) :
    ∃ y, Gen.recip.apply (ieeeInterp (fmtOf b32) calls) g [.f x] = .f y ∧
      |1 - x * y| ≤ max (127 / 1000) (8 / 100 * |x| + 6 / 100000) ^ 8 + 40 * (fmtOf b32).eps := by
  have hε := FloatFmt.eps_pos (F := fmtOf b32)
  have hε' := eps_fmtOf b32
  norm_num at hε'
  obtain ⟨r, k1, hr, k2, k3⟩ := recip_approx_ieee (calls := calls) hg hx h0 h1
  obtain ⟨E, hE⟩ : ∃ E : ℝ, E = max (127 / 1000) (8 / 100 * |x| + 6 / 100000) := ⟨_, rfl⟩
  have hE1 : 127 / 1000 ≤ E := hE ▸ le_max_left _ _
  have hE2 : 8 / 100 * |x| + 6 / 100000 ≤ E := hE ▸ le_max_right _ _
  have hE3 : E ≤ 961 / 1000 := by rw [hE]; exact max_le (by norm_num) (by linarith)
  have hcall : calls "recip_approx" [.f x] = .f (if x < 0 then -|r| else |r|) := by
    rw [show calls "recip_approx" [.f x] = calls Gen.recip_approx.name [.f x] from rfl, hc, k1]
  obtain ⟨r0, hr0⟩ : ∃ r0 : ℝ, r0 = if x < 0 then -|r| else |r| := ⟨_, rfl⟩
  rw [← hr0] at hcall
  have hxr : x * r0 = |x| * r := by
    rw [hr0, abs_of_pos hr]
    split_ifs with hn
    · rw [abs_of_neg hn]; ring
    · rw [abs_of_nonneg (not_lt.1 hn)]
  have e0 : |1 - x * r0| ≤ E := by
    rw [hxr, abs_le]
    have := abs_nonneg x
    constructor <;> linarith
  obtain ⟨c1, c2, c3⟩ := recip_chain hε.le hε' (by linarith) hE3
  obtain ⟨r1, d1, e1⟩ := recip_step_ieee (b32 := b32) (calls := calls) h0 h1 e0 (by linarith) (env := envSet (envSet g "x" (.f x)) "r" (.f r0)) (n := "r") (by simp) (by simp)
  obtain ⟨r2, d2, e2⟩ := recip_step_ieee (b32 := b32) (calls := calls) h0 h1 e1 c1 (env := envSet (envSet (envSet g "x" (.f x)) "r" (.f r0)) "r1" (.f r1)) (n := "r1") (by simp) (by simp)
  obtain ⟨r3, d3, e3⟩ := recip_step_ieee (b32 := b32) (calls := calls) h0 h1 e2 c2 (env := envSet (envSet (envSet (envSet g "x" (.f x)) "r" (.f r0)) "r1" (.f r1)) "r2" (.f r2)) (n := "r2") (by simp) (by simp)
  refine ⟨r3, ?_, by rw [← hE]; exact e3.trans c3⟩
  simp only [Gen.recip, ofFty_apply, List.map, bindParams, denoteBlock_letT]
  rw [denote_app, ieee_call, denoteArgs_cons, denoteArgs_nil, denote_v, show envSet g "x" (RV.f x) ["x"] = .f x by simp, hcall, d1, d2, d3]
  simp

/-! ## `cbrt` -/

/-- The values of the two constants, read as floats. -/
def ThirdConstsIE (b32 : Bool) (calls : String → List RV → RV) (g : Name → RV) : Prop :=
  g ["ONE_THIRD"] = (Gen.ONE_THIRD b32).constExpr.denote (ieeeInterp (fmtOf b32) calls) g ∧
  g ["TWO_THIRDS"] = (Gen.TWO_THIRDS b32).constExpr.denote (ieeeInterp (fmtOf b32) calls) g

theorem flitIE_dec {F : FloatFmt} {env : Name → RV} {s sfx : String} {d : Dec} (h : parseDec s.toList = some d) :
    (Gen.flit s sfx).denote (ieeeInterp F calls) env = F.rne (d.val : ℝ) := by
  simp [Gen.flit, RExpr.denote, ieeeInterp, litIE, litRV, litValue, h]

theorem eps_f32 : (fmtOf true).eps = 1 / 2 ^ 24 := by
  rw [FloatFmt.eps, show -((fmtOf true).mant : ℤ) - 1 = -24 by decide]; norm_num

theorem ThirdConstsIE.get (h : ThirdConstsIE b32 calls g) : ∃ a b, g ["ONE_THIRD"] = .f a ∧ g ["TWO_THIRDS"] = .f b ∧
    |a - 1 / 3| ≤ 2 / 5 * (fmtOf b32).eps ∧ |b - 2 / 3| ≤ 3 / 4 * (fmtOf b32).eps := by
  have hF := FloatFmt.wide_fmtOf b32
  have ht := FloatFmt.tiny_le hF
  have hb := one_le_bias_pow b32
  norm_num at ht hb
  have key : ∀ q m : ℝ, 1 / 4 ≤ q → q ≤ 1 → ∀ B : ℝ, (fmtOf b32).eps * q + |q - m| ≤ B → (fmtOf b32).rne q = .f ((fmtOf b32).rnd q) ∧ |(fmtOf b32).rnd q - m| ≤ B := by
    intro q m h1 h2 B h3
    have ha : |q| = q := abs_of_pos (by linarith)
    refine ⟨FloatFmt.rne_f hF.ok (by rw [ha]; linarith), ?_⟩
    have e := FloatFmt.rnd_rel (F := fmtOf b32) (x := q) (by rw [ha]; linarith)
    rw [ha] at e
    exact (near_trans e le_rfl).trans h3
  obtain ⟨h1, h2⟩ := h
  cases b32 <;> simp only [RItem.constExpr, Gen.ONE_THIRD, Gen.TWO_THIRDS, Gen.constItem, if_true, if_false, Bool.false_eq_true] at h1 h2
  · rw [flitIE_dec (d := ⟨333333333333333333, 18⟩) rfl] at h1
    rw [flitIE_dec (d := ⟨666666666666666667, 18⟩) rfl] at h2
    obtain ⟨a1, a2⟩ := key ((Dec.val ⟨333333333333333333, 18⟩ : ℚ) : ℝ) (1 / 3) (by norm_num [Dec.val]) (by norm_num [Dec.val]) (2 / 5 * (fmtOf false).eps)
      (by rw [eps_f64]; norm_num [Dec.val, abs_of_pos, abs_of_neg])
    obtain ⟨b1, b2⟩ := key ((Dec.val ⟨666666666666666667, 18⟩ : ℚ) : ℝ) (2 / 3) (by norm_num [Dec.val]) (by norm_num [Dec.val]) (3 / 4 * (fmtOf false).eps)
      (by rw [eps_f64]; norm_num [Dec.val, abs_of_pos, abs_of_neg])
    exact ⟨_, _, h1.trans a1, h2.trans b1, a2, b2⟩
  · rw [flitIE_dec (d := ⟨33333333, 8⟩) rfl] at h1
    rw [flitIE_dec (d := ⟨66666667, 8⟩) rfl] at h2
    obtain ⟨a1, a2⟩ := key ((Dec.val ⟨33333333, 8⟩ : ℚ) : ℝ) (1 / 3) (by norm_num [Dec.val]) (by norm_num [Dec.val]) (2 / 5 * (fmtOf true).eps)
      (by rw [eps_f32]; norm_num [Dec.val, abs_of_pos, abs_of_neg])
    obtain ⟨b1, b2⟩ := key ((Dec.val ⟨66666667, 8⟩ : ℚ) : ℝ) (2 / 3) (by norm_num [Dec.val]) (by norm_num [Dec.val]) (3 / 4 * (fmtOf true).eps)
      (by rw [eps_f32]; norm_num [Dec.val, abs_of_pos, abs_of_neg])
    exact ⟨_, _, h1.trans a1, h2.trans b1, a2, b2⟩

/-- The rounded operations of one step, divided through by the root. -/
theorem cbrt_step_near {F : FloatFmt} {c r e r2 r3 d k1 k2 q z : ℝ} (hc : 0 < c) (hε : 0 < F.eps) (hε' : F.eps ≤ 1 / 2 ^ 21) (t3 : F.tiny ≤ c ^ 3) (t2 : F.tiny ≤ c ^ 2)
    (t1 : F.tiny ≤ c) (he : |r - c| ≤ e * c) (he8 : e ≤ 1 / 8) (h2 : r2 = F.rnd (r * r)) (h3 : r3 = F.rnd (r2 * r)) (hd : d = F.rnd (c ^ 3 - r3))
    (hk1 : k1 = F.rnd (3 * r)) (hk2 : k2 = F.rnd (k1 * r)) (hk : k2 ≠ 0) (hq : q = F.rnd (d / k2)) (hz : z = F.rnd (r + q)) :
    |z - c| ≤ (3 / 2 * e ^ 2 + 8 * F.eps) * c := by
  have hc2 : 0 < c ^ 2 := by positivity
  have hc3 : 0 < c ^ 3 := by positivity
  have hrc : |r / c - 1| ≤ e := by
    rw [show r / c - 1 = (r - c) / c by field_simp, abs_div, abs_of_pos hc, div_le_iff₀ hc]; exact he
  have a2 := norm_round hc2 hε.le (FloatFmt.rnd_err (F := F) (r * r)) t2
  have a3 := norm_round hc3 hε.le (FloatFmt.rnd_err (F := F) (r2 * r)) t3
  have ad := norm_round hc3 hε.le (FloatFmt.rnd_err (F := F) (c ^ 3 - r3)) t3
  have ak1 := norm_round hc hε.le (FloatFmt.rnd_err (F := F) (3 * r)) t1
  have ak2 := norm_round hc2 hε.le (FloatFmt.rnd_err (F := F) (k1 * r)) t2
  have aq := norm_round hc hε.le (FloatFmt.rnd_err (F := F) (d / k2)) t1
  have az := norm_round hc hε.le (FloatFmt.rnd_err (F := F) (r + q)) t1
  rw [← h2, show r * r / c ^ 2 = r / c * (r / c) by field_simp] at a2
  rw [← h3, show r2 * r / c ^ 3 = r2 / c ^ 2 * (r / c) by field_simp] at a3
  rw [← hd, show (c ^ 3 - r3) / c ^ 3 = 1 - r3 / c ^ 3 by field_simp] at ad
  rw [← hk1, show 3 * r / c = 3 * (r / c) by ring] at ak1
  rw [← hk2, show k1 * r / c ^ 2 = k1 / c * (r / c) by field_simp] at ak2
  rw [← hq, show d / k2 / c = d / c ^ 3 / (k2 / c ^ 2) by field_simp] at aq
  rw [← hz, show (r + q) / c = r / c + q / c by ring] at az
  have h := (cbrt_step_rounded hε.le hε' hrc he8 a2 a3 ad ak1 ak2 aq az).1
  rw [show z / c - 1 = (z - c) / c by field_simp, abs_div, abs_of_pos hc, div_le_iff₀ hc] at h
  exact h

/-- One step of `cbrt`. -/
theorem cbrt_step_ieee {x c r e : ℝ} (hc : 0 < c) (hxc : |x| = c ^ 3) (h0 : (fmtOf b32).tiny ≤ |x|) (h1 : |x| ≤ 2 ^ ((fmtOf b32).bias - 1))
    (he : |r - c| ≤ e * c) (he8 : e ≤ 1 / 8) {env : Name → RV} (hex : env ["x"] = .f x) (her : env ["r"] = .f r) :
    ∃ z, Gen.cbrtStep.denote (ieeeInterp (fmtOf b32) calls) env = .f z ∧ |z - c| ≤ (3 / 2 * e ^ 2 + 8 * (fmtOf b32).eps) * c := by
  have hF := FloatFmt.wide_fmtOf b32
  have hb := hF.bias_ge.2
  have hbp : (2 : ℝ) ^ (fmtOf b32).bias = 2 * 2 ^ ((fmtOf b32).bias - 1) := by rw [← pow_succ']; congr 1; omega
  have h28 : (2 : ℝ) ^ 28 ≤ 2 ^ ((fmtOf b32).bias - 1) := pow_le_pow_right₀ (by norm_num) (by omega)
  have hε := FloatFmt.eps_pos (F := fmtOf b32)
  have hε' := FloatFmt.eps_le hF
  have htiny := FloatFmt.tiny_le hF
  have ht0 := FloatFmt.tiny_pos (F := fmtOf b32)
  norm_num at h28 htiny
  have hc3 : 0 < c ^ 3 := by positivity
  have hc2 : 0 < c ^ 2 := by positivity
  rw [hxc] at h0 h1
  have ht2 : (fmtOf b32).tiny ≤ c ^ 2 := by
    rcases le_total c 1 with h | h
    · exact h0.trans (pow_le_pow_of_le_one hc.le h (by norm_num))
    · have : 1 ≤ c ^ 2 := one_le_pow₀ h
      linarith
  have ht1 : (fmtOf b32).tiny ≤ c := by
    rcases le_total c 1 with h | h
    · refine h0.trans ?_
      calc c ^ 3 ≤ c ^ 1 := pow_le_pow_of_le_one hc.le h (by norm_num)
        _ = c := pow_one c
    · linarith
  have hc5 : 5 * c ^ 2 ≤ 2 ^ ((fmtOf b32).bias - 1) := by
    rcases le_total c 5 with h | h
    · nlinarith
    · refine le_trans ?_ h1; nlinarith
  have hc4 : 4 * c ≤ 2 ^ ((fmtOf b32).bias - 1) := by
    rcases le_total c 1 with h | h
    · linarith
    · nlinarith
  have small := fun (v S : ℝ) (h : (fmtOf b32).tiny ≤ S) => rnd_small (b32 := b32) (v := v) h
  have n3 : (num "3.0").denote (ieeeInterp (fmtOf b32) calls) env = .f 3 := numIE_3
  generalize fmtOf b32 = F at *
  obtain ⟨H, hH⟩ : ∃ H : ℝ, H = 2 ^ (F.bias - 1) := ⟨_, rfl⟩
  rw [← hH] at h1 hbp h28 hc5 hc4
  have fin : ∀ w : ℝ, |w| ≤ 2 * H → F.rne w = .f (F.rnd w) := fun w hw => FloatFmt.rne_f hF.ok (by rw [hbp]; exact hw)
  have hec : e * c ≤ 1 / 8 * c := mul_le_mul_of_nonneg_right he8 hc.le
  have hr := abs_le.1 he
  have hr1 : 7 / 8 * c ≤ r := by linarith
  have hr2 : r ≤ 9 / 8 * c := by linarith
  have hrp : 0 < r := by linarith
  have nonneg : ∀ w : ℝ, 0 ≤ w → 0 ≤ F.rnd w := fun w hw => by
    have := FloatFmt.rnd_mono (F := F) hw
    rwa [FloatFmt.rnd_zero] at this
  -- r2 = r * r
  have v2 : |r * r| ≤ 13 / 10 * c ^ 2 := by
    rw [abs_of_pos (by positivity)]
    calc r * r ≤ (9 / 8 * c) * (9 / 8 * c) := mul_le_mul hr2 hr2 hrp.le (by positivity)
      _ = 81 / 64 * c ^ 2 := by ring
      _ ≤ _ := mul_le_mul_of_nonneg_right (by norm_num) hc2.le
  have s2 := small (r * r) _ ht2
  have p2 := nonneg (r * r) (by positivity)
  obtain ⟨r2, h2⟩ : ∃ r2, r2 = F.rnd (r * r) := ⟨_, rfl⟩
  rw [← h2] at s2 p2
  rw [abs_of_nonneg p2] at s2
  -- r3 = r2 * r
  have v3 : r2 * r ≤ 16 / 10 * c ^ 3 := by
    calc r2 * r ≤ (1314 / 1000 * c ^ 2) * (9 / 8 * c) := mul_le_mul (by linarith) hr2 hrp.le (by positivity)
      _ = 1314 * 9 / 8000 * c ^ 3 := by ring
      _ ≤ _ := mul_le_mul_of_nonneg_right (by norm_num) hc3.le
  have p3' : 0 ≤ r2 * r := mul_nonneg p2 hrp.le
  have s3 := small (r2 * r) _ h0
  have p3 := nonneg (r2 * r) p3'
  obtain ⟨r3, h3⟩ : ∃ r3, r3 = F.rnd (r2 * r) := ⟨_, rfl⟩
  rw [← h3] at s3 p3
  rw [abs_of_nonneg p3, abs_of_nonneg p3'] at s3
  -- d
  have vd : |c ^ 3 - r3| ≤ 17 / 10 * c ^ 3 := by rw [abs_le]; constructor <;> linarith
  have sd := small (c ^ 3 - r3) _ h0
  obtain ⟨d, hd⟩ : ∃ d, d = F.rnd (c ^ 3 - r3) := ⟨_, rfl⟩
  rw [← hd] at sd
  -- k1, k2
  have vk1 : |3 * r| ≤ 34 / 10 * c := by rw [abs_of_pos (by positivity)]; linarith
  have sk1 := small (3 * r) _ ht1
  have pk1 := nonneg (3 * r) (by positivity)
  have ek1 := FloatFmt.rnd_err (F := F) (3 * r)
  obtain ⟨k1, hk1⟩ : ∃ k1, k1 = F.rnd (3 * r) := ⟨_, rfl⟩
  rw [← hk1] at sk1 pk1 ek1
  rw [abs_of_nonneg pk1] at sk1
  have lk1 : 26 / 10 * c ≤ k1 := by
    have e := (abs_le.1 ek1).1
    have : F.eps * (|3 * r| + F.tiny) ≤ 1 / 2 ^ 21 * (5 * c) := mul_le_mul hε' (by linarith) (by positivity) (by norm_num)
    rw [show (1 : ℝ) / 2 ^ 21 = 1 / 2097152 by norm_num] at this
    linarith
  have pk2' : 0 ≤ k1 * r := mul_nonneg pk1 hrp.le
  have vk2 : k1 * r ≤ 4 * c ^ 2 := by
    calc k1 * r ≤ (3435 / 1000 * c) * (9 / 8 * c) := mul_le_mul (by linarith) hr2 hrp.le (by positivity)
      _ = 3435 * 9 / 8000 * c ^ 2 := by ring
      _ ≤ _ := mul_le_mul_of_nonneg_right (by norm_num) hc2.le
  have lk2' : 227 / 100 * c ^ 2 ≤ k1 * r := by
    calc 227 / 100 * c ^ 2 ≤ 26 * 7 / 80 * c ^ 2 := mul_le_mul_of_nonneg_right (by norm_num) hc2.le
      _ = (26 / 10 * c) * (7 / 8 * c) := by ring
      _ ≤ _ := mul_le_mul lk1 hr1 (by positivity) pk1
  have ek2 := FloatFmt.rnd_err (F := F) (k1 * r)
  obtain ⟨k2, hk2⟩ : ∃ k2, k2 = F.rnd (k1 * r) := ⟨_, rfl⟩
  rw [← hk2, abs_of_nonneg pk2'] at ek2
  have lk2 : 2 * c ^ 2 ≤ k2 := by
    have e := (abs_le.1 ek2).1
    have : F.eps * (k1 * r + F.tiny) ≤ 1 / 2 ^ 21 * (5 * c ^ 2) := mul_le_mul hε' (by linarith) (by positivity) (by norm_num)
    rw [show (1 : ℝ) / 2 ^ 21 = 1 / 2097152 by norm_num] at this
    linarith
  have pk2 : 0 < k2 := by linarith
  -- q
  have vq : |d / k2| ≤ c := by
    rw [abs_div, abs_of_pos pk2, div_le_iff₀ pk2]
    have h5 : c * (2 * c ^ 2) ≤ c * k2 := mul_le_mul_of_nonneg_left lk2 hc.le
    have h6 : c * (2 * c ^ 2) = 2 * c ^ 3 := by ring
    linarith
  have sq := small (d / k2) _ ht1
  obtain ⟨q, hq⟩ : ∃ q, q = F.rnd (d / k2) := ⟨_, rfl⟩
  rw [← hq] at sq
  have vz : |r + q| ≤ 3 * c := by
    refine (abs_add_le _ _).trans ?_
    rw [abs_of_pos hrp]; linarith
  refine ⟨F.rnd (r + q), ?_, ?_⟩
  · simp [Gen.cbrtStep, hex, her, n3]
    rw [fin (r * r) (by linarith), ← h2, binIE_mul, fin (r2 * r) (by rw [abs_of_nonneg p3']; linarith), ← h3, hxc, binIE_sub, fin (c ^ 3 - r3) (by linarith), ← hd,
      fin (3 * r) (by linarith), ← hk1, binIE_mul, fin (k1 * r) (by rw [abs_of_nonneg pk2']; linarith), ← hk2, binIE_div _ pk2.ne', fin (d / k2) (by linarith), ← hq,
      binIE_add, fin (r + q) (by linarith)]
  · exact cbrt_step_near hc hε hε' h0 ht2 ht1 he he8 h2 h3 hd hk1 hk2 pk2.ne' hq rfl

/-- Four steps from an estimate within 6.16 percent. -/
theorem cbrt_chain {ε e1 e2 e3 e4 : ℝ} (hε : 0 ≤ ε) (hε' : ε ≤ 1 / 16777216) (h1 : e1 = 3 / 2 * (616 / 10000) ^ 2 + 8 * ε) (h2 : e2 = 3 / 2 * e1 ^ 2 + 8 * ε)
    (h3 : e3 = 3 / 2 * e2 ^ 2 + 8 * ε) (h4 : e4 = 3 / 2 * e3 ^ 2 + 8 * ε) :
    e1 ≤ 1 / 8 ∧ e2 ≤ 1 / 8 ∧ e3 ≤ 1 / 8 ∧ e4 ≤ 9 * ε + 3 / 10 ^ 17 := by
  have a1 : e1 ≤ 56928 / 10000000 := by rw [h1]; norm_num; linarith
  have p1 : 0 ≤ e1 := by rw [h1]; positivity
  have a1s : e1 ^ 2 ≤ (569184 / 100000000) ^ 2 + 1 / 10 * ε := by
    rw [h1]
    have : (3 / 2 * (616 / 10000) ^ 2 + 8 * ε) ^ 2 = (3 / 2 * (616 / 10000) ^ 2) ^ 2 + (24 * (616 / 10000) ^ 2) * ε + 64 * ε * ε := by ring
    rw [this]
    norm_num
    nlinarith
  have a2 : e2 ≤ 48596 / 1000000000 + 9 * ε := by rw [h2]; norm_num at a1s ⊢; linarith
  have p2 : 0 ≤ e2 := by rw [h2]; positivity
  have a2s : e2 ^ 2 ≤ (48596 / 1000000000 + 9 * ε) ^ 2 := pow_le_pow_left₀ p2 a2 2
  have a3 : e3 ≤ 35424 / 10 ^ 13 + 9 * ε := by
    rw [h3]
    have : ((48596 / 1000000000 : ℝ) + 9 * ε) ^ 2 = (48596 / 1000000000) ^ 2 + 18 * (48596 / 1000000000) * ε + 81 * ε * ε := by ring
    norm_num at a2s this ⊢
    nlinarith
  have p3 : 0 ≤ e3 := by rw [h3]; positivity
  have a3s : e3 ^ 2 ≤ (35424 / 10 ^ 13 + 9 * ε) ^ 2 := pow_le_pow_left₀ p3 a3 2
  have a4 : e4 ≤ 9 * ε + 3 / 10 ^ 17 := by
    rw [h4]
    have : ((35424 / 10 ^ 13 : ℝ) + 9 * ε) ^ 2 = (35424 / 10 ^ 13) ^ 2 + 18 * (35424 / 10 ^ 13) * ε + 81 * ε * ε := by ring
    norm_num at a3s this ⊢
    nlinarith
  refine ⟨by linarith, by linarith, ?_, a4⟩
  norm_num at a3; linarith

/-- **C74** `cbrt` in floats: nine rounding errors for every normal argument of either sign, except in the two largest binades. -/
theorem C74_cbrt_ieee (hg : g ["EXP2_ONE"] = .f ((fmtOf b32).bias * 2 ^ (fmtOf b32).mant)) (h3 : ThirdConstsIE b32 calls g) {x c : ℝ} (hx : (fmtOf b32).Repr x)
    (h0 : (fmtOf b32).tiny ≤ |x|) (h1 : |x| ≤ 2 ^ ((fmtOf b32).bias - 1)) (hc : 0 < c) (hxc : |x| = c ^ 3) :
    ∃ y, Gen.cbrt.apply (ieeeInterp (fmtOf b32) calls) g [.f x] = .f y ∧ |y - (if x < 0 then -c else c)| ≤ (9 * (fmtOf b32).eps + 3 / 10 ^ 17) * c := by
  have hF := FloatFmt.wide_fmtOf b32
  have hbb := hF.bias_ge.2
  have hx' : (fmtOf b32).Repr |x| := by rcases abs_choice x with h | h <;> rw [h]; exacts [hx, hx.neg]
  have h1' : |x| < 2 ^ ((fmtOf b32).bias + 1) := h1.trans_lt (pow_lt_pow_right₀ (by norm_num) (by omega))
  obtain ⟨r1, r2⟩ := pattern_range hF.ok hx' h0 h1'
  have hm : (0 : ℝ) < 2 ^ (fmtOf b32).mant := by positivity
  have hb : (29 : ℝ) ≤ (fmtOf b32).bias := by exact_mod_cast hbb
  have hbm : (29 : ℝ) * 2 ^ (fmtOf b32).mant ≤ (fmtOf b32).bias * 2 ^ (fmtOf b32).mant := mul_le_mul_of_nonneg_right hb hm.le
  have hε := FloatFmt.eps_pos (F := fmtOf b32)
  have hε' := eps_fmtOf b32
  norm_num at hε'
  obtain ⟨a, b, ha, hb', hea, heb⟩ := h3.get
  have ha' := abs_le.1 hea
  have hb'' := abs_le.1 heb
  obtain ⟨r, L, k1, -, k5, k6, k7, k8⟩ := seed_ieee (b32 := b32) (calls := calls) (env := envSet g "x" (.f x)) (x := |x|) (a := a) (b := b) (p := 1 / 3)
    (e := .paren (.method (.paren (as (.method (.method (v "x") "abs" []) "to_bits" []) "fty")) "mul_add" [v "ONE_THIRD", v "EXP2_ONE" * v "TWO_THIRDS"]))
    hx' h0 h1' (by rw [abs_le]; constructor <;> linarith) hea (by rw [abs_le]; constructor <;> linarith) (by rw [show b - (1 - 1 / 3) = b - 2 / 3 by ring]; exact heb)
    (by linarith) (by linarith)
    (by
      intro N' C' hN hC
      simp [ha, hb', hg, hN, hC])
  rw [hxc] at k5 k6
  have e0 := cbrt_band hc k5 k6 k7 k8
  obtain ⟨e1, he1⟩ : ∃ e1 : ℝ, e1 = 3 / 2 * (616 / 10000) ^ 2 + 8 * (fmtOf b32).eps := ⟨_, rfl⟩
  obtain ⟨e2, he2⟩ : ∃ e2 : ℝ, e2 = 3 / 2 * e1 ^ 2 + 8 * (fmtOf b32).eps := ⟨_, rfl⟩
  obtain ⟨e3, he3⟩ : ∃ e3 : ℝ, e3 = 3 / 2 * e2 ^ 2 + 8 * (fmtOf b32).eps := ⟨_, rfl⟩
  obtain ⟨e4, he4⟩ : ∃ e4 : ℝ, e4 = 3 / 2 * e3 ^ 2 + 8 * (fmtOf b32).eps := ⟨_, rfl⟩
  obtain ⟨c1, c2, c3, c4⟩ := cbrt_chain hε.le hε' he1 he2 he3 he4
  obtain ⟨q1, d1, f1⟩ := cbrt_step_ieee (b32 := b32) (calls := calls) hc hxc h0 h1 e0 (by norm_num) (env := envSet (envSet g "x" (.f x)) "r" (.f r)) (by simp) (by simp)
  rw [← he1] at f1
  obtain ⟨q2, d2, f2⟩ := cbrt_step_ieee (b32 := b32) (calls := calls) hc hxc h0 h1 f1 c1 (env := envSet (envSet (envSet g "x" (.f x)) "r" (.f r)) "r" (.f q1)) (by simp) (by simp)
  rw [← he2] at f2
  obtain ⟨q3, d3, f3⟩ := cbrt_step_ieee (b32 := b32) (calls := calls) hc hxc h0 h1 f2 c2 (env := envSet (envSet (envSet (envSet g "x" (.f x)) "r" (.f r)) "r" (.f q1)) "r" (.f q2)) (by simp) (by simp)
  rw [← he3] at f3
  obtain ⟨q4, d4, f4⟩ := cbrt_step_ieee (b32 := b32) (calls := calls) hc hxc h0 h1 f3 c3 (env := envSet (envSet (envSet (envSet (envSet g "x" (.f x)) "r" (.f r)) "r" (.f q1)) "r" (.f q2)) "r" (.f q3)) (by simp) (by simp)
  rw [← he4] at f4
  have f5 := f4.trans (mul_le_mul_of_nonneg_right c4 hc.le)
  have hq4 : 0 < q4 := by
    have h := (abs_le.1 f5).1
    have : (9 * (fmtOf b32).eps + 3 / 10 ^ 17) * c ≤ 1 / 2 * c := mul_le_mul_of_nonneg_right (by norm_num; linarith) hc.le
    linarith
  refine ⟨if x < 0 then -q4 else q4, ?_, ?_⟩
  · simp only [Gen.cbrt, ofFty_apply, List.map, bindParams, denoteBlock_letT]
    rw [k1, d1, d2, d3, d4]
    simp [abs_of_pos hq4]
  · split_ifs
    · rwa [show -q4 - -c = -(q4 - c) by ring, abs_neg]
    · exact f5

/-! ## Examples -/

/-- The constants as the generated file declares them. -/
noncomputable def seedEnvIE (b32 : Bool) : Name → RV
  | ["ONE_THIRD"] => (Gen.ONE_THIRD b32).constExpr.denote (ieeeInterp (fmtOf b32) fun _ _ => .junk) fun _ => .junk
  | ["TWO_THIRDS"] => (Gen.TWO_THIRDS b32).constExpr.denote (ieeeInterp (fmtOf b32) fun _ _ => .junk) fun _ => .junk
  | n => demoBits (fmtOf b32) n

noncomputable def seedCallsIE (b32 : Bool) (name : String) (args : List RV) : RV :=
  if name = "sqrt_approx" then Gen.sqrt_approx.apply (ieeeInterp (fmtOf b32) fun _ _ => .junk) (seedEnvIE b32) args
  else Gen.recip_approx.apply (ieeeInterp (fmtOf b32) fun _ _ => .junk) (seedEnvIE b32) args

theorem fromBits_callsIE (F : FloatFmt) (c₁ c₂ : String → List RV → RV) (a : RV) :
    (ieeeInterp F c₁).call ["fty", "from_bits"] [a] = (ieeeInterp F c₂).call ["fty", "from_bits"] [a] := by
  cases a <;> rfl

theorem powerScale_callsIE (F : FloatFmt) (c : String → List RV → RV) (g : Name → RV) (args : List RV) :
    Gen.sqrt_approx.apply (ieeeInterp F fun _ _ => .junk) g args = Gen.sqrt_approx.apply (ieeeInterp F c) g args ∧
    Gen.recip_approx.apply (ieeeInterp F fun _ _ => .junk) g args = Gen.recip_approx.apply (ieeeInterp F c) g args := by
  constructor <;> simp only [Gen.sqrt_approx, Gen.recip_approx, Gen.powerScale, ofFty_apply, denoteBlock_letT, denote_fromBits, fromBits_callsIE F (fun _ _ => .junk) c] <;> rfl

theorem seedCallsIE_sqrt (b32 : Bool) : LinkedIE (fmtOf b32) (seedCallsIE b32) (seedEnvIE b32) Gen.sqrt_approx := by
  intro args
  simp only [seedCallsIE, show Gen.sqrt_approx.name = "sqrt_approx" from rfl, if_true]
  exact (powerScale_callsIE _ _ _ _).1

theorem seedCallsIE_recip (b32 : Bool) : LinkedIE (fmtOf b32) (seedCallsIE b32) (seedEnvIE b32) Gen.recip_approx := by
  intro args
  simp only [seedCallsIE, show Gen.recip_approx.name = "recip_approx" from rfl, if_neg (show "recip_approx" ≠ "sqrt_approx" by decide)]
  exact (powerScale_callsIE _ _ _ _).2

theorem seedEnvIE_thirds (b32 : Bool) : ThirdConstsIE b32 (seedCallsIE b32) (seedEnvIE b32) := by
  cases b32 <;> exact ⟨rfl, rfl⟩

/-- `sqrt(2)` in floats. -/
example (b32 : Bool) : ∃ y, Gen.sqrt.apply (ieeeInterp (fmtOf b32) (seedCallsIE b32)) (seedEnvIE b32) [.f 2] = .f y ∧ y - √2 ≤ 12 / 1000 * √2 := by
  have hF := FloatFmt.wide_fmtOf b32
  have hb := hF.bias_ge.2
  have hr : (fmtOf b32).Repr 2 := by have := FloatFmt.repr_eighths hF 16 (by norm_num); norm_num at this; exact this
  have hpow : (2 : ℝ) ^ 1 ≤ 2 ^ ((fmtOf b32).bias - 1) := pow_le_pow_right₀ (by norm_num) (by omega)
  obtain ⟨y, h1, -, h3⟩ := C74_sqrt_ieee_partial (g := seedEnvIE b32) rfl (seedCallsIE_sqrt b32) hr (by norm_num) (by norm_num at hpow; linarith)
  exact ⟨y, h1, h3⟩

/-- `sqrt(1)` in floats. -/
example (b32 : Bool) : ∃ y, Gen.sqrt.apply (ieeeInterp (fmtOf b32) (seedCallsIE b32)) (seedEnvIE b32) [.f 1] = .f y ∧ 10001 / 10000 ≤ y := by
  have hF := FloatFmt.wide_fmtOf b32
  have hr : (fmtOf b32).Repr 1 := by have := FloatFmt.repr_eighths hF 8 (by norm_num); norm_num at this; exact this
  have h := C74_sqrt_ieee_wrong (g := seedEnvIE b32) rfl (seedCallsIE_sqrt b32) hr (by norm_num) le_rfl
  rwa [Real.sqrt_one, mul_one] at h

/-- `recip(-1.5)` in `f64`: single precision at best. -/
example : ∃ y, Gen.recip.apply (ieeeInterp (fmtOf false) (seedCallsIE false)) (seedEnvIE false) [.f (-3 / 2)] = .f y ∧ |1 - -3 / 2 * y| ≤ 7 / 10 ^ 8 := by
  have hF := FloatFmt.wide_fmtOf false
  have ht := FloatFmt.tiny_le hF
  have hr : (fmtOf false).Repr (-3 / 2) := by have := FloatFmt.repr_eighths hF (-12) (by norm_num); norm_num at this; norm_num; exact this
  have ha : |(-3 / 2 : ℝ)| = 3 / 2 := by norm_num
  obtain ⟨y, h1, h2⟩ := C74_recip_ieee_partial (g := seedEnvIE false) rfl (seedCallsIE_recip false) hr (by rw [ha]; norm_num at ht; linarith) (by rw [ha]; norm_num)
  refine ⟨y, h1, h2.trans ?_⟩
  rw [ha, eps_f64, max_eq_left (by norm_num)]
  norm_num

/-- `cbrt(-27)` is near `-3`. -/
example : ∃ y, Gen.cbrt.apply (ieeeInterp (fmtOf false) (seedCallsIE false)) (seedEnvIE false) [.f (-27)] = .f y ∧ |y - -3| ≤ 4 / 10 ^ 15 := by
  have hF := FloatFmt.wide_fmtOf false
  have hb := hF.bias_ge.2
  have ht := FloatFmt.tiny_le hF
  have hr : (fmtOf false).Repr (-27) := by have := FloatFmt.repr_eighths hF (-216) (by norm_num); norm_num at this; exact this
  have hpow : (2 : ℝ) ^ 5 ≤ 2 ^ ((fmtOf false).bias - 1) := pow_le_pow_right₀ (by norm_num) (by omega)
  have ha : |(-27 : ℝ)| = 27 := by norm_num
  obtain ⟨y, h1, h2⟩ := C74_cbrt_ieee (c := 3) (g := seedEnvIE false) rfl (seedEnvIE_thirds false) hr (by rw [ha]; norm_num at ht; linarith) (by rw [ha]; norm_num at hpow; linarith)
    (by norm_num) (by norm_num)
  rw [if_pos (by norm_num)] at h2
  refine ⟨y, h1, h2.trans ?_⟩
  rw [eps_f64]
  norm_num

end
end Verif
