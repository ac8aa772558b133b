import Verif.Props.IeeeSymmetry
import Verif.Props.IeeeSpecialExamples

/-!
# C110: the generated `recip` and `cbrt` are exactly odd

The seed of either function is found from the size of the argument and the sign is put back with `copysign`.  The steps of `cbrt` use the size alone, those of
`recip` commute with negation.  So both functions are exactly odd for every float but zero, also for the subnormal numbers, for which the seed is far off.
-/

namespace Verif
open RExpr
section
variable {b32 : Bool} {calls : String → List RV → RV} {g : Name → RV}

theorem absIE_neg {F : FloatFmt} {a : RV} (ha : a.IsFloat) : methIE F "abs" (unRV .neg a) [] = methIE F "abs" a [] := by
  cases ha with
  | f x => show RV.f |(-x)| = RV.f |x|; rw [abs_neg]
  | inf s => rfl
  | nan => rfl

theorem copysignIE_neg {F : FloatFmt} {a r : RV} (ha : a.IsFloat) (h0 : a ≠ .f 0) (hn : a ≠ .nan) (hr : r.IsFloat) :
    methIE F "copysign" r [unRV .neg a] = unRV .neg (methIE F "copysign" r [a]) := by
  cases hr with
  | nan => rfl
  | f r =>
    cases ha with
    | nan => exact absurd rfl hn
    | inf s => cases s <;> simp [methIE, unRV]
    | f x =>
      have hx : x ≠ 0 := fun h => h0 (by rw [h])
      show RV.f (if -x < 0 then -|r| else |r|) = RV.f (-(if x < 0 then -|r| else |r|))
      rcases lt_or_gt_of_ne hx with h | h
      · rw [if_neg (by linarith), if_pos h, neg_neg]
      · rw [if_pos (by linarith), if_neg (by linarith)]
  | inf s =>
    cases ha with
    | nan => exact absurd rfl hn
    | inf s => rfl
    | f x =>
      have hx : x ≠ 0 := fun h => h0 (by rw [h])
      show RV.inf (decide (-x < 0)) = RV.inf (!decide (x < 0))
      rcases lt_or_gt_of_ne hx with h | h
      · simp [h, h.le]
      · simp [h, h.le]

theorem copysignIE_isFloat {F : FloatFmt} {a r : RV} (ha : a.IsFloat) (hr : r.IsFloat) : (methIE F "copysign" r [a]).IsFloat := by
  cases hr <;> cases ha <;> constructor

/-- **C110** Generated `cbrt` is odd. -/
theorem C110_cbrt (h1 : (g ["EXP2_ONE"]).IsFloat) (h2 : (g ["ONE_THIRD"]).IsFloat) (h3 : (g ["TWO_THIRDS"]).IsFloat) {a : RV} (ha : a.IsFloat) (h0 : a ≠ .f 0) :
    Gen.cbrt.apply (ieeeInterp (fmtOf b32) calls) g [unRV .neg a] = unRV .neg (Gen.cbrt.apply (ieeeInterp (fmtOf b32) calls) g [a]) := by
  by_cases hn : a = .nan
  · rw [hn, show unRV .neg .nan = .nan from rfl, C88_cbrt h1 h2 h3]; rfl
  have hA : (methIE (fmtOf b32) "abs" a []).IsFloat := by cases ha <;> constructor
  have key : ∃ R : RV → RV, (R (methIE (fmtOf b32) "abs" a [])).IsFloat ∧ ∀ x : RV, Gen.cbrt.apply (ieeeInterp (fmtOf b32) calls) g [x] = methIE (fmtOf b32) "copysign" (R (methIE (fmtOf b32) "abs" x [])) [x] := by
    refine ⟨fun z => cbrtStepIE (fmtOf b32) z (cbrtStepIE (fmtOf b32) z (cbrtStepIE (fmtOf b32) z (cbrtStepIE (fmtOf b32) z
      ((fromBits (as (.paren (.method (.paren (as (.method (v "x") "to_bits" []) "fty")) "mul_add" [v "ONE_THIRD", v "EXP2_ONE" * v "TWO_THIRDS"])) "uty")).denote
        (ieeeInterp (fmtOf b32) calls) (envSet g "x" z))))), ?_, fun x => ?_⟩
    · have hs : ∀ r : RV, r.IsFloat → (cbrtStepIE (fmtOf b32) (methIE (fmtOf b32) "abs" a []) r).IsFloat := fun r hr =>
        addIE_isFloat hr (divIE_isFloat (subIE_isFloat hA (mulIE_isFloat (mulIE_isFloat hr hr) hr)) (mulIE_isFloat (mulIE_isFloat (.f _) hr) hr))
      refine hs _ (hs _ (hs _ (hs _ (fromBits_isFloat ?_))))
      simp only [denote_paren, denote_method, denote_as, denote_mul, denoteArgs_cons, denoteArgs_nil, denote_v, ieee_cast, ieee_meth, ieee_bin,
        show ∀ x, envSet g "x" x ["x"] = x by simp, show ∀ x, envSet g "x" x ["EXP2_ONE"] = g ["EXP2_ONE"] by simp, show ∀ x, envSet g "x" x ["ONE_THIRD"] = g ["ONE_THIRD"] by simp,
        show ∀ x, envSet g "x" x ["TWO_THIRDS"] = g ["TWO_THIRDS"] by simp]
      refine mul_addIE_isFloat ?_ h2 (mulIE_isFloat h1 h3)
      generalize methIE (fmtOf b32) "abs" a [] = z at hA
      cases hA <;> exact FloatFmt.rne_isFloat _
    · simp only [Gen.cbrt, ofFty_apply, List.map, bindParams, denoteBlock_letT]
      simp [Gen.cbrtStep, cbrtStepIE, numIE_3]
  obtain ⟨R, hR, hk⟩ := key
  rw [hk, hk, absIE_neg ha, copysignIE_neg ha h0 hn hR]

theorem recip_approx_neg (hg : (g ["EXP2_ONE"]).IsFloat) {a : RV} (ha : a.IsFloat) (h0 : a ≠ .f 0) (hn : a ≠ .nan) :
    (Gen.recip_approx.apply (ieeeInterp (fmtOf b32) calls) g [a]).IsFloat ∧
    Gen.recip_approx.apply (ieeeInterp (fmtOf b32) calls) g [unRV .neg a] = unRV .neg (Gen.recip_approx.apply (ieeeInterp (fmtOf b32) calls) g [a]) := by
  have hF := FloatFmt.wide_fmtOf b32
  have hA : (methIE (fmtOf b32) "abs" a []).IsFloat := by cases ha <;> constructor
  have key : ∃ R : RV → RV, (R (methIE (fmtOf b32) "abs" a [])).IsFloat ∧ ∀ x : RV, Gen.recip_approx.apply (ieeeInterp (fmtOf b32) calls) g [x] = methIE (fmtOf b32) "copysign" (R (methIE (fmtOf b32) "abs" x [])) [x] := by
    refine ⟨fun z => binIE (fmtOf b32) .sub ((fromBits (as (.paren (.paren (.method (.paren (as (.method (v "x") "to_bits" []) "fty")) "mul_add"
      [-num "1.0", v "EXP2_ONE" * num "2.0"]))) "uty")).denote (ieeeInterp (fmtOf b32) calls) (envSet g "x" z)) (.f ((fmtOf b32).rnd (8 / 100))), ?_, fun x => ?_⟩
    · refine subIE_isFloat (fromBits_isFloat ?_) (.f _)
      simp only [denote_paren, denote_method, denote_as, denote_mul, denote_neg, denoteArgs_cons, denoteArgs_nil, denote_v, numIE_1 hF, numIE_2, ieee_cast, ieee_meth, ieee_bin, ieee_un,
        show ∀ x, envSet g "x" x ["x"] = x by simp, show ∀ x, envSet g "x" x ["EXP2_ONE"] = g ["EXP2_ONE"] by simp]
      refine mul_addIE_isFloat ?_ (.f _) (mulIE_isFloat hg (.f _))
      generalize methIE (fmtOf b32) "abs" a [] = z at hA
      cases hA <;> exact FloatFmt.rne_isFloat _
    · simp only [Gen.recip_approx, Gen.powerScale, ofFty_apply, List.map, bindParams, denoteBlock_letT]
      simp [numIE_08, numIE_1 hF, numIE_2]
  obtain ⟨R, hR, hk⟩ := key
  rw [hk, hk, absIE_neg ha, copysignIE_neg ha h0 hn hR]
  exact ⟨copysignIE_isFloat ha hR, rfl⟩

/-- **C110** Generated `recip` is odd. -/
theorem C110_recip (hg : g ["EXP2_ONE"] = .f ((fmtOf b32).bias * 2 ^ (fmtOf b32).mant)) (hc : LinkedIE (fmtOf b32) calls g Gen.recip_approx) {a : RV} (ha : a.IsFloat) (h0 : a ≠ .f 0) :
    Gen.recip.apply (ieeeInterp (fmtOf b32) calls) g [unRV .neg a] = unRV .neg (Gen.recip.apply (ieeeInterp (fmtOf b32) calls) g [a]) := by
  by_cases hn : a = .nan
  · rw [hn, show unRV .neg .nan = .nan from rfl, C88_recip hg hc]; rfl
  have hs : ∀ r : RV, r.IsFloat → (binIE (fmtOf b32) .mul r (binIE (fmtOf b32) .sub (.f 2) (binIE (fmtOf b32) .mul a r))).IsFloat ∧
      binIE (fmtOf b32) .mul (unRV .neg r) (binIE (fmtOf b32) .sub (.f 2) (binIE (fmtOf b32) .mul (unRV .neg a) (unRV .neg r))) =
      unRV .neg (binIE (fmtOf b32) .mul r (binIE (fmtOf b32) .sub (.f 2) (binIE (fmtOf b32) .mul a r))) := fun r hr => by
    have hm := mulIE_isFloat (F := fmtOf b32) ha hr
    have hd := subIE_isFloat (F := fmtOf b32) (.f 2) hm
    refine ⟨mulIE_isFloat hr hd, ?_⟩
    have hna : (unRV .neg a).IsFloat := by cases ha <;> constructor
    rw [mulIE_neg hna hr, neg_mulIE ha hr, neg_negIE hm, neg_mulIE hr hd]
  obtain ⟨k1, k2⟩ := recip_approx_neg (b32 := b32) (calls := calls) (g := g) (by rw [hg]; constructor) ha h0 hn
  rw [recip_run hc, recip_run hc]
  simp only []
  rw [k2, (hs _ k1).2, (hs _ (hs _ k1).1).2, (hs _ (hs _ (hs _ k1).1).1).2]

/-- The reciprocal and the cube root of minus three. -/
example (b32 : Bool) : let run (f : RFn) (x : RV) := f.apply (ieeeInterp (fmtOf b32) (seedCallsIE b32)) (seedEnvIE b32) [x]
    run Gen.recip (.f (-3)) = unRV .neg (run Gen.recip (.f 3)) ∧ run Gen.cbrt (.f (-3)) = unRV .neg (run Gen.cbrt (.f 3)) := by
  have h0 := seedEnvIE_bits b32
  have hf : (seedEnvIE b32 ["EXP2_ONE"]).IsFloat := by rw [h0]; exact .f _
  obtain ⟨a, b, ha, hb, -⟩ := (seedEnvIE_thirds b32).get
  have hfa : (seedEnvIE b32 ["ONE_THIRD"]).IsFloat := by rw [ha]; exact .f _
  have hfb : (seedEnvIE b32 ["TWO_THIRDS"]).IsFloat := by rw [hb]; exact .f _
  have h3 : RV.f 3 ≠ .f 0 := by simp
  have k1 := C110_recip h0 (seedCallsIE_recip b32) (.f 3) h3
  have k2 := C110_cbrt (b32 := b32) (calls := seedCallsIE b32) hf hfa hfb (.f 3) h3
  rw [show unRV .neg (.f 3) = .f (-3) from rfl] at k1 k2
  exact ⟨k1, k2⟩

end
end Verif
