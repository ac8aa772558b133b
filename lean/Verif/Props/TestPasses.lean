import Verif.Props.TestLogBase
import Verif.Props.TestExpPass

/-!
# C99 Accuracy tests that the generated 32-bit library passes
-/

namespace Verif
open RExpr Dec

section
variable {ext : BdExt} {fx : FloatExt} {P : Gen.Parts} {calls : String → List RV → RV} {g : Name → RV} {v : ℝ}

/-- **C99** `test_asin` passes. -/
theorem C99_asin_library (h : TestLibrary ext fx true P calls g v) : ∀ s ∈ testSpecs, s.name = "test_asin" → AccuracyTest ext true calls g s := by
  intro s hm hn
  have hs : s = TestSpec.maxAbs "asin" "test_asin" (TestSpec.meth "asin") (TestSpec.app "asin" [.path ["x"]]) (TestSpec.neg (TestSpec.fl "0.5")) (TestSpec.fl "0.5") 2 2 1024 := by
    revert hn; revert s; simp [testSpecs, TestSpec.maxAbs]
  subst hs
  obtain ⟨e, rows, h1, h2, h3⟩ := C99_asin h.sqrt h.fuel h.rounds h.lits h.close
  refine ⟨rows, h2, ?_⟩
  have hP := h.approx .asin (by simp [approxSpecs]) _ _ e rfl h1
  have hfn : LinkedIE .f32 calls g (Gen.asin e.toR) := h.fn "asin" (by decide +kernel) (by rw [← hP]; rfl)
  have := h3 calls g
  simp only [← show ∀ v, calls "asin" [v] = _ from fun v => hfn [v]] at this
  exact this

/-- The tests shown to pass at 32 bits. -/
def passing32 : List String := ["test_asin", "test_log2_1", "test_log2_2", "test_ln_1", "test_ln_2", "test_log10_2", "test_log_2",
  "test_exp2_1", "test_exp2_2", "test_exp_1", "test_exp_3", "test_exp_m1_1", "test_exp_m1_2", "test_dnorm_1"]

/-- **C99** The generated 32-bit library passes these accuracy tests. -/
theorem C99_tests_pass (h : TestLibrary ext fx true P calls g v) : ∀ s ∈ testSpecs, s.name ∈ passing32 → AccuracyTest ext true calls g s := by
  intro s hm hn
  simp only [passing32, List.mem_cons, List.not_mem_nil, or_false] at hn
  rcases hn with hn | hn | hn | hn | hn | hn | hn | hn | hn | hn | hn | hn | hn | hn
  · exact C99_asin_library h s hm hn
  · exact C99_log2_1 h s hm hn
  · exact C99_log2_2 h s hm hn
  · exact C99_ln_1 h s hm hn
  · exact C99_ln_2 h s hm hn
  · exact C99_log10_2 h s hm hn
  · exact C99_log_2 h s hm hn
  · exact C99_exp2_1 h s hm hn
  · exact C99_exp2_2 h s hm hn
  · exact C99_exp_1 h s hm hn
  · exact C99_exp_3 h s hm hn
  · exact C99_exp_m1_1 h s hm hn
  · exact C99_exp_m1_2 h s hm hn
  · exact C99_dnorm_1 h s hm hn

end

/-- Each of the names is that of a test. -/
theorem C99_named : ∀ n ∈ passing32, ∃ s ∈ testSpecs, s.name = n := by decide

/-! ## Such a library exists -/

/-- The constants as declared in the generated code, for any decimal arithmetic. -/
noncomputable def declaredBy (ext : BdExt) (b32 : Bool) (n : Name) : RV :=
  match constSource.find? (fun p => [p.1] == n) with
  | some p => match eval ext (configDigits b32) p.2 with
    | .ok (.lit l) => (RExpr.lit l).denote (ieeeInterp (fmtOf b32) fun _ _ => .junk) fun _ => .junk
    | _ => .junk
  | none => .junk

/-- The bit-pattern constants beside them. -/
noncomputable def bitsBy (ext : BdExt) (b32 : Bool) (n : Name) : RV :=
  let F := fmtOf b32
  match n with
  | ["EXP2_ONE"] => .f (F.bias * 2 ^ F.mant)
  | ["EXP2_SCALE"] => .f (2 ^ F.mant)
  | ["EXP2_MIN"] => .f (-F.bias)
  | ["EXP2_MAX"] => .f F.bias
  | ["LOG2_SHIFT"] => .i F.mant
  | ["LOG2_OFFSET"] => .i F.bias
  | ["ONE_BITS"] => .i ((F.bias * 2 ^ F.mant : ℕ) : ℤ)
  | ["ONE_MASK"] => .i ((2 ^ F.mant - 1 : ℕ) : ℤ)
  | ["INFINITY"] => .inf false
  | ["NAN"] => .nan
  | ["MIN_POSITIVE"] => .f ((2 : ℝ) ^ (1 - (F.bias : ℤ)))
  | n => declaredBy ext b32 n

theorem bitsBy_consts (ext : BdExt) (b32 : Bool) : BitConsts (fmtOf b32) (bitsBy ext b32) := ⟨rfl, rfl, rfl, rfl, rfl, rfl, rfl, rfl, rfl, rfl, rfl⟩

theorem bitsBy_declared {ext : BdExt} (hs : SqrtOk ext) (hf : 20 ≤ ext.fuel) (b32 : Bool) (calls : String → List RV → RV) : DeclaredIE ext b32 calls (bitsBy ext b32) := by
  intro p hp
  have h := C69_constants_in_code hs hf b32 (fmtOf b32) calls (bitsBy ext b32)
  obtain ⟨l, h1⟩ : ∃ l, eval ext (configDigits b32) p.2 = .ok (.lit l) := by
    obtain ⟨q, -, -, l, -, h2, -⟩ := forall2_get h.flip hp
    exact ⟨l, h2⟩
  refine ⟨l, h1, ?_⟩
  have h2 : constSource.find? (fun q => [q.1] == [p.1]) = some p := by
    unfold constSource at hp ⊢
    fin_cases hp <;> rfl
  have h3 : bitsBy ext b32 [p.1] = declaredBy ext b32 [p.1] := by
    unfold constSource at hp
    fin_cases hp <;> rfl
  rw [h3, declaredBy, h2]
  simp only [h1]
  rfl

/-- For any decimal arithmetic with right square roots, any float conversions that print plain decimals. -/
theorem C99_library_exists {ext : BdExt} (hs : SqrtOk ext) (hf : 600 ≤ ext.fuel) (hr : RoundsNear ext) (b32 : Bool) :
    ∃ calls, TestLibrary ext wideFx b32 (shippedParts ext wideFx b32 fun _ => RExpr.num "3.14") calls (bitsBy ext b32) 0 := by
  obtain ⟨⟨calls, hc⟩, -⟩ := C87_all ext wideFx wideFx_plain b32 _ (shippedParts_generated ext wideFx b32 (fun _ => RExpr.num "3.14") fun _ => rfl) _ (.inr rfl) (bitsBy ext b32)
  exact ⟨calls, ⟨bitsBy_consts ext b32, bitsBy_declared hs (by omega) b32 calls, fun s hs lo hi e hb he => shippedParts_approx _ hs hb he, hc⟩, hs, hf, hr, wideFx_rounded b32, by norm_num⟩

example : ∃ calls, ∀ s ∈ testSpecs, s.name ∈ passing32 → AccuracyTest tableExt true calls (bitsBy tableExt true) s := by
  obtain ⟨calls, h⟩ := C99_library_exists (ext := tableExt) ⟨longExt_ok.1, longExt_ok.2⟩ (by decide) tableExt_rounds true
  exact ⟨calls, C99_tests_pass h⟩

end Verif
