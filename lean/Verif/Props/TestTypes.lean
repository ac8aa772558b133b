import Verif.Model.TestSpecs
import Verif.Props.GenTypes
import Verif.Props.CCompiles

/-! # C91: the generated tests type-check -/

namespace Verif

/-- The parts of a test function that depend on its specification type-check: in an accuracy test the closure `|x| #expr` on the float type,
`test.rs:77`; in a histogram test `#expr as f64` with the loop variable `i`, `test.rs:110`, and `(#refexpr) as f64` with `x` an `f64`, `test.rs:121`. -/
def testTyped (b32 : Bool) (sigs : Sigs) (cs : List (String × Ty)) (s : TestSpec) : Bool :=
  match s.test with
  | .maxAbs _ _ _ _ _ => match s.call.ty b32 sigs (("x", floatTy b32) :: cs) with
    | some t => ((floatTy b32).meet t).isSome
    | none => false
  | .histogram _ _ => ((RExpr.cast s.call ["f64"]).ty b32 sigs (("i", .usize) :: cs)).isSome &&
      ((RExpr.cast s.ref.toR ["f64"]).ty b32 sigs (("x", .f64) :: cs)).isSome

/-- All tests written with a request type-check. -/
def TestsTyped (b32 : Bool) (P : Gen.Parts) (request : List String) : Prop :=
  ∀ s ∈ testSpecs, s.fn ∈ outputNames request →
    testTyped b32 (fnSigs b32 (outputItems b32 P request)) (constEnv b32 (outputItems b32 P request)) s = true

/-- The signature of a function of the table. -/
def tableSig (b32 : Bool) (n : String) : Option (List Ty × Ty) := (fnSigs b32 (Gen.items b32 holeParts n)).lookup n

theorem lookup_flatMap (F : String → Sigs) (l : List String) (hF : ∀ m ∈ l, ∀ p ∈ F m, p.1 = m) (n : String) :
    (l.flatMap F).lookup n = if n ∈ l then (F n).lookup n else none := by
  induction l with
  | nil => simp
  | cons m l ih =>
    have ih := ih fun k hk => hF k (by simp [hk])
    rw [List.flatMap_cons, List.lookup_append, ih]
    by_cases hm : n = m
    · subst hm
      simp only [List.mem_cons_self, if_true]
      split <;> simp [Option.or_self]
    · have : (F m).lookup n = none := by
        rw [List.lookup_eq_none_iff]
        intro p hp
        simp [hF m (by simp) p hp, hm]
      simp [this, hm]

theorem sigs_lookup (b32 : Bool) (P : Gen.Parts) (r : List String) (n : String) :
    (fnSigs b32 (outputItems b32 P r)).lookup n = if n ∈ outputNames r then tableSig b32 n else none := by
  rw [outputItems_fnSigs b32 P holeParts, outputItems_names]
  have h : ∀ l : List String, fnSigs b32 (l.flatMap (Gen.items b32 holeParts)) = l.flatMap fun m => fnSigs b32 (Gen.items b32 holeParts m) := by
    intro l
    induction l with
    | nil => rfl
    | cons a l ih => rw [List.flatMap_cons, fnSigs_append, ih, List.flatMap_cons]
  rw [h, lookup_flatMap]
  · rfl
  · intro m hm p hp
    obtain ⟨f, hf, rfl, -⟩ := output_table r m hm
    have : ∀ b32 : Bool, ∀ f ∈ functionTable, ∀ p ∈ fnSigs b32 (Gen.items b32 holeParts f.name), p.1 = f.name := by decide +kernel
    exact this b32 f hf p hp

/-- Whether a test type-checks depends on the signature of its function, and for `rnorm` on that of `dnorm`. -/
def typedFrom (b32 : Bool) (sig : String → Option (List Ty × Ty)) (s : TestSpec) : Bool :=
  testTyped b32 (["dnorm", s.fn].filterMap fun n => (sig n).map fun p => (n, p)) [] s

local macro "tcase" g:ident "," t:term : tactic => `(tactic| (
  rcases h : List.lookup $t $g with _ | ⟨ps, r⟩ <;> rcases hd : List.lookup "dnorm" $g with _ | ⟨ps', r'⟩ <;>
  simp [typedFrom, testTyped, TestSpec.maxAbs, TestSpec.app, TestSpec.rfl, TestSpec.asFty, TestSpec.fl, TestSpec.x, litInt, Expr.toR, Expr.toRArgs, RExpr.ty,
    RExpr.tyArgs, List.filterMap, List.lookup, h, hd]))

theorem typed_from (b32 : Bool) (sigs : Sigs) (cs : List (String × Ty)) :
    ∀ s ∈ testSpecs, testTyped b32 sigs cs s = typedFrom b32 (fun n => sigs.lookup n) s := by
  simp only [testSpecs, List.forall_mem_cons]
  refine ⟨?_, ?_, ?_, ?_, ?_, ?_, ?_, ?_, ?_, ?_, ?_, ?_, ?_, ?_, ?_, ?_, ?_, ?_, ?_, ?_, ?_, ?_, ?_, ?_, ?_, ?_, ?_, ?_, ?_, ?_, ?_, ?_, ?_, ?_, by simp⟩
  · tcase sigs, "nextafter"
  · tcase sigs, "asin"
  · tcase sigs, "asin"
  · tcase sigs, "acos"
  · tcase sigs, "acos"
  · tcase sigs, "exp2"
  · tcase sigs, "exp2"
  · tcase sigs, "exp"
  · tcase sigs, "exp"
  · tcase sigs, "exp"
  · tcase sigs, "exp_m1"
  · tcase sigs, "exp_m1"
  · tcase sigs, "log2"
  · tcase sigs, "log2"
  · tcase sigs, "ln_1p"
  · tcase sigs, "ln"
  · tcase sigs, "ln"
  · tcase sigs, "log10"
  · tcase sigs, "log10"
  · tcase sigs, "log"
  · tcase sigs, "log"
  · tcase sigs, "runif"
  · tcase sigs, "dnorm"
  · tcase sigs, "qnorm"
  · tcase sigs, "rnorm"
  · tcase sigs, "sin"
  · tcase sigs, "sin"
  · tcase sigs, "sin"
  · tcase sigs, "sin"
  · tcase sigs, "cos"
  · tcase sigs, "cos"
  · tcase sigs, "cos"
  · tcase sigs, "tan"
  · tcase sigs, "tan"

/-- The signatures present when a function is, with or without `dnorm`. -/
def sigWith (b32 d : Bool) (fn n : String) : Option (List Ty × Ty) := if n = "dnorm" ∧ fn ≠ "dnorm" ∧ d = false then none else tableSig b32 n

theorem typedFrom_table : ∀ b32 d : Bool, ∀ s ∈ testSpecs, typedFrom b32 (sigWith b32 d s.fn) s = (s.fn != "rnorm" || (!b32 && d)) := by decide +kernel

/-- **C91** When the tests written with a request type-check.  Full claim: always; false, see `C91_rnorm_wrong` and `C91_rnorm32_wrong`. -/
theorem C91_types_iff_partial (b32 : Bool) (P : Gen.Parts) (request : List String) :
    TestsTyped b32 P request ↔ ("rnorm" ∈ outputNames request → b32 = false ∧ "dnorm" ∈ outputNames request) := by
  have key : ∀ s ∈ testSpecs, s.fn ∈ outputNames request →
      testTyped b32 (fnSigs b32 (outputItems b32 P request)) (constEnv b32 (outputItems b32 P request)) s =
        (s.fn != "rnorm" || (!b32 && decide ("dnorm" ∈ outputNames request))) := by
    intro s hs hm
    rw [typed_from _ _ _ s hs, ← typedFrom_table b32 (decide ("dnorm" ∈ outputNames request)) s hs]
    unfold typedFrom
    simp only [List.filterMap_cons, List.filterMap_nil, sigs_lookup, hm, if_true]
    have h1 : sigWith b32 (decide ("dnorm" ∈ outputNames request)) s.fn s.fn = tableSig b32 s.fn := by
      unfold sigWith
      rw [if_neg (fun h => h.2.1 h.1)]
    have h2 : sigWith b32 (decide ("dnorm" ∈ outputNames request)) s.fn "dnorm" = if "dnorm" ∈ outputNames request then tableSig b32 "dnorm" else none := by
      unfold sigWith
      by_cases hd : "dnorm" ∈ outputNames request
      · simp [hd]
      · have : s.fn ≠ "dnorm" := fun h => hd (h ▸ hm)
        simp [hd, this]
    rw [h1, h2]
  constructor
  · intro h hr
    obtain ⟨s, hs, hn⟩ : ∃ s ∈ testSpecs, s.fn = "rnorm" := by
      have : testSpecs.any (fun s => s.fn = "rnorm") = true := by decide +kernel
      simpa using this
    have := h s hs (hn ▸ hr)
    rw [key s hs (hn ▸ hr), hn] at this
    simpa using this
  · intro h s hs hm
    rw [key s hs hm]
    by_cases hn : s.fn = "rnorm"
    · obtain ⟨h1, h2⟩ := h (hn ▸ hm)
      simp [h1, h2]
    · simp [hn]

/-- **C91** Without `rnorm` all tests type-check, at both widths. -/
theorem C91_types (b32 : Bool) (P : Gen.Parts) (request : List String) (h : "rnorm" ∉ outputNames request) : TestsTyped b32 P request :=
  (C91_types_iff_partial b32 P request).2 fun hr => absurd hr h

example : "rnorm" ∉ outputNames ["sin", "qnorm", "runif", "log"] ∧ "test_sin3" ∈ (testSpecs.filter fun s => s.fn ∈ outputNames ["sin", "qnorm", "runif", "log"]).map (·.name) := by
  decide +kernel

/-- **C91** is false: the test of `rnorm` calls `dnorm`, on which `rnorm` does not depend. -/
theorem C91_rnorm_wrong (b32 : Bool) (P : Gen.Parts) : ¬ TestsTyped b32 P ["rnorm"] := by
  rw [C91_types_iff_partial]
  have : "rnorm" ∈ outputNames ["rnorm"] ∧ "dnorm" ∉ outputNames ["rnorm"] := by decide +kernel
  exact fun h => this.2 (h this.1).2

/-- **C91** is false for the whole library at 32 bits: `dnorm` takes `f32` and is given the `f64` of the histogram. -/
theorem C91_rnorm32_wrong (P : Gen.Parts) : ¬ TestsTyped true P ["all"] ∧ TestsTyped false P ["all"] := by
  rw [C91_types_iff_partial, C91_types_iff_partial]
  have : "rnorm" ∈ outputNames ["all"] ∧ "dnorm" ∈ outputNames ["all"] := by decide +kernel
  exact ⟨fun h => Bool.noConfusion (h this.1).1, fun _ => ⟨rfl, this.2⟩⟩

/-- **C91** The test functions have different names, none of them that of a generated function or of `test_function`. -/
theorem C91_names : (("test_function" :: "plot_function" :: testSpecs.map (·.name)) ++ functionTable.map (·.name)).Nodup := by decide +kernel

/-- **C91** Every test belongs to an entry of the function table that is generated. -/
theorem C91_owners : ∀ s ∈ testSpecs, ∃ f ∈ functionTable, f.name = s.fn ∧ f.hasGen = true := by decide +kernel

end Verif
