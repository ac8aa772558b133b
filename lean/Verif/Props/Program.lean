import Verif.Lemmas.Program
import Verif.Props.VectorTypes
import Verif.Props.IeeeSeeds

/-!
# C87: the generated library as a program

The bodies of the generated functions call each other.  The theorems about them say what a function computes if the functions it calls compute
something; here it is shown that this is not circular: there is exactly one meaning of the whole library.
-/

namespace Verif

/-! ## Programs without recursion -/

/-- **C87** If every function calls only functions of a smaller rank, then the program has a meaning: every function computes what its body says,
and this fixes what each of them computes. -/
theorem C87_program {α : Type} {mk : (String → List α → α) → RInterp α} (h : CallsOnly mk) (g : Name → α) {fns : List RFn} {rank : String → ℕ}
    (hl : Layered fns rank) :
    (∃ calls, LinkedAll mk g fns calls) ∧ ∀ c c', LinkedAll mk g fns c → LinkedAll mk g fns c' → ∀ fn ∈ fns, c fn.name = c' fn.name := by
  refine ⟨?_, fun c c' h1 h2 => linked_unique h hl h1 h2⟩
  obtain ⟨n, hn⟩ : ∃ n, ∀ fn ∈ fns, rank fn.name < n := by
    clear hl
    induction fns with
    | nil => exact ⟨0, by simp⟩
    | cons a l ih =>
      obtain ⟨n, hn⟩ := ih
      refine ⟨max n (rank a.name + 1), fun fn hf => ?_⟩
      rcases List.mem_cons.1 hf with rfl | hf
      · exact lt_of_lt_of_le (Nat.lt_succ_self _) (le_max_right _ _)
      · exact lt_of_lt_of_le (hn fn hf) (le_max_left _ _)
  exact ⟨_, runFns_linked (junk := g []) h hl n hn⟩

/-- Exact arithmetic looks at other functions only when they are called. -/
theorem realInterp_callsOnly (F : FloatFmt) : CallsOnly (realInterp F) where
  same _ _ := rfl
  call c c' p args h := by
    simp only [realInterp]
    split
    · rfl
    · exact h _ rfl
    · rfl

/-- So does float arithmetic. -/
theorem ieeeInterp_callsOnly (F : FloatFmt) : CallsOnly (ieeeInterp F) where
  same _ _ := rfl
  call c c' p args h := by
    simp only [ieeeInterp]
    split
    · rfl
    · exact h _ rfl
    · rfl

/-! ## The library -/

/-- The inserted polynomials and values call nothing. -/
structure CallFreeParts (P : Gen.Parts) : Prop where
  approx : ∀ n, (P.approx n).called = []

theorem asin_called (p : RExpr) (hp : p.called = []) : (Gen.asin p).called = (Gen.asin (RExpr.num "0.0")).called := by
  simp [RFn.called, Gen.asin, Gen.sinLike, RFn.ofFty, RStmt.calledBlock, RStmt.letT, RStmt.letU, RExpr.called, RExpr.num, HMul.hMul, Mul.mul, HAdd.hAdd, Add.add, hp]

theorem acos_called (p : RExpr) (hp : p.called = []) : (Gen.acos p).called = (Gen.acos (RExpr.num "0.0")).called := by
  simp [RFn.called, Gen.acos, Gen.sinLike, RFn.ofFty, RStmt.calledBlock, RStmt.letT, RStmt.letU, RExpr.called, RExpr.num, HMul.hMul, Mul.mul, HAdd.hAdd, Add.add, hp]

theorem atan_called (p : RExpr) (hp : p.called = []) : (Gen.atan p).called = (Gen.atan (RExpr.num "0.0")).called := by
  simp [RFn.called, Gen.atan, Gen.sinLike, RFn.ofFty, RStmt.calledBlock, RStmt.letT, RStmt.letU, RExpr.called, RExpr.num, HMul.hMul, Mul.mul, HAdd.hAdd, Add.add, hp]

theorem atan2_called (p : RExpr) (hp : p.called = []) : (Gen.atan2 p).called = (Gen.atan2 (RExpr.num "0.0")).called := by
  simp [RFn.called, Gen.atan2, Gen.sinLike, RFn.ofFty, RStmt.calledBlock, RStmt.letT, RStmt.letU, RExpr.called, RExpr.num, HMul.hMul, Mul.mul, HAdd.hAdd, Add.add, hp]

theorem exp2_called (p : RExpr) (hp : p.called = []) : (Gen.exp2 p).called = (Gen.exp2 (RExpr.num "0.0")).called := by
  simp [RFn.called, Gen.exp2, Gen.sinLike, RFn.ofFty, RStmt.calledBlock, RStmt.letT, RStmt.letU, RExpr.called, RExpr.num, HMul.hMul, Mul.mul, HAdd.hAdd, Add.add, hp]

theorem exp_m1_called (p : RExpr) (hp : p.called = []) : (Gen.exp_m1 p).called = (Gen.exp_m1 (RExpr.num "0.0")).called := by
  simp [RFn.called, Gen.exp_m1, Gen.sinLike, RFn.ofFty, RStmt.calledBlock, RStmt.letT, RStmt.letU, RExpr.called, RExpr.num, HMul.hMul, Mul.mul, HAdd.hAdd, Add.add, hp]

theorem log2_called (p : RExpr) (hp : p.called = []) : (Gen.log2 p).called = (Gen.log2 (RExpr.num "0.0")).called := by
  simp [RFn.called, Gen.log2, Gen.sinLike, RFn.ofFty, RStmt.calledBlock, RStmt.letT, RStmt.letU, RExpr.called, RExpr.num, HMul.hMul, Mul.mul, HAdd.hAdd, Add.add, hp]

theorem qnorm_called (p : RExpr) (hp : p.called = []) : (Gen.qnorm p).called = (Gen.qnorm (RExpr.num "0.0")).called := by
  simp [RFn.called, Gen.qnorm, Gen.sinLike, RFn.ofFty, RStmt.calledBlock, RStmt.letT, RStmt.letU, RExpr.called, RExpr.num, HMul.hMul, Mul.mul, HAdd.hAdd, Add.add, hp]

theorem sin_called (p : RExpr) (hp : p.called = []) : (Gen.sin p).called = (Gen.sin (RExpr.num "0.0")).called := by
  simp [RFn.called, Gen.sin, Gen.sinLike, RFn.ofFty, RStmt.calledBlock, RStmt.letT, RStmt.letU, RExpr.called, RExpr.num, HMul.hMul, Mul.mul, HAdd.hAdd, Add.add, hp]

theorem cos_called (p : RExpr) (hp : p.called = []) : (Gen.cos p).called = (Gen.cos (RExpr.num "0.0")).called := by
  simp [RFn.called, Gen.cos, Gen.sinLike, RFn.ofFty, RStmt.calledBlock, RStmt.letT, RStmt.letU, RExpr.called, RExpr.num, HMul.hMul, Mul.mul, HAdd.hAdd, Add.add, hp]

theorem tan_called (p : RExpr) (hp : p.called = []) : (Gen.tan p).called = (Gen.tan (RExpr.num "0.0")).called := by
  simp [RFn.called, Gen.tan, Gen.sinLike, RFn.ofFty, RStmt.calledBlock, RStmt.letT, RStmt.letU, RExpr.called, RExpr.num, HMul.hMul, Mul.mul, HAdd.hAdd, Add.add, hp]

/-- Names and calls of the functions of an entry do not depend on the inserted parts. -/
theorem items_called (b32 : Bool) (P : Gen.Parts) (hP : CallFreeParts P) (n : String) :
    (fnsOf (Gen.items b32 P n)).map (fun f => (f.name, f.called)) = (fnsOf (Gen.items b32 emptyParts n)).map (fun f => (f.name, f.called)) := by
  have h := hP.approx
  unfold Gen.items
  split <;> (first | rfl | skip) <;> simp only [fnsOf, List.flatMap_cons, List.flatMap_nil, List.append_nil, List.map_cons, List.map_nil]
  · rw [asin_called _ (h _)]; rfl
  · rw [acos_called _ (h _)]; rfl
  · rw [atan_called _ (h _)]; rfl
  · rw [atan2_called _ (h _)]; rfl
  · rw [exp2_called _ (h _)]; rfl
  · rw [exp_m1_called _ (h _)]; rfl
  · rw [log2_called _ (h _)]; rfl
  · rw [qnorm_called _ (h _)]; rfl
  · rw [sin_called _ (h _)]; rfl
  · rw [cos_called _ (h _)]; rfl
  · rw [tan_called _ (h _)]; rfl

/-- How many calls deep a function of the library goes at most. -/
def callLevel (s : String) : ℕ :=
  if s ∈ ["asinh", "acosh", "atanh", "powi"] then 3
  else if s ∈ ["sinh", "cosh", "tanh", "exp", "dnorm", "ln", "log10", "log", "powf", "sin_cos"] then 2
  else if s ∈ ["exp2", "exp_m1", "sqrt", "recip", "rnorm", "sin", "cos", "tan"] then 1
  else 0

theorem callLevel_le (s : String) : callLevel s ≤ 3 := by
  unfold callLevel
  split_ifs <;> omega

theorem entries_called : ∀ b32, ∀ n ∈ functionEntries, ∀ q ∈ (fnsOf (Gen.items b32 emptyParts n)).map (fun f => (f.name, f.called)), ∀ p ∈ q.2,
    p.length = 1 → ∀ s ∈ p, callLevel s < callLevel n ∧ s ∈ functionEntries ∧ s ∈ (Gen.items b32 emptyParts n).flatMap RItem.uses := by
  decide +kernel

theorem entries_fns : ∀ b32, ∀ n ∈ functionEntries, (fnsOf (Gen.items b32 emptyParts n)).map (fun f => f.name) = [n] := by decide +kernel

theorem mem_fnsOf (its : List RItem) (f : RFn) : f ∈ fnsOf its ↔ RItem.fn f ∈ its := by
  unfold fnsOf
  rw [List.mem_flatMap]
  constructor
  · rintro ⟨it, hit, hf⟩
    cases it <;> simp_all
  · intro h
    exact ⟨_, h, by simp⟩

/-- A function of the library calls only functions that go less deep. -/
theorem C87_levels (b32 : Bool) (P : Gen.Parts) (hP : CallFreeParts P) (request : List String) (f : RFn) (hf : RItem.fn f ∈ outputItems b32 P request)
    (s : String) (hs : [s] ∈ f.called) : callLevel s < callLevel f.name ∧ s ∈ functionEntries ∧
      s ∈ (Gen.items b32 emptyParts f.name).flatMap RItem.uses ∧ f.name ∈ outputNames request := by
  rw [outputItems_names] at hf
  obtain ⟨n, hn, hf⟩ := List.mem_flatMap.1 hf
  obtain ⟨-, rfl, -⟩ := items_fn b32 P n f hf
  have h1 : (f.name, f.called) ∈ (fnsOf (Gen.items b32 P f.name)).map (fun f => (f.name, f.called)) :=
    List.mem_map_of_mem (f := fun f : RFn => (f.name, f.called)) ((mem_fnsOf _ _).2 hf)
  rw [items_called b32 P hP] at h1
  obtain ⟨h2, h3, h4⟩ := entries_called b32 f.name (C80_entries_listed b32 P f.name f hf) _ h1 _ hs rfl s (by simp)
  exact ⟨h2, h3, h4, hn⟩

/-- The functions of an output that defines what it uses form a program without recursion. -/
theorem C87_layered (b32 : Bool) (P : Gen.Parts) (hP : CallFreeParts P) (hc : CleanParts P) (request : List String) (hr : SelfContained b32 P request) :
    Layered (fnsOf (outputItems b32 P request)) callLevel where
  nodup := by
    have h1 : ((outputNames request).flatMap fun n => (fnsOf (Gen.items b32 P n)).map RFn.name).Nodup := by
      have := (outputNames_sorted request).imp (fun {a b} (h : tablePos a < tablePos b) => (fun he => by rw [he] at h; omega : a ≠ b))
      rw [List.nodup_flatMap]
      have key : ∀ n s, s ∈ (fnsOf (Gen.items b32 P n)).map RFn.name → s = n := by
        intro n s hs
        obtain ⟨f, hf, rfl⟩ := List.mem_map.1 hs
        exact (items_fn b32 P n f ((mem_fnsOf _ _).1 hf)).2.1
      refine ⟨fun n _ => ?_, ?_⟩
      · unfold Gen.items
        split <;> simp [fnsOf, Gen.tyItem, Gen.evalConst, Gen.constItem, Gen.LOG2_SHIFT, Gen.LOG2_OFFSET, Gen.NAN, Gen.INFINITY, Gen.MIN_POSITIVE, Gen.ONE_MASK,
          Gen.ONE_BITS, Gen.EXP2_ONE, Gen.EXP2_SCALE, Gen.EXP2_MIN, Gen.EXP2_MAX, Gen.ONE_THIRD, Gen.TWO_THIRDS]
      · refine this.imp fun {a b} hab => ?_
        intro s h1 h2
        exact hab ((key a s h1).symm.trans (key b s h2))
    rw [outputItems_names]
    simpa [fnsOf, List.flatMap_assoc, List.map_flatMap] using h1
  calls fn hf s hs := by
    obtain ⟨h1, h2, h3, h4⟩ := C87_levels b32 P hP request fn ((mem_fnsOf _ _).1 hf) s hs
    refine ⟨?_, h1⟩
    have h5 : s ∈ (outputItems b32 P request).flatMap RItem.uses := by
      rw [outputItems_uses b32 P hc, outputItems_names, List.flatMap_assoc]
      exact List.mem_flatMap.2 ⟨_, h4, h3⟩
    have h6 := output_defines_name b32 P request s (hr s h5)
    have h7 : s ∈ (fnsOf (Gen.items b32 P s)).map RFn.name := by
      have h8 := congrArg (List.map Prod.fst) (items_called b32 P hP s)
      rw [List.map_map, List.map_map] at h8
      have h9 := entries_fns b32 s h2
      have : (fnsOf (Gen.items b32 P s)).map RFn.name = [s] := h8.trans h9
      rw [this]; simp
    obtain ⟨f, hf, h8⟩ := List.mem_map.1 h7
    refine List.mem_map.2 ⟨f, (mem_fnsOf _ _).2 ?_, h8⟩
    rw [outputItems_names]
    exact List.mem_flatMap.2 ⟨s, h6, (mem_fnsOf _ _).1 hf⟩

/-- **C87** The library has exactly one meaning, in exact arithmetic and in IEEE arithmetic, whatever its constants: each function computes what
its body says, calls included. -/
theorem C87_library (b32 : Bool) (P : Gen.Parts) (hP : CallFreeParts P) (hc : CleanParts P) (request : List String) (hr : SelfContained b32 P request)
    (mk : (String → List RV → RV) → RInterp RV) (hmk : mk = realInterp (fmtOf b32) ∨ mk = ieeeInterp (fmtOf b32)) (g : Name → RV) :
    (∃ calls, LinkedAll mk g (fnsOf (outputItems b32 P request)) calls) ∧
    ∀ c c', LinkedAll mk g (fnsOf (outputItems b32 P request)) c → LinkedAll mk g (fnsOf (outputItems b32 P request)) c' →
      ∀ f, RItem.fn f ∈ outputItems b32 P request → c f.name = c' f.name := by
  have hm : CallsOnly mk := by
    rcases hmk with rfl | rfl
    · exact realInterp_callsOnly _
    · exact ieeeInterp_callsOnly _
  obtain ⟨h1, h2⟩ := C87_program hm g (C87_layered b32 P hP hc request hr)
  exact ⟨h1, fun c c' hc1 hc2 f hf => h2 c c' hc1 hc2 f ((mem_fnsOf _ _).2 hf)⟩

/-- **C87** At most four functions are active at a time: unfolding calls four times gives the meaning. -/
theorem C87_depth (b32 : Bool) (P : Gen.Parts) (hP : CallFreeParts P) (hc : CleanParts P) (request : List String) (hr : SelfContained b32 P request)
    (mk : (String → List RV → RV) → RInterp RV) (hmk : CallsOnly mk) (g : Name → RV) (junk : RV) (calls : String → List RV → RV)
    (h : LinkedAll mk g (fnsOf (outputItems b32 P request)) calls) (f : RFn) (hf : RItem.fn f ∈ outputItems b32 P request) :
    calls f.name = runFns mk g junk (fnsOf (outputItems b32 P request)) 4 f.name := by
  have hl := C87_layered b32 P hP hc request hr
  have hf' := (mem_fnsOf _ _).2 hf
  have h4 : ∀ s, callLevel s < 4 := fun s => Nat.lt_succ_of_le (callLevel_le s)
  rw [linked_unique hmk hl h (runFns_linked (junk := junk) hmk hl 4 fun fn _ => h4 _) f hf']
  exact runFns_stable hmk hl _ _ f hf' (by have := h4 f.name; omega) (h4 _)

/-- Four is right: `asinh` calls `ln`, which calls `log2`; `powi` calls `powf`, which calls `exp2`, which calls `round`. -/
example : (Gen.powi.called, Gen.powf.called, (Gen.exp2 (RExpr.num "0.0")).called, Gen.round.called) =
    ([["powf"]], [["exp2"], ["log2"]], [["round"], ["fty", "from_bits"]], []) := by decide

/-! ## The parts that the generators insert -/

/-- The polynomials that the generators insert (one with bounds that are computed at run time, and polynomials that cannot be made, are left out). -/
def shippedParts (ext : BdExt) (fx : FloatExt) (b32 : Bool) (value : String → RExpr) : Gen.Parts where
  approx n := match approxSpecs.find? (fun s => s.name == n) with
    | some s => match s.bounds with
      | some b => match polynomialCode ext fx b32 s b.1 b.2 with
        | .ok e => e.toR
        | _ => RExpr.num "0.0"
      | none => RExpr.num "0.0"
    | none => RExpr.num "0.0"
  value := value

/-- The polynomials of these parts are those of the generators. -/
structure GeneratedParts (ext : BdExt) (fx : FloatExt) (b32 : Bool) (P : Gen.Parts) : Prop where
  approx : ∀ n, (∃ s ∈ approxSpecs, s.name = n ∧ ∃ lo hi e, polynomialCode ext fx b32 s lo hi = .ok e ∧ P.approx n = e.toR) ∨ ∃ l, P.approx n = .lit l
  value : ∀ n, (P.value n).free [] = []

theorem shippedParts_generated (ext : BdExt) (fx : FloatExt) (b32 : Bool) (value : String → RExpr) (hv : ∀ n, (value n).free [] = []) :
    GeneratedParts ext fx b32 (shippedParts ext fx b32 value) where
  approx n := by
    unfold shippedParts
    simp only
    split
    · rename_i s hs
      have h1 := List.mem_of_find?_eq_some hs
      have h2 := List.find?_some hs
      split
      · split
        · rename_i e he
          exact .inl ⟨s, h1, by simpa using h2, _, _, e, he, rfl⟩
        · exact .inr ⟨_, rfl⟩
      · exact .inr ⟨_, rfl⟩
    · exact .inr ⟨_, rfl⟩
  value := hv

theorem shippedParts_approx {ext : BdExt} {fx : FloatExt} {b32 : Bool} (value : String → RExpr) {s : ApproxSpec} (hs : s ∈ approxSpecs) {lo hi : Dec}
    (hb : s.bounds = some (lo, hi)) {e : Expr} (he : polynomialCode ext fx b32 s lo hi = .ok e) : (shippedParts ext fx b32 value).approx s.name = e.toR := by
  have h1 : approxSpecs.find? (fun t => t.name == s.name) = some s := by
    simp only [approxSpecs, List.mem_cons, List.not_mem_nil, or_false] at hs
    rcases hs with rfl | rfl | rfl | rfl | rfl | rfl | rfl | rfl | rfl | rfl | rfl <;> rfl
  unfold shippedParts
  simp only [h1, hb, he]

theorem specs_var : ∀ s ∈ approxSpecs, s.var = approxVar s.name := by
  intro s hs
  simp only [approxSpecs, List.mem_cons, List.not_mem_nil, or_false] at hs
  rcases hs with rfl | rfl | rfl | rfl | rfl | rfl | rfl | rfl | rfl | rfl | rfl <;> rfl

/-- The generated polynomials bring neither calls nor identifiers. -/
theorem GeneratedParts.clean {ext : BdExt} {fx : FloatExt} {b32 : Bool} {P : Gen.Parts} (h : GeneratedParts ext fx b32 P) (hl : BareLits fx) :
    CallFreeParts P ∧ CleanParts P := by
  refine ⟨⟨fun n => ?_⟩, ⟨fun n bound hb => ?_, h.value⟩⟩
  · rcases h.approx n with ⟨s, -, -, lo, hi, e, he, hp⟩ | ⟨l, hp⟩
    · rw [hp]; exact (polynomialCode_called hl he).1
    · rw [hp]; rfl
  · rcases h.approx n with ⟨s, hs, rfl, lo, hi, e, he, hp⟩ | ⟨l, hp⟩
    · rw [hp]; exact (polynomialCode_called hl he).2 bound (specs_var s hs ▸ hb)
    · rw [hp]; rfl

/-- **C87** The library that is generated for the request `all` has exactly one meaning. -/
theorem C87_all (ext : BdExt) (fx : FloatExt) (hl : BareLits fx) (b32 : Bool) (P : Gen.Parts) (hP : GeneratedParts ext fx b32 P)
    (mk : (String → List RV → RV) → RInterp RV) (hmk : mk = realInterp (fmtOf b32) ∨ mk = ieeeInterp (fmtOf b32)) (g : Name → RV) :
    (∃ calls, LinkedAll mk g (fnsOf (outputItems b32 P ["all"])) calls) ∧
    ∀ c c', LinkedAll mk g (fnsOf (outputItems b32 P ["all"])) c → LinkedAll mk g (fnsOf (outputItems b32 P ["all"])) c' →
      ∀ f, RItem.fn f ∈ outputItems b32 P ["all"] → c f.name = c' f.name := by
  obtain ⟨h1, h2⟩ := hP.clean hl
  exact C87_library b32 P h1 h2 ["all"] (C49_all_partial b32 P h2) mk hmk g

/-! ## The hypotheses can be met -/

theorem wideFx_plain : BareLits wideFx := by
  intro n e h
  rcases h with h | h <;>
  · simp only [wideFx] at h
    split at h
    · cases h; exact ⟨rfl, fun _ => rfl⟩
    · cases h

/-- The library with the shipped polynomials, in 64 bits. -/
example (g : Name → RV) : ∃ calls,
    LinkedAll (ieeeInterp (fmtOf false)) g (fnsOf (outputItems false (shippedParts goodExt wideFx false fun _ => RExpr.num "3.14") ["all"])) calls :=
  (C87_all goodExt wideFx wideFx_plain false _ (shippedParts_generated _ _ _ _ fun _ => rfl) _ (.inr rfl) g).1

/-- It has 33 functions, and `sinh` is one of them. -/
example : (fnsOf (outputItems false emptyParts ["all"])).length = 33 ∧ "sinh" ∈ (fnsOf (outputItems false emptyParts ["all"])).map (fun f => f.name) := by decide +kernel

/-- With recursion a program need not fix anything: `fn f(x: fty) -> fty { f(x) }` is satisfied by every constant. -/
example (F : FloatFmt) (g : Name → RV) (y : RV) : LinkedAll (ieeeInterp F) g [RFn.ofFty "f" ["x"] [.expr (.app "f" [.v "x"])]] (fun _ _ => y) := by
  intro fn hf args
  obtain rfl := List.mem_singleton.1 hf
  rfl

end Verif
