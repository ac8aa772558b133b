import Verif.Props.Functions
import Verif.Props.Approx
import Verif.Model.Generated
import Verif.Model.Approximants
import Verif.Spec.Idents

/-!
# C49, C50: the function table against the generated code
-/

namespace Verif

/-! ## C49 -/

/-- The variable of the polynomial of a generator. -/
def approxVar (n : String) : String := if n = "atan2" then "z" else "x"

/-- The inserted parts bring no identifiers of their own beside the variable of the polynomial. -/
structure CleanParts (P : Gen.Parts) : Prop where
  approx : ∀ n bound, approxVar n ∈ bound → (P.approx n).free bound = []
  value : ∀ n, (P.value n).free [] = []

/-- The items written for a request. -/
def outputItems (b32 : Bool) (P : Gen.Parts) (request : List String) : List RItem :=
  match getFunctionsAndDeps functionTable (fuelFor functionTable request) request [] with
  | .ok l => (l.filter (·.hasGen)).flatMap fun f => Gen.items b32 P f.name
  | _ => []

/-- Every identifier used in the output for a request is defined in it. -/
def SelfContained (b32 : Bool) (P : Gen.Parts) (request : List String) : Prop :=
  ∀ s ∈ (outputItems b32 P request).flatMap RItem.uses, s ∈ (outputItems b32 P request).flatMap RItem.defines

/-- Parts without any identifiers. -/
def emptyParts : Gen.Parts := ⟨fun _ => RExpr.num "0.0", fun _ => RExpr.num "0.0"⟩

theorem asin_free (p q : RExpr) (hp : ∀ bound, "x" ∈ bound → p.free bound = []) (hq : ∀ bound, "x" ∈ bound → q.free bound = []) :
    (Gen.asin p).free = (Gen.asin q).free := by
  simp [RFn.free, Gen.asin, Gen.sinLike, RFn.ofFty, RStmt.freeBlock, RStmt.letT, RStmt.letU, RExpr.free, HMul.hMul, Mul.mul, HAdd.hAdd, Add.add, hp, hq]

theorem acos_free (p q : RExpr) (hp : ∀ bound, "x" ∈ bound → p.free bound = []) (hq : ∀ bound, "x" ∈ bound → q.free bound = []) :
    (Gen.acos p).free = (Gen.acos q).free := by
  simp [RFn.free, Gen.acos, Gen.sinLike, RFn.ofFty, RStmt.freeBlock, RStmt.letT, RStmt.letU, RExpr.free, HMul.hMul, Mul.mul, HAdd.hAdd, Add.add, hp, hq]

theorem atan_free (p q : RExpr) (hp : ∀ bound, "x" ∈ bound → p.free bound = []) (hq : ∀ bound, "x" ∈ bound → q.free bound = []) :
    (Gen.atan p).free = (Gen.atan q).free := by
  simp [RFn.free, Gen.atan, Gen.sinLike, RFn.ofFty, RStmt.freeBlock, RStmt.letT, RStmt.letU, RExpr.free, HMul.hMul, Mul.mul, HAdd.hAdd, Add.add, hp, hq]

theorem atan2_free (p q : RExpr) (hp : ∀ bound, "z" ∈ bound → p.free bound = []) (hq : ∀ bound, "z" ∈ bound → q.free bound = []) :
    (Gen.atan2 p).free = (Gen.atan2 q).free := by
  simp [RFn.free, Gen.atan2, Gen.sinLike, RFn.ofFty, RStmt.freeBlock, RStmt.letT, RStmt.letU, RExpr.free, HMul.hMul, Mul.mul, HAdd.hAdd, Add.add, hp, hq]

theorem exp2_free (p q : RExpr) (hp : ∀ bound, "x" ∈ bound → p.free bound = []) (hq : ∀ bound, "x" ∈ bound → q.free bound = []) :
    (Gen.exp2 p).free = (Gen.exp2 q).free := by
  simp [RFn.free, Gen.exp2, Gen.sinLike, RFn.ofFty, RStmt.freeBlock, RStmt.letT, RStmt.letU, RExpr.free, HMul.hMul, Mul.mul, HAdd.hAdd, Add.add, hp, hq]

theorem exp_m1_free (p q : RExpr) (hp : ∀ bound, "x" ∈ bound → p.free bound = []) (hq : ∀ bound, "x" ∈ bound → q.free bound = []) :
    (Gen.exp_m1 p).free = (Gen.exp_m1 q).free := by
  simp [RFn.free, Gen.exp_m1, Gen.sinLike, RFn.ofFty, RStmt.freeBlock, RStmt.letT, RStmt.letU, RExpr.free, HMul.hMul, Mul.mul, HAdd.hAdd, Add.add, hp, hq]

theorem log2_free (p q : RExpr) (hp : ∀ bound, "x" ∈ bound → p.free bound = []) (hq : ∀ bound, "x" ∈ bound → q.free bound = []) :
    (Gen.log2 p).free = (Gen.log2 q).free := by
  simp [RFn.free, Gen.log2, Gen.sinLike, RFn.ofFty, RStmt.freeBlock, RStmt.letT, RStmt.letU, RExpr.free, HMul.hMul, Mul.mul, HAdd.hAdd, Add.add, hp, hq]

theorem qnorm_free (p q : RExpr) (hp : ∀ bound, "x" ∈ bound → p.free bound = []) (hq : ∀ bound, "x" ∈ bound → q.free bound = []) :
    (Gen.qnorm p).free = (Gen.qnorm q).free := by
  simp [RFn.free, Gen.qnorm, Gen.sinLike, RFn.ofFty, RStmt.freeBlock, RStmt.letT, RStmt.letU, RExpr.free, HMul.hMul, Mul.mul, HAdd.hAdd, Add.add, hp, hq]

theorem sin_free (p q : RExpr) (hp : ∀ bound, "x" ∈ bound → p.free bound = []) (hq : ∀ bound, "x" ∈ bound → q.free bound = []) :
    (Gen.sin p).free = (Gen.sin q).free := by
  simp [RFn.free, Gen.sin, Gen.sinLike, RFn.ofFty, RStmt.freeBlock, RStmt.letT, RStmt.letU, RExpr.free, HMul.hMul, Mul.mul, HAdd.hAdd, Add.add, hp, hq]

theorem cos_free (p q : RExpr) (hp : ∀ bound, "x" ∈ bound → p.free bound = []) (hq : ∀ bound, "x" ∈ bound → q.free bound = []) :
    (Gen.cos p).free = (Gen.cos q).free := by
  simp [RFn.free, Gen.cos, Gen.sinLike, RFn.ofFty, RStmt.freeBlock, RStmt.letT, RStmt.letU, RExpr.free, HMul.hMul, Mul.mul, HAdd.hAdd, Add.add, hp, hq]

theorem tan_free (p q : RExpr) (hp : ∀ bound, "x" ∈ bound → p.free bound = []) (hq : ∀ bound, "x" ∈ bound → q.free bound = []) :
    (Gen.tan p).free = (Gen.tan q).free := by
  simp [RFn.free, Gen.tan, Gen.sinLike, RFn.ofFty, RStmt.freeBlock, RStmt.letT, RStmt.letU, RExpr.free, HMul.hMul, Mul.mul, HAdd.hAdd, Add.add, hp, hq]

theorem items_uses (b32 : Bool) (P : Gen.Parts) (hP : CleanParts P) (n : String) :
    (Gen.items b32 P n).flatMap RItem.uses = (Gen.items b32 emptyParts n).flatMap RItem.uses := by
  have h1 := fun n => hP.value n
  have hx : ∀ n, approxVar n = "x" → ∀ bound, "x" ∈ bound → (P.approx n).free bound = [] := fun n h b hb => hP.approx n b (h ▸ hb)
  have he : ∀ (n : String) (s : String) (bound : List String), s ∈ bound → (emptyParts.approx n).free bound = [] := fun _ _ _ _ => rfl
  unfold Gen.items
  split <;> (first | rfl | skip) <;>
    simp only [List.flatMap_cons, List.flatMap_nil, List.append_nil, RItem.uses, Gen.evalConst, Gen.constItem, h1] <;>
    (first | rfl | skip)
  · exact asin_free _ _ (hx _ (by decide)) (he _ _)
  · exact acos_free _ _ (hx _ (by decide)) (he _ _)
  · exact atan_free _ _ (hx _ (by decide)) (he _ _)
  · exact atan2_free _ _ (hP.approx "atan2") (he _ _)
  · exact exp2_free _ _ (hx _ (by decide)) (he _ _)
  · exact exp_m1_free _ _ (hx _ (by decide)) (he _ _)
  · exact log2_free _ _ (hx _ (by decide)) (he _ _)
  · exact qnorm_free _ _ (hx _ (by decide)) (he _ _)
  · exact sin_free _ _ (hx _ (by decide)) (he _ _)
  · exact cos_free _ _ (hx _ (by decide)) (he _ _)
  · exact tan_free _ _ (hx _ (by decide)) (he _ _)

theorem items_defines (b32 : Bool) (P Q : Gen.Parts) (n : String) :
    (Gen.items b32 P n).flatMap RItem.defines = (Gen.items b32 Q n).flatMap RItem.defines := by
  unfold Gen.items
  split <;> rfl

/-- `SelfContained` as a computation, for parts without identifiers. -/
def selfContainedB (b32 : Bool) (request : List String) : Bool :=
  let its := outputItems b32 emptyParts request
  let defs := its.flatMap RItem.defines
  (its.flatMap RItem.uses).all fun s => defs.contains s

theorem flatMap_congr_on {α β : Type} {f g : α → List β} (l : List α) (h : ∀ a, f a = g a) : l.flatMap f = l.flatMap g := by
  have : f = g := funext h
  rw [this]

theorem outputItems_uses (b32 : Bool) (P : Gen.Parts) (hP : CleanParts P) (request : List String) :
    (outputItems b32 P request).flatMap RItem.uses = (outputItems b32 emptyParts request).flatMap RItem.uses := by
  unfold outputItems
  split
  · rw [List.flatMap_assoc, List.flatMap_assoc]
    exact flatMap_congr_on _ fun f => items_uses b32 P hP f.name
  · rfl

theorem outputItems_defines (b32 : Bool) (P : Gen.Parts) (request : List String) :
    (outputItems b32 P request).flatMap RItem.defines = (outputItems b32 emptyParts request).flatMap RItem.defines := by
  unfold outputItems
  split
  · rw [List.flatMap_assoc, List.flatMap_assoc]
    exact flatMap_congr_on _ fun f => items_defines b32 P emptyParts f.name
  · rfl

theorem selfContained_iff (b32 : Bool) (P : Gen.Parts) (hP : CleanParts P) (request : List String) :
    SelfContained b32 P request ↔ selfContainedB b32 request = true := by
  unfold SelfContained selfContainedB
  rw [outputItems_uses b32 P hP, outputItems_defines b32 P]
  simp only [List.all_eq_true, List.contains_iff_mem]

/-- The requests whose output is complete. -/
def completeEntries : List String :=
  ["fty", "uty", "ity", "round", "nextafter", "asin", "acos", "ln_1p", "pnorm", "sin", "cos", "sin_cos", "invtrig", "trig", "libm", "all"]

/-- C49 fails for most of the table: exactly these sixteen of the seventy-five entries give output that defines everything it
uses, for both widths. -/
theorem C49_self_contained_iff (b32 : Bool) (P : Gen.Parts) (hP : CleanParts P) (f : FnDef) (hf : f ∈ functionTable) :
    SelfContained b32 P [f.name] ↔ f.name ∈ completeEntries := by
  rw [selfContained_iff b32 P hP]
  have : ∀ b32 : Bool, ∀ f ∈ functionTable, selfContainedB b32 [f.name] = completeEntries.contains f.name := by decide +kernel
  rw [this b32 f hf, List.contains_iff_mem]

/-- C49 is false: asking for `sinh` gives code that calls `exp2`, which is not defined. -/
theorem C49_sinh_incomplete (b32 : Bool) (P : Gen.Parts) :
    "exp2" ∈ (outputItems b32 P ["sinh"]).flatMap RItem.uses ∧ "exp2" ∉ (outputItems b32 P ["sinh"]).flatMap RItem.defines := by
  have h1 : ∀ b32, "exp2" ∈ (outputItems b32 emptyParts ["sinh"]).flatMap RItem.uses := by decide +kernel
  have h2 : ∀ b32, "exp2" ∉ (outputItems b32 emptyParts ["sinh"]).flatMap RItem.defines := by decide +kernel
  refine ⟨?_, by rw [outputItems_defines]; exact h2 b32⟩
  exact h1 b32

/-- C49 holds for the whole library: the request `all` is complete. -/
theorem C49_all_partial (b32 : Bool) (P : Gen.Parts) (hP : CleanParts P) : SelfContained b32 P ["all"] := by
  refine (C49_self_contained_iff b32 P hP ⟨"all", ["fty", "stats", "libm"], (16, 24), false⟩ ?_).2 ?_
  · decide +kernel
  · decide +kernel

/-- Parts shaped like the real ones: a polynomial in the variable, a literal. -/
example : CleanParts ⟨fun n => .method (.paren (.num "0.5")) "mul_add" [.path [approxVar n], .num "1.5"], fun _ => .num "3.14"⟩ :=
  ⟨fun n b h => by simp [RExpr.free, RExpr.freeArgs, RExpr.num, freeName, h], fun _ => rfl⟩

example : (outputItems true emptyParts ["sin"]).flatMap RItem.defines = ["fty", "ity", "round", "RECIP_2PI", "sin"] := by decide +kernel

/-! ## C50 -/

/-- C50: the configured counts are positive and have the parity `approx` accepts, for every generator and both widths. -/
theorem C50_counts_fit (s : ApproxSpec) (hs : s ∈ approxSpecs) (f : FnDef) (hf : f ∈ functionTable) (hn : f.name = s.name) :
    (0 < f.terms.1 ∧ s.parity.accepts f.terms.1) ∧ (0 < f.terms.2 ∧ s.parity.accepts f.terms.2) := by
  have key : ∀ s ∈ approxSpecs.map (fun s => (s.name, s.parity)), ∀ f ∈ functionTable, f.name = s.1 →
      (0 < f.terms.1 ∧ (s.2 = .odd → f.terms.1 % 2 = 0) ∧ (s.2 = .even → f.terms.1 % 2 = 1)) ∧
      (0 < f.terms.2 ∧ (s.2 = .odd → f.terms.2 % 2 = 0) ∧ (s.2 = .even → f.terms.2 % 2 = 1)) := by decide +kernel
  obtain ⟨⟨h1, h2, h3⟩, h4, h5, h6⟩ := key (s.name, s.parity) (List.mem_map.2 ⟨s, hs, rfl⟩) f hf hn
  refine ⟨⟨h1, ?_⟩, h4, ?_⟩
  · cases hp : s.parity with
    | odd => exact h2 hp
    | even => exact h3 hp
    | neither => trivial
  · cases hp : s.parity with
    | odd => exact h5 hp
    | even => exact h6 hp
    | neither => trivial

/-- C50: every generator with a polynomial is in the table. -/
theorem C50_all_in_table (s : ApproxSpec) (hs : s ∈ approxSpecs) : ∃ f ∈ functionTable, f.name = s.name ∧ f.hasGen = true := by
  have key : ∀ s ∈ approxSpecs.map (·.name), ∃ f ∈ functionTable, f.name = s ∧ f.hasGen = true := by decide +kernel
  exact key s.name (List.mem_map.2 ⟨s, hs, rfl⟩)

/-- C50: with the configured count (of either width) the polynomial is always written out, whatever its coefficients. -/
theorem C50_never_wrong_number (s : ApproxSpec) (hs : s ∈ approxSpecs) (f : FnDef) (hf : f ∈ functionTable) (hn : f.name = s.name)
    (terms : List Dec) (hl : terms.length = f.terms.1 ∨ terms.length = f.terms.2) :
    ∃ e, mulAddPolynomial terms [s.var] s.parity = .ok e := by
  obtain ⟨⟨h1, h2⟩, h3, h4⟩ := C50_counts_fit s hs f hf hn
  have : 0 < terms.length ∧ s.parity.accepts terms.length := by
    rcases hl with h | h <;> rw [h]
    · exact ⟨h1, h2⟩
    · exact ⟨h3, h4⟩
  obtain ⟨e, he, _⟩ := C37_chain_value (ratInterp_poly 0) terms [s.var] s.parity this.1 this.2
  exact ⟨e, he⟩

example : ApproxSpec.cos ∈ approxSpecs ∧ (⟨"cos", ["fty", "round", "RECIP_2PI"], (13, 25), true⟩ : FnDef) ∈ functionTable :=
  ⟨by simp [approxSpecs], by decide +kernel⟩

/-- With one term less for `cos` the call would fail. -/
example (terms : List Dec) (h : terms.length = 24) : mulAddPolynomial terms ["x"] ApproxSpec.cos.parity = .err .wrongNumberOfTerms :=
  (C38_wrong_number_of_terms terms ["x"] .even (by omega)).2 (Or.inr ⟨rfl, by omega⟩)

end Verif
