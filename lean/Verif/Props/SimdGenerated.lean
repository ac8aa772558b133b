import Verif.Props.SimdAccepts
import Verif.Props.CGenerated

/-!
# C45, C79: the vectorised library
-/

namespace Verif

/-! ## Checking names by computation -/

mutual
/-- All single names used are among the known ones. -/
def RExpr.namesIn (known : List String) : RExpr → Bool
  | .lit _ | .verbatim | .other _ => true
  | .path [s] => known.contains s
  | .path _ => true
  | .unary _ e => e.namesIn known
  | .paren e => e.namesIn known
  | .cast e _ => e.namesIn known
  | .binary l _ r => l.namesIn known && r.namesIn known
  | .assign l r => l.namesIn known && r.namesIn known
  | .assignOp l _ r => l.namesIn known && r.namesIn known
  | .method r _ args => r.namesIn known && RExpr.namesInAll known args
  | .call _ args => RExpr.namesInAll known args
  | .ifThen c t => c.namesIn known && RStmt.namesIn known t
  | .ifElse c t f => c.namesIn known && RStmt.namesIn known t && f.namesIn known
  | .block b => RStmt.namesIn known b
  | .array es => RExpr.namesInAll known es
  | .tuple es => RExpr.namesInAll known es

def RExpr.namesInAll (known : List String) : List RExpr → Bool
  | [] => true
  | e :: es => e.namesIn known && RExpr.namesInAll known es

def RStmt.namesIn (known : List String) : List RStmt → Bool
  | [] => true
  | .decl _ _ :: rest => RStmt.namesIn known rest
  | .letInit n _ e :: rest => e.namesIn known && RStmt.namesIn (n :: known) rest
  | .const n _ e :: rest => e.namesIn known && RStmt.namesIn (n :: known) rest
  | .semi e :: rest => e.namesIn known && RStmt.namesIn known rest
  | .expr e :: rest => e.namesIn known && RStmt.namesIn known rest
end

mutual
theorem namesIn_expr (known : List String) (e : RExpr) (h : e.namesIn known = true) (p : Name) (hp : p ∈ e.freeNames) :
    p.length ≠ 1 ∨ ∃ s ∈ known, p = [s] := by
  match e with
  | .lit _ | .verbatim | .other _ => simp [RExpr.freeNames] at hp
  | .path q =>
    simp only [RExpr.freeNames, List.mem_singleton] at hp
    subst hp
    match p with
    | [] => exact .inl (by simp)
    | [s] => exact .inr ⟨s, by simpa [RExpr.namesIn] using h, rfl⟩
    | _ :: _ :: _ => exact .inl (by simp)
  | .unary _ e | .paren e | .cast e _ =>
    simp only [RExpr.freeNames] at hp
    simp only [RExpr.namesIn] at h
    exact namesIn_expr known e h p hp
  | .binary l _ r | .assign l r | .assignOp l _ r =>
    simp only [RExpr.freeNames, List.mem_append] at hp
    simp only [RExpr.namesIn, Bool.and_eq_true] at h
    exact hp.elim (namesIn_expr known l h.1 p) (namesIn_expr known r h.2 p)
  | .method r m args =>
    simp only [RExpr.freeNames, List.mem_append] at hp
    simp only [RExpr.namesIn, Bool.and_eq_true] at h
    exact hp.elim (namesIn_expr known r h.1 p) (namesIn_all known args h.2 p)
  | .call f args =>
    simp only [RExpr.freeNames] at hp
    simp only [RExpr.namesIn] at h
    exact namesIn_all known args h p hp
  | .ifThen c t =>
    simp only [RExpr.freeNames, List.mem_append] at hp
    simp only [RExpr.namesIn, Bool.and_eq_true] at h
    exact hp.elim (namesIn_expr known c h.1 p) (namesIn_block known t h.2 p)
  | .ifElse c t f =>
    simp only [RExpr.freeNames, List.mem_append] at hp
    simp only [RExpr.namesIn, Bool.and_eq_true] at h
    exact hp.elim (fun hp => hp.elim (namesIn_expr known c h.1.1 p) (namesIn_block known t h.1.2 p)) (namesIn_expr known f h.2 p)
  | .block b =>
    simp only [RExpr.freeNames] at hp
    simp only [RExpr.namesIn] at h
    exact namesIn_block known b h p hp
  | .array es | .tuple es =>
    simp only [RExpr.freeNames] at hp
    simp only [RExpr.namesIn] at h
    exact namesIn_all known es h p hp

theorem namesIn_all (known : List String) (es : List RExpr) (h : RExpr.namesInAll known es = true) (p : Name) (hp : p ∈ RExpr.freeNamesAll es) :
    p.length ≠ 1 ∨ ∃ s ∈ known, p = [s] := by
  match es with
  | [] => simp [RExpr.freeNamesAll] at hp
  | e :: es =>
    simp only [RExpr.freeNamesAll, List.mem_append] at hp
    simp only [RExpr.namesInAll, Bool.and_eq_true] at h
    exact hp.elim (namesIn_expr known e h.1 p) (namesIn_all known es h.2 p)

theorem namesIn_block (known : List String) (b : List RStmt) (h : RStmt.namesIn known b = true) (p : Name) (hp : p ∈ RStmt.freeNames b) :
    p.length ≠ 1 ∨ ∃ s ∈ known, p = [s] := by
  match b with
  | [] => simp [RStmt.freeNames] at hp
  | .decl _ _ :: rest =>
    simp only [RStmt.freeNames] at hp
    simp only [RStmt.namesIn] at h
    exact namesIn_block known rest h p hp
  | .letInit n _ e :: rest | .const n _ e :: rest =>
    simp only [RStmt.freeNames, List.mem_append, List.mem_filter] at hp
    simp only [RStmt.namesIn, Bool.and_eq_true] at h
    rcases hp with hp | ⟨hp, hn⟩
    · exact namesIn_expr known e h.1 p hp
    · rcases namesIn_block (n :: known) rest h.2 p hp with h' | ⟨s, hs, rfl⟩
      · exact .inl h'
      · rcases List.mem_cons.mp hs with rfl | hs
        · simp at hn
        · exact .inr ⟨s, hs, rfl⟩
  | .expr e :: rest | .semi e :: rest =>
    simp only [RStmt.freeNames, List.mem_append] at hp
    simp only [RStmt.namesIn, Bool.and_eq_true] at h
    exact hp.elim (namesIn_expr known e h.1 p) (namesIn_block known rest h.2 p)
end

/-! ## The inserted parts -/

/-- The inserted polynomials and constants can be vectorised and use no names beside the variable of the polynomial. -/
structure VectorParts (P : Gen.Parts) : Prop where
  approx : ∀ n, (P.approx n).vectorisable = true
  approx_names : ∀ n known, approxVar n ∈ known → (P.approx n).namesIn known = true
  value : ∀ n, (P.value n).vectorisable = true
  value_names : ∀ n, (P.value n).freeNames = []

example : VectorParts holeParts := ⟨fun n => by unfold holeParts approxVar; dsimp only; split <;> decide, fun n k h => by simpa [holeParts, RExpr.namesIn] using h, fun _ => rfl, fun _ => rfl⟩

theorem chain_vectorisable (g : Lit → Expr) (hg : ∀ l, l.isNumeric = true → (g l).toR.vectorisable = true) (u : Expr)
    (hu : (u.mapLeaves g .path).toR.vectorisable = true) (hi : Dec) (cs : List Dec) : ((mulAddChain u hi cs).mapLeaves g .path).toR.vectorisable = true := by
  induction cs using List.reverseRecOn with
  | nil =>
    obtain ⟨l, hl, hn⟩ := quotedDec_lit hi
    simpa [mulAddChain, hl, Expr.mapLeaves, Expr.toR, RExpr.vectorisable] using hg l hn
  | append_singleton cs c ih =>
    obtain ⟨l, hl, hn⟩ := quotedDec_lit c
    rw [mulAddChain_snoc]
    simp [Expr.mapLeaves, Expr.mapLeavesArgs, Expr.toR, Expr.toRArgs, RExpr.vectorisable, RExpr.vectorisableAll, hl, ih, hu, hg l hn, laneMethods]

theorem chain_namesIn (g : Lit → Expr) (known : List String) (hg : ∀ l, l.isNumeric = true → (g l).toR.namesIn known = true) (u : Expr)
    (hu : (u.mapLeaves g .path).toR.namesIn known = true) (hi : Dec) (cs : List Dec) : ((mulAddChain u hi cs).mapLeaves g .path).toR.namesIn known = true := by
  induction cs using List.reverseRecOn with
  | nil =>
    obtain ⟨l, hl, hn⟩ := quotedDec_lit hi
    simpa [mulAddChain, hl, Expr.mapLeaves, Expr.toR, RExpr.namesIn] using hg l hn
  | append_singleton cs c ih =>
    obtain ⟨l, hl, hn⟩ := quotedDec_lit c
    rw [mulAddChain_snoc]
    simp [Expr.mapLeaves, Expr.mapLeavesArgs, Expr.toR, Expr.toRArgs, RExpr.namesIn, RExpr.namesInAll, hl, ih, hu, hg l hn]

/-- **C45** The polynomials that the generators insert, for all coefficients, as decimals at either width: they can be vectorised. -/
theorem C45_polynomial (ext : FloatExt) (hx : SuffixedLits ext) (b32 : Bool) (terms : List Dec) (s : String) (hs : s ≠ "fty") (par : Parity) (e e' : Expr)
    (he : mulAddPolynomial terms [s] par = .ok e) (he' : useNumberType ext e "decimal" (if b32 then 32 else 64) = .ok e') :
    e'.toR.vectorisable = true ∧ ∀ known, s ∈ known → e'.toR.namesIn known = true := by
  let v := useNumberTypeVisitor ext "decimal" (if b32 then 32 else 64)
  let g : Lit → Expr := fun l => match v.lit l with | .ok e => e | _ => .lit (.float "1.0".toList (if b32 then "f32" else "f64"))
  have hleaves : e' = e.mapLeaves g .path := by
    refine Visitor.visit_leaves v rfl rfl rfl _ .path ?_ ?_ e e' he'
    · intro l x hx; simp [g, hx]
    · intro p x hx; simpa [v, useNumberTypeVisitor] using hx.symm
  have hg : ∀ l, l.isNumeric = true → ∃ ds, g l = .lit (.float ds (if b32 then "f32" else "f64")) := by
    intro l hl
    have key : ∀ ds, v.lit l = numberTypeLit ext "decimal" (if b32 then 32 else 64) l ds → ∃ ds, g l = .lit (.float ds (if b32 then "f32" else "f64")) := by
      intro ds hv
      simp only [g, hv]
      cases hn : numberTypeLit ext "decimal" (if b32 then 32 else 64) l ds with
      | ok x =>
        unfold numberTypeLit at hn
        simp only [Res.bind_eq_ok] at hn
        obtain ⟨d, _, a, _, b, _, h⟩ := hn
        cases b32
        · simp at h
          obtain ⟨ds, rfl⟩ := hx.f64 _ _ h
          exact ⟨ds, rfl⟩
        · simp at h
          obtain ⟨ds, rfl⟩ := hx.f32 _ _ h
          exact ⟨ds, rfl⟩
      | _ => exact ⟨_, rfl⟩
    cases l with
    | int ds k => exact key ds rfl
    | float ds k => exact key ds rfl
    | _ => simp [Lit.isNumeric] at hl
  have hg1 : ∀ l, l.isNumeric = true → (g l).toR.vectorisable = true := fun l hl => by
    obtain ⟨ds, h⟩ := hg l hl
    rw [h]
    cases b32 <;> simp [Expr.toR, RExpr.vectorisable, Lit.splats]
  have hg2 : ∀ known l, l.isNumeric = true → (g l).toR.namesIn known = true := fun known l hl => by
    obtain ⟨ds, h⟩ := hg l hl
    rw [h]; rfl
  obtain ⟨u, hi, cs, hu, h⟩ := mulAdd_shape terms [s] par e he
  have hu1 : (u.mapLeaves g .path).toR.vectorisable = true := by
    rcases hu with rfl | rfl <;> simp [Expr.mapLeaves, Expr.toR, RExpr.vectorisable, Ne.symm hs, laneOp]
  have hu2 : ∀ known, s ∈ known → (u.mapLeaves g .path).toR.namesIn known = true := fun known hk => by
    rcases hu with rfl | rfl <;> simp [Expr.mapLeaves, Expr.toR, RExpr.namesIn, hk]
  have h1 := chain_vectorisable g hg1 u hu1 hi cs
  have h2 := fun known hk => chain_namesIn g known (hg2 known) u (hu2 known hk) hi cs
  rcases h.1 with h | h
  · rw [hleaves, h]
    exact ⟨h1, h2⟩
  · rw [hleaves, h]
    refine ⟨?_, fun known hk => ?_⟩
    · simp [Expr.mapLeaves, Expr.toR, RExpr.vectorisable, Ne.symm hs, laneOp, h1]
    · simp [Expr.mapLeaves, Expr.toR, RExpr.namesIn, hk, h2 known hk]

/-! ## The library -/

/-- The functions of the library that can be vectorised. -/
def vectorEntries : List String :=
  ["round", "recip_approx", "sqrt_approx", "cbrt_approx", "sinh", "cosh", "tanh", "asinh", "acosh", "atanh", "asin", "acos", "atan", "atan2", "exp", "log2",
   "ln_1p", "ln", "log10", "log", "powf", "powi", "cbrt", "hypot", "dnorm", "qnorm"]

/-- The functions of the library. -/
def functionEntries : List String :=
  vectorEntries ++ ["negate_on_odd", "nextafter", "exp2", "exp_m1", "sqrt", "recip", "runif", "rnorm", "sin", "cos", "tan", "sin_cos"]

theorem vec_add (a b : RExpr) : (a + b).vectorisable = (a.vectorisable && b.vectorisable) := by
  show RExpr.vectorisable (.binary a .add b) = _; simp [RExpr.vectorisable, laneOp]
theorem vec_sub (a b : RExpr) : (a - b).vectorisable = (a.vectorisable && b.vectorisable) := by
  show RExpr.vectorisable (.binary a .sub b) = _; simp [RExpr.vectorisable, laneOp]
theorem vec_mul (a b : RExpr) : (a * b).vectorisable = (a.vectorisable && b.vectorisable) := by
  show RExpr.vectorisable (.binary a .mul b) = _; simp [RExpr.vectorisable, laneOp]
theorem vec_div (a b : RExpr) : (a / b).vectorisable = (a.vectorisable && b.vectorisable) := by
  show RExpr.vectorisable (.binary a .div b) = _; simp [RExpr.vectorisable, laneOp]
theorem vec_neg (a : RExpr) : (-a).vectorisable = a.vectorisable := by
  show RExpr.vectorisable (.unary .neg a) = _; simp [RExpr.vectorisable]

theorem names_add (k : List String) (a b : RExpr) : (a + b).namesIn k = (a.namesIn k && b.namesIn k) := by
  show RExpr.namesIn k (.binary a .add b) = _; simp [RExpr.namesIn]
theorem names_sub (k : List String) (a b : RExpr) : (a - b).namesIn k = (a.namesIn k && b.namesIn k) := by
  show RExpr.namesIn k (.binary a .sub b) = _; simp [RExpr.namesIn]
theorem names_mul (k : List String) (a b : RExpr) : (a * b).namesIn k = (a.namesIn k && b.namesIn k) := by
  show RExpr.namesIn k (.binary a .mul b) = _; simp [RExpr.namesIn]
theorem names_div (k : List String) (a b : RExpr) : (a / b).namesIn k = (a.namesIn k && b.namesIn k) := by
  show RExpr.namesIn k (.binary a .div b) = _; simp [RExpr.namesIn]
theorem names_neg (k : List String) (a : RExpr) : (-a).namesIn k = a.namesIn k := by
  show RExpr.namesIn k (.unary .neg a) = _; simp [RExpr.namesIn]

/-- The functions in the items of an entry have vectorisable bodies and use only these names. -/
def itemVectorisable (known : List String) : RItem → Bool
  | .fn f => RStmt.vectorisableBlock f.body && RStmt.namesIn (f.params.map (·.1) ++ known) f.body
  | _ => true

/-- The constants that functions of the library use. -/
def libraryConsts : List String :=
  ["LOG2_SHIFT", "LOG2_OFFSET", "NAN", "INFINITY", "MIN_POSITIVE", "ONE_MASK", "ONE_BITS", "EXP2_ONE", "EXP2_SCALE", "EXP2_MIN", "EXP2_MAX", "ONE_THIRD",
   "TWO_THIRDS", "PI", "PI_BY_2", "TAN_PI_BY_8", "PI_BY_8", "LOG2_E", "RECIP_LOG2_E", "RECIP_LOG2_10", "RECIP_PI", "RECIP_2PI", "SQRT_RECIP_2PI"]

theorem entry_vectorisable (b32 : Bool) (P : Gen.Parts) (hP : VectorParts P) (n : String) (hn : n ∈ vectorEntries) :
    ∀ it ∈ Gen.items b32 P n, itemVectorisable libraryConsts it = true := by
  have h1 := hP.approx
  have h2 := hP.approx_names
  simp only [vectorEntries, List.mem_cons, List.not_mem_nil, or_false] at hn
  rcases hn with rfl | rfl | rfl | rfl | rfl | rfl | rfl | rfl | rfl | rfl | rfl | rfl | rfl | rfl | rfl | rfl | rfl | rfl | rfl | rfl | rfl | rfl | rfl | rfl |
    rfl | rfl <;> simp only [Gen.items, List.forall_mem_singleton] <;> first | decide |
  simp [itemVectorisable, libraryConsts, Gen.asin, Gen.acos, Gen.atan, Gen.atan2, Gen.log2, Gen.qnorm, RFn.ofFty, RStmt.vectorisableBlock,
    RStmt.namesIn, RStmt.letT, RStmt.letU, RExpr.vectorisable, RExpr.vectorisableAll, RExpr.namesIn, RExpr.namesInAll, RExpr.v, RExpr.cond, RExpr.gt,
    RExpr.lt, RExpr.ge, RExpr.num, RExpr.app, RExpr.as, RExpr.fromBits, Gen.insideLim, Gen.edgeArg, vec_add, vec_sub, vec_mul,
    vec_div, vec_neg, names_add, names_sub, names_mul, names_div, names_neg, h1, h2, approxVar, Lit.splats, laneOp, laneMethods, RExpr.takesMethod]

/-- **C45** Exactly these functions of the library have a body that can be vectorised; the other twelve do not. -/
theorem C45_generated_iff (b32 : Bool) (P : Gen.Parts) (hP : VectorParts P) (n : String) (hn : n ∈ functionEntries) :
    (∀ f, RItem.fn f ∈ Gen.items b32 P n → RStmt.vectorisableBlock f.body = true) ↔ n ∈ vectorEntries := by
  constructor
  · intro h
    by_contra hv
    rw [functionEntries, List.mem_append, or_iff_right hv] at hn
    simp only [List.mem_cons, List.not_mem_nil, or_false] at hn
    rcases hn with rfl | rfl | rfl | rfl | rfl | rfl | rfl | rfl | rfl | rfl | rfl | rfl <;>
      (have h' := h _ (by simp only [Gen.items]; exact List.mem_singleton.mpr rfl)) <;>
      (first | (cases b32 <;> revert h' <;> decide) | skip) <;>
      simp [Gen.exp2, Gen.exp_m1, Gen.sin, Gen.cos, Gen.tan, Gen.sinLike, RFn.ofFty, RStmt.vectorisableBlock, RStmt.letT, RStmt.letU, RExpr.vectorisable,
        RExpr.app, vec_sub, laneFunctions] at h'
  · intro hv f hf
    have := entry_vectorisable b32 P hP n hv _ hf
    simp only [itemVectorisable, Bool.and_eq_true] at this
    exact this.1

/-! ## No panic -/

theorem vectorisable_accepts (e : RExpr) (h : e.vectorisable = true) : e.simdAccepts = true := by
  obtain ⟨e', he, -⟩ := lanes_expr wholeInterp true (wholeInterp_fits true) 0 e h
  exact (C79_expr_iff true e).1.mp ⟨e', he⟩

theorem acc_add (a b : RExpr) : (a + b).simdAccepts = (a.simdAccepts && b.simdAccepts) := by
  show RExpr.simdAccepts (.binary a .add b) = _; simp [RExpr.simdAccepts]
theorem acc_sub (a b : RExpr) : (a - b).simdAccepts = (a.simdAccepts && b.simdAccepts) := by
  show RExpr.simdAccepts (.binary a .sub b) = _; simp [RExpr.simdAccepts]
theorem acc_mul (a b : RExpr) : (a * b).simdAccepts = (a.simdAccepts && b.simdAccepts) := by
  show RExpr.simdAccepts (.binary a .mul b) = _; simp [RExpr.simdAccepts]
theorem acc_div (a b : RExpr) : (a / b).simdAccepts = (a.simdAccepts && b.simdAccepts) := by
  show RExpr.simdAccepts (.binary a .div b) = _; simp [RExpr.simdAccepts]
theorem acc_neg (a : RExpr) : (-a).simdAccepts = a.simdAccepts := by
  show RExpr.simdAccepts (.unary .neg a) = _; simp [RExpr.simdAccepts]

/-- The inserted parts are accepted by the vectoriser. -/
def AcceptedParts (P : Gen.Parts) : Prop := ∀ n, (P.approx n).simdAccepts = true ∧ (P.value n).simdAccepts = true

theorem VectorParts.accepted {P : Gen.Parts} (h : VectorParts P) : AcceptedParts P :=
  fun n => ⟨vectorisable_accepts _ (h.approx n), vectorisable_accepts _ (h.value n)⟩

/-- Acceptance of an item, with the value of a constant. -/
def RItem.simdAcceptsValue : RItem → Bool
  | .fn f => f.simdAccepts
  | .const _ _ e => e.simdAccepts
  | _ => true

theorem items_accepted (b32 : Bool) (P : Gen.Parts) (hP : AcceptedParts P) (n : String) : ∀ it ∈ Gen.items b32 P n, it.simdAcceptsValue = true := by
  have h1 := fun n => (hP n).1
  have h2 := fun n => (hP n).2
  unfold Gen.items
  split <;> (first | (cases b32 <;> decide) | skip) <;>
  simp [RItem.simdAcceptsValue, RFn.simdAccepts, Gen.evalConst, Gen.constItem, Gen.asin, Gen.acos, Gen.atan, Gen.atan2, Gen.exp2, Gen.exp_m1, Gen.log2,
    Gen.qnorm, Gen.sin, Gen.cos, Gen.tan, Gen.sinLike, RFn.ofFty, RStmt.simdAcceptsAll, RStmt.simdAccepts, RStmt.letT, RStmt.letU, RExpr.simdAccepts,
    RExpr.simdAcceptsAll, RExpr.v, RExpr.cond, RExpr.gt, RExpr.lt, RExpr.ge, RExpr.num, RExpr.app, RExpr.as, RExpr.fromBits, Gen.scaleBits, Gen.insideLim,
    Gen.edgeArg, acc_add, acc_sub, acc_mul, acc_div, acc_neg, h1, h2, isSingleExpr, isVectorType, RExpr.endsInCast]

theorem output_accepted (b32 : Bool) (P : Gen.Parts) (hP : AcceptedParts P) (request : List String) :
    ∀ it ∈ outputItems b32 P request, it.simdAcceptsValue = true := by
  intro it hit
  unfold outputItems at hit
  split at hit
  · obtain ⟨f, _, hf⟩ := List.mem_flatMap.mp hit
    exact items_accepted b32 P hP f.name it hf
  · simp at hit

/-- **C79** The library written for any request, whatever its polynomials and constants, is vectorised without a panic. -/
theorem C79_generated (b32 : Bool) (P : Gen.Parts) (hP : AcceptedParts P) (request : List String) : ∃ ms, toSimd b32 (outputItems b32 P request) = .ok ms := by
  have h := output_accepted b32 P hP request
  refine (C79_file_iff b32 _ fun n t e he => h _ he).1.mpr fun f hf => ?_
  simpa [RItem.simdAcceptsValue, RFn.simdAccepts] using h _ hf

/-! ## Where the constants are -/

/-- The place of a name in the table. -/
def tablePos (s : String) : ℕ := (functionTable.map (·.name)).idxOf s

/-- The generators called for a request, in order. -/
def outputNames (request : List String) : List String :=
  match getFunctionsAndDeps functionTable (fuelFor functionTable request) request [] with
  | .ok l => (l.filter (·.hasGen)).map (·.name)
  | _ => []

theorem outputItems_names (b32 : Bool) (P : Gen.Parts) (request : List String) :
    outputItems b32 P request = (outputNames request).flatMap (Gen.items b32 P) := by
  unfold outputItems outputNames
  cases getFunctionsAndDeps functionTable (fuelFor functionTable request) request [] <;> simp [List.flatMap_map]

theorem tablePos_get : ∀ i < functionTable.length, ∀ f, functionTable[i]? = some f → tablePos f.name = i := by
  have : ∀ i < functionTable.length, (functionTable[i]?.map fun f => tablePos f.name) = some i := by decide +kernel
  intro i hi f hf
  simpa [hf] using this i hi

theorem outputNames_sorted (request : List String) : (outputNames request).Pairwise (fun a b => tablePos a < tablePos b) := by
  unfold outputNames
  split
  · rename_i l h
    obtain ⟨is, his, hl⟩ := C47_table_order functionTable request [] _ l h (Nat.le_refl _)
    have hpos : l.map (fun f => tablePos f.name) = is := by
      have hlen : l.length = is.length := by simpa using congrArg List.length hl
      refine List.ext_getElem (by simpa using hlen) fun i h1 h2 => ?_
      have h3 : i < l.length := by simpa using h1
      have : some l[i] = functionTable[is[i]]? := by
        have := congrArg (·[i]?) hl
        simpa [h3, h2] using this
      have hlt : is[i] < functionTable.length := by
        by_contra hge
        rw [List.getElem?_eq_none (by omega)] at this
        cases this
      simpa using tablePos_get _ hlt _ this.symm
    rw [← hpos, List.pairwise_map] at his
    rw [List.pairwise_map]
    exact his.filter _
  · exact List.Pairwise.nil

theorem constsOf_append (a b : List RItem) : RItem.constsOf (a ++ b) = RItem.constsOf a ++ RItem.constsOf b := by
  induction a with
  | nil => rfl
  | cons it a ih => cases it <;> simp [RItem.constsOf, ih]

theorem constsOf_flatMap (b32 : Bool) (P : Gen.Parts) (ns : List String) :
    RItem.constsOf (ns.flatMap (Gen.items b32 P)) = ns.flatMap fun n => RItem.constsOf (Gen.items b32 P n) := by
  induction ns with
  | nil => rfl
  | cons n ns ih => simp [constsOf_append, ih]

/-- A generator for a constant makes this constant, and no other makes one. -/
theorem items_consts (b32 : Bool) (P : Gen.Parts) (n : String) : (RItem.constsOf (Gen.items b32 P n)).map (·.name) = if n ∈ libraryConsts then [n] else [] := by
  by_cases hn : n ∈ libraryConsts
  · rw [if_pos hn]
    simp only [libraryConsts, List.mem_cons, List.not_mem_nil, or_false] at hn
    rcases hn with rfl | rfl | rfl | rfl | rfl | rfl | rfl | rfl | rfl | rfl | rfl | rfl | rfl | rfl | rfl | rfl | rfl | rfl | rfl | rfl | rfl | rfl | rfl <;> rfl
  · rw [if_neg hn]
    unfold Gen.items
    split <;> first | rfl | (exfalso; revert hn; decide)

theorem items_consts_ok (b32 : Bool) (P : Gen.Parts) (hP : VectorParts P) (n : String) :
    ∀ c ∈ RItem.constsOf (Gen.items b32 P n), c.value.vectorisable = true ∧ ∀ p ∈ c.value.freeNames, p.length ≠ 1 := by
  have h1 := hP.value
  have h2 := hP.value_names
  unfold Gen.items
  split <;> (first | (cases b32 <;> decide) | skip) <;> simp [RItem.constsOf, Gen.evalConst, Gen.constItem, h1, h2]

/-- What the heads of functions must satisfy. -/
def headOk (f : RFn) : Bool :=
  !f.params.isEmpty && (f.params.map (·.1)).Nodup && f.params.all (fun q => q.1 ≠ "fty" && q.1 ≠ "self" && !libraryConsts.contains q.1) && f.name ≠ "fty"

theorem items_fn (b32 : Bool) (P : Gen.Parts) (n : String) (f : RFn) (hf : RItem.fn f ∈ Gen.items b32 P n) :
    Gen.items b32 P n = [.fn f] ∧ f.name = n ∧ headOk f = true := by
  revert hf
  unfold Gen.items
  split <;> intro hf <;> first
    | (simp only [List.mem_singleton, RItem.fn.injEq] at hf; subst hf; exact ⟨rfl, rfl, rfl⟩)
    | simp [Gen.tyItem, Gen.evalConst, Gen.constItem, Gen.LOG2_SHIFT, Gen.LOG2_OFFSET, Gen.NAN, Gen.INFINITY, Gen.MIN_POSITIVE, Gen.ONE_MASK, Gen.ONE_BITS,
        Gen.EXP2_ONE, Gen.EXP2_SCALE, Gen.EXP2_MIN, Gen.EXP2_MAX, Gen.ONE_THIRD, Gen.TWO_THIRDS] at hf

theorem items_defines_name (b32 : Bool) (P : Gen.Parts) (n s : String) (h : s ∈ (Gen.items b32 P n).flatMap RItem.defines) : s = n := by
  revert h
  unfold Gen.items
  split <;> intro h <;> exact List.mem_singleton.mp (by first | exact h | exact absurd h (by simp))

theorem output_defines_name (b32 : Bool) (P : Gen.Parts) (request : List String) (s : String)
    (h : s ∈ (outputItems b32 P request).flatMap RItem.defines) : s ∈ outputNames request := by
  rw [outputItems_names, List.flatMap_assoc] at h
  obtain ⟨n, hn, hs⟩ := List.mem_flatMap.mp h
  exact items_defines_name b32 P n s hs ▸ hn

theorem consts_before : ∀ n ∈ vectorEntries, n ≠ "round" → ∀ s ∈ libraryConsts, tablePos s < tablePos n := by decide +kernel

theorem entries_not_consts : ∀ n ∈ vectorEntries, n ∉ libraryConsts := by decide

theorem round_no_consts : ∀ s ∈ libraryConsts, [s] ∉ RStmt.freeNames Gen.round.body := by decide

/-- **C45** The vectorised library, for every request: a function of the list, if the constants that it uses are part of the output (see C49), has
a method of its name that computes it in every lane, whatever numbers, operators and functions mean.  Partial: twelve functions are not on the list. -/
theorem C45_generated_partial {α : Type} (I : RInterp α) (b32 : Bool) (hI : I.Fits b32) (P : Gen.Parts) (hP : VectorParts P) (request : List String) (f : RFn)
    (hf : RItem.fn f ∈ outputItems b32 P request) (hv : f.name ∈ vectorEntries)
    (hc : ∀ s ∈ libraryConsts, [s] ∈ RStmt.freeNames f.body → s ∈ (outputItems b32 P request).flatMap RItem.defines) :
    ∃ ms pre post, toSimd b32 (outputItems b32 P request) = .ok ms ∧ outputItems b32 P request = pre ++ .fn f :: post ∧ ∃ m ∈ ms, m.name = f.name ∧
      ∀ (n : ℕ) (base : Name → α) (v : Fin n → α) (vs : List (Fin n → α)) (_ : vs.length + 1 = f.params.length) (i : Fin n),
        m.apply (I.lanes n) (fun p _ => base p) v vs i = f.apply I (constNames I base (RItem.constsOf pre)) (v i :: vs.map (· i)) := by
  obtain ⟨ms, hms⟩ := C79_generated b32 P hP.accepted request
  have hsort := outputNames_sorted request
  have hnames := outputItems_names b32 P request
  rw [hnames] at hf
  obtain ⟨k, hk, hfk⟩ := List.mem_flatMap.mp hf
  obtain ⟨hitems, rfl, hhead⟩ := items_fn b32 P k f hfk
  obtain ⟨A, B, hAB⟩ := List.append_of_mem hk
  have hsplit : outputItems b32 P request = A.flatMap (Gen.items b32 P) ++ .fn f :: B.flatMap (Gen.items b32 P) := by
    rw [hnames, hAB, List.flatMap_append, List.flatMap_cons, hitems]
    simp
  have hcsn : (RItem.constsOf (A.flatMap (Gen.items b32 P))).map (·.name) = A.filter (· ∈ libraryConsts) := by
    rw [constsOf_flatMap, List.map_flatMap]
    simp only [items_consts]
    clear hAB hsplit
    induction A with
    | nil => rfl
    | cons a A ih =>
      rw [List.flatMap_cons, ih, List.filter_cons]
      by_cases ha : a ∈ libraryConsts <;> simp [ha]
  have hApw : A.Pairwise (fun a b => tablePos a < tablePos b) := by
    rw [hAB, List.pairwise_append] at hsort
    exact hsort.1
  have hmemc : ∀ c ∈ RItem.constsOf (A.flatMap (Gen.items b32 P)), c.name ∈ libraryConsts := fun c hc => by
    have : c.name ∈ (RItem.constsOf (A.flatMap (Gen.items b32 P))).map (·.name) := List.mem_map_of_mem hc
    rw [hcsn] at this
    simpa using (List.mem_filter.mp this).2
  have hcopy : CopyableConsts (RItem.constsOf (A.flatMap (Gen.items b32 P))) := by
    have hall : ∀ c ∈ RItem.constsOf (A.flatMap (Gen.items b32 P)), c.value.vectorisable = true ∧ ∀ p ∈ c.value.freeNames, p.length ≠ 1 := fun c hc => by
      rw [constsOf_flatMap] at hc
      obtain ⟨a, _, ha⟩ := List.mem_flatMap.mp hc
      exact items_consts_ok b32 P hP a c ha
    refine ⟨?_, fun c hc => (hall c hc).1, fun c hc => (hall c hc).2⟩
    rw [hcsn]
    refine List.Pairwise.filter _ (hApw.imp fun {a b} hab h => ?_)
    rw [h] at hab
    exact Nat.lt_irrefl _ hab
  have hvec := entry_vectorisable b32 P hP f.name hv _ hfk
  simp only [itemVectorisable, Bool.and_eq_true] at hvec
  simp only [headOk, Bool.and_eq_true, Bool.not_eq_true', List.isEmpty_eq_false_iff, decide_eq_true_eq, List.all_eq_true, List.contains_eq_mem,
    decide_eq_false_iff_not] at hhead
  obtain ⟨⟨⟨hne, hnd⟩, hplain⟩, hfty⟩ := hhead
  have hfn : VectorisableFn (RItem.constsOf (A.flatMap (Gen.items b32 P))) f := by
    refine ⟨hne, hnd, fun q hq => ⟨(hplain q hq).1.1, (hplain q hq).1.2, fun c hc h => (hplain q hq).2 (h ▸ hmemc c hc)⟩, fun c hc h => ?_, hfty, hvec.1,
      fun p hp => ?_⟩
    · have := hmemc c hc
      rw [h] at this
      revert this
      decide
    · rcases namesIn_block _ _ hvec.2 p hp with h | ⟨s, hs, rfl⟩
      · exact .inl h
      · rcases List.mem_append.mp hs with hs | hl
        · obtain ⟨q, hq, rfl⟩ := List.mem_map.mp hs
          exact .inr (.inl ⟨q, hq, rfl⟩)
        · refine .inr (.inr ?_)
          have hround : f.name ≠ "round" := fun hr => by
            rw [hr] at hitems
            have : f = Gen.round := by simpa [Gen.items] using hitems.symm
            subst this
            exact round_no_consts s hl hp
          have hin : s ∈ outputNames request := output_defines_name b32 P request s (hc s hl hp)
          rw [hAB] at hin hsort
          have hA : s ∈ A := by
            rcases List.mem_append.mp hin with h | h
            · exact h
            · rcases List.mem_cons.mp h with rfl | h
              · exact absurd hl (entries_not_consts _ hv)
              · have h1 := (List.pairwise_cons.mp (List.pairwise_append.mp hsort).2.1).1 s h
                have h2 := consts_before _ hv hround s hl
                omega
          have : s ∈ (RItem.constsOf (A.flatMap (Gen.items b32 P))).map (·.name) := by
            rw [hcsn, List.mem_filter]
            exact ⟨hA, by simpa using hl⟩
          obtain ⟨c, hc, rfl⟩ := List.mem_map.mp this
          exact ⟨c, hc, rfl⟩
  have hms' := hms
  rw [hsplit] at hms'
  obtain ⟨m, hm, hname, hsem⟩ := C45_file_partial I b32 hI _ f _ ms hms' hcopy hfn
  exact ⟨ms, _, _, hms, hsplit, m, hm, hname, hsem⟩

/-- **C45** The whole library (request `all`) has all constants, so each of its functions on the list has its lanes right. -/
theorem C45_all_partial {α : Type} (I : RInterp α) (b32 : Bool) (hI : I.Fits b32) (P : Gen.Parts) (hP : VectorParts P) (f : RFn)
    (hf : RItem.fn f ∈ outputItems b32 P ["all"]) (hv : f.name ∈ vectorEntries) :
    ∃ ms pre post, toSimd b32 (outputItems b32 P ["all"]) = .ok ms ∧ outputItems b32 P ["all"] = pre ++ .fn f :: post ∧ ∃ m ∈ ms, m.name = f.name ∧
      ∀ (n : ℕ) (base : Name → α) (v : Fin n → α) (vs : List (Fin n → α)) (_ : vs.length + 1 = f.params.length) (i : Fin n),
        m.apply (I.lanes n) (fun p _ => base p) v vs i = f.apply I (constNames I base (RItem.constsOf pre)) (v i :: vs.map (· i)) := by
  refine C45_generated_partial I b32 hI P hP ["all"] f hf hv fun s hs _ => ?_
  rw [outputItems_defines]
  have : ∀ b32, ∀ s ∈ libraryConsts, s ∈ (outputItems b32 emptyParts ["all"]).flatMap RItem.defines := by decide +kernel
  exact this b32 s hs

example : RItem.fn Gen.ln ∈ outputItems true holeParts ["all"] := by
  rw [outputItems_names]
  exact List.mem_flatMap.mpr ⟨"ln", by decide +kernel, by simp [Gen.items]⟩

end Verif
