import Verif.Lemmas.CTypes
import Verif.Props.SimdGenerated
import Verif.Props.CGenerated

/-!
# C85: which C files of the library compile

The checker is `Spec/CTypes.lean`.
-/

namespace Verif

/-- The options that `libmgen` passes to the C generator, `config.rs:47-69`. -/
def cOpts (b32 : Bool) : COptions := ⟨if b32 then "ds32_" else "ds64_", if b32 then "f" else ""⟩

def ftyC (b32 : Bool) : CTy := if b32 then .float else .double
def utyC (b32 : Bool) : CTy := if b32 then .uint else .ullong
def ityC (b32 : Bool) : CTy := if b32 then .int else .llong

/-- Integer constants. -/
def cItyConsts : List String := ["LOG2_SHIFT", "LOG2_OFFSET"]

/-- Constants of float type that C accepts. -/
def cFtyConsts : List String :=
  ["ONE_MASK", "ONE_BITS", "EXP2_ONE", "EXP2_SCALE", "EXP2_MIN", "EXP2_MAX", "ONE_THIRD", "TWO_THIRDS", "PI", "PI_BY_2", "TAN_PI_BY_8", "PI_BY_8", "LOG2_E",
   "RECIP_LOG2_E", "RECIP_LOG2_10", "RECIP_PI", "RECIP_2PI", "SQRT_RECIP_2PI"]

/-- What C accepts: types, most constants, two functions, and `pnorm`, for which nothing is written. -/
def cAccepted : List String := ["fty", "uty", "ity"] ++ cItyConsts ++ cFtyConsts ++ ["asin", "acos", "pnorm"]

/-- What C refuses. -/
def cRejected : List String :=
  ["round", "NAN", "INFINITY", "MIN_POSITIVE", "negate_on_odd", "recip_approx", "sqrt_approx", "cbrt_approx", "nextafter", "sinh", "cosh", "tanh", "asinh",
   "acosh", "atanh", "atan", "atan2", "exp2", "exp", "exp_m1", "log2", "ln_1p", "ln", "log10", "log", "powf", "powi", "sqrt", "cbrt", "recip", "hypot", "runif",
   "dnorm", "qnorm", "rnorm", "sin", "cos", "tan", "sin_cos"]

/-- What must be in the same file. -/
def cNeeds (n : String) : List String :=
  if n ∈ cItyConsts then ["ity"] else if n ∈ cFtyConsts then ["fty"] else if n = "asin" then ["fty", "PI_BY_2"] else if n = "acos" then ["fty", "PI", "PI_BY_2"] else []

/-- What an accepted entry declares. -/
def goodDecl (b32 : Bool) (n : String) : Option (String × CDecl) :=
  if n = "fty" then some (n, .ty (ftyC b32))
  else if n = "uty" then some (n, .ty (utyC b32))
  else if n = "ity" then some (n, .ty (ityC b32))
  else if n ∈ cItyConsts then some (n, .var (ityC b32))
  else if n ∈ cFtyConsts then some (n, .var (ftyC b32))
  else if n = "asin" ∨ n = "acos" then some ((cOpts b32).pre ++ n, .fn 1 (ftyC b32))
  else none

/-- All accepted declarations. -/
def fullG (b32 : Bool) : CGlobals := cAccepted.filterMap (goodDecl b32) ++ mathH

/-- What the inserted polynomials and values must be: the two polynomials that end up in accepted functions have a type, and values are constants. -/
structure CTypedParts (b32 : Bool) (P : Gen.Parts) : Prop where
  approx : ∀ n ∈ ["asin", "acos"], ∀ G L, L.lookup "x" = some (some (ftyC b32, false)) → ∃ t, (P.approx n).cTy (cOpts b32) G L = some t
  value : ∀ n, (P.value n).cConst = true ∧ ∀ G, ∃ t, (P.value n).cTy (cOpts b32) G [] = some t

/-- Refused entries without a polynomial. -/
def cRejectedPlain : List String :=
  ["round", "NAN", "INFINITY", "MIN_POSITIVE", "negate_on_odd", "recip_approx", "sqrt_approx", "cbrt_approx", "nextafter", "sinh", "cosh", "tanh", "asinh",
   "acosh", "atanh", "exp", "ln_1p", "ln", "log10", "log", "powf", "powi", "sqrt", "cbrt", "recip", "hypot", "runif", "dnorm", "rnorm", "sin_cos"]

theorem plain_none : ∀ b32 : Bool, ∀ n ∈ cRejectedPlain, ∀ it ∈ Gen.items b32 emptyParts n, it.cDecl (cOpts b32) (fullG b32) = none := by decide +kernel

theorem plain_parts (b32 : Bool) (P : Gen.Parts) (n : String) (hn : n ∈ cRejectedPlain) : ∃ it, Gen.items b32 P n = [it] ∧ it ∈ Gen.items b32 emptyParts n := by
  simp only [cRejectedPlain, List.mem_cons, List.not_mem_nil, or_false] at hn
  rcases hn with rfl | rfl | rfl | rfl | rfl | rfl | rfl | rfl | rfl | rfl | rfl | rfl | rfl | rfl | rfl | rfl | rfl | rfl | rfl | rfl | rfl | rfl | rfl | rfl | rfl |
    rfl | rfl | rfl | rfl | rfl <;> exact ⟨_, rfl, List.mem_singleton.mpr rfl⟩

theorem rejected_split : ∀ n ∈ cRejected, n ∈ cRejectedPlain ∨ n ∈ ["sin", "cos", "tan", "atan", "atan2", "exp2", "exp_m1", "log2", "qnorm"] := by decide

theorem sin_none (b32 : Bool) (p : RExpr) : (RItem.fn (Gen.sin p)).cDecl (cOpts b32) (fullG b32) = none := by cases b32 <;> rfl
theorem cos_none (b32 : Bool) (p : RExpr) : (RItem.fn (Gen.cos p)).cDecl (cOpts b32) (fullG b32) = none := by cases b32 <;> rfl
theorem tan_none (b32 : Bool) (p : RExpr) : (RItem.fn (Gen.tan p)).cDecl (cOpts b32) (fullG b32) = none := by cases b32 <;> rfl
theorem atan_none (b32 : Bool) (p : RExpr) : (RItem.fn (Gen.atan p)).cDecl (cOpts b32) (fullG b32) = none := by cases b32 <;> rfl
theorem atan2_none (b32 : Bool) (p : RExpr) : (RItem.fn (Gen.atan2 p)).cDecl (cOpts b32) (fullG b32) = none := by cases b32 <;> rfl
theorem exp2_none (b32 : Bool) (p : RExpr) : (RItem.fn (Gen.exp2 p)).cDecl (cOpts b32) (fullG b32) = none := by cases b32 <;> rfl
theorem exp_m1_none (b32 : Bool) (p : RExpr) : (RItem.fn (Gen.exp_m1 p)).cDecl (cOpts b32) (fullG b32) = none := by cases b32 <;> rfl
theorem log2_none (b32 : Bool) (p : RExpr) : (RItem.fn (Gen.log2 p)).cDecl (cOpts b32) (fullG b32) = none := by cases b32 <;> rfl
theorem qnorm_none (b32 : Bool) (p : RExpr) : (RItem.fn (Gen.qnorm p)).cDecl (cOpts b32) (fullG b32) = none := by cases b32 <;> rfl

theorem rejected_none (b32 : Bool) (P : Gen.Parts) (n : String) (hn : n ∈ cRejected) :
    ∃ it, Gen.items b32 P n = [it] ∧ it.cDecl (cOpts b32) (fullG b32) = none := by
  rcases rejected_split n hn with h | h
  · obtain ⟨it, h1, h2⟩ := plain_parts b32 P n h
    exact ⟨it, h1, plain_none b32 n h it h2⟩
  · simp only [List.mem_cons, List.not_mem_nil, or_false] at h
    rcases h with rfl | rfl | rfl | rfl | rfl | rfl | rfl | rfl | rfl
    · exact ⟨_, rfl, sin_none b32 _⟩
    · exact ⟨_, rfl, cos_none b32 _⟩
    · exact ⟨_, rfl, tan_none b32 _⟩
    · exact ⟨_, rfl, atan_none b32 _⟩
    · exact ⟨_, rfl, atan2_none b32 _⟩
    · exact ⟨_, rfl, exp2_none b32 _⟩
    · exact ⟨_, rfl, exp_m1_none b32 _⟩
    · exact ⟨_, rfl, log2_none b32 _⟩
    · exact ⟨_, rfl, qnorm_none b32 _⟩

/-- The declarations that an entry needs. -/
def needG (b32 : Bool) (n : String) : CGlobals := (cNeeds n).filterMap (goodDecl b32) ++ mathH

theorem cLet_ok {o : COptions} {G : CGlobals} {L : CLocals} {cur : List String} {n : String} {ty : Name} {e : RExpr} {ss : List RStmt} {t : CTy}
    (h1 : cTypeNamed G L (cType ty) = some t) (h2 : cFresh cur n = true) (h3 : (e.cTy o G ((n, some (t, false)) :: L)).isSome = true) :
    RStmt.cTys o G L cur (.letInit n (some ty) e :: ss) = RStmt.cTys o G ((n, some (t, false)) :: L) (n :: cur) ss := by
  obtain ⟨a, ha⟩ := Option.isSome_iff_exists.mp h3
  simp [RStmt.cTys, h1, h2, ha]

theorem asin_some (b32 : Bool) (p : RExpr) (hp : ∀ G L, L.lookup "x" = some (some (ftyC b32, false)) → ∃ t, p.cTy (cOpts b32) G L = some t) :
    (RItem.fn (Gen.asin p)).cDecl (cOpts b32) (needG b32 "asin") = some ((cOpts b32).pre ++ "asin", .fn 1 (ftyC b32)) := by
  have h1 : cTypeNamed (needG b32 "asin") [] (cType ["fty"]) = some (ftyC b32) := by cases b32 <;> rfl
  have h2 : cParams (needG b32 "asin") [("arg", ["fty"])] = some [("arg", some (ftyC b32, false))] := by cases b32 <;> rfl
  have h3 : notMacro ((cOpts b32).pre ++ "asin") = true := by cases b32 <;> decide +kernel
  simp only [RItem.cDecl, Gen.asin, RFn.ofFty, List.map, h1, h2, h3, Option.bind_some, if_true, RStmt.letT]
  rw [cLet_ok (t := ftyC b32) (by cases b32 <;> rfl) (by decide) (by cases b32 <;> rfl),
    cLet_ok (t := ftyC b32) (by cases b32 <;> rfl) (by decide) (by cases b32 <;> rfl),
    cLet_ok (t := ftyC b32) (by cases b32 <;> rfl) (by decide) (by cases b32 <;> rfl),
    cLet_ok (t := ftyC b32) (by cases b32 <;> rfl) (by decide) (by cases b32 <;> rfl),
    cLet_ok (t := ftyC b32) (by cases b32 <;> rfl) (by decide) (Option.isSome_iff_exists.mpr (hp _ _ rfl))]
  cases b32 <;> rfl

theorem acos_some (b32 : Bool) (p : RExpr) (hp : ∀ G L, L.lookup "x" = some (some (ftyC b32, false)) → ∃ t, p.cTy (cOpts b32) G L = some t) :
    (RItem.fn (Gen.acos p)).cDecl (cOpts b32) (needG b32 "acos") = some ((cOpts b32).pre ++ "acos", .fn 1 (ftyC b32)) := by
  have h1 : cTypeNamed (needG b32 "acos") [] (cType ["fty"]) = some (ftyC b32) := by cases b32 <;> rfl
  have h2 : cParams (needG b32 "acos") [("arg", ["fty"])] = some [("arg", some (ftyC b32, false))] := by cases b32 <;> rfl
  have h3 : notMacro ((cOpts b32).pre ++ "acos") = true := by cases b32 <;> decide +kernel
  simp only [RItem.cDecl, Gen.acos, RFn.ofFty, List.map, h1, h2, h3, Option.bind_some, if_true, RStmt.letT]
  rw [cLet_ok (t := ftyC b32) (by cases b32 <;> rfl) (by decide) (by cases b32 <;> rfl),
    cLet_ok (t := ftyC b32) (by cases b32 <;> rfl) (by decide) (by cases b32 <;> rfl),
    cLet_ok (t := ftyC b32) (by cases b32 <;> rfl) (by decide) (by cases b32 <;> rfl),
    cLet_ok (t := ftyC b32) (by cases b32 <;> rfl) (by decide) (by cases b32 <;> rfl),
    cLet_ok (t := ftyC b32) (by cases b32 <;> rfl) (by decide) (Option.isSome_iff_exists.mpr (hp _ _ rfl))]
  cases b32 <;> rfl

theorem goodDecl_fn (b32 : Bool) (n : String) (hn : n ∈ ["asin", "acos"]) : goodDecl b32 n = some ((cOpts b32).pre ++ n, .fn 1 (ftyC b32)) := by
  simp only [List.mem_cons, List.not_mem_nil, or_false] at hn
  rcases hn with rfl | rfl <;> rfl

theorem accepted_some (b32 : Bool) (P : Gen.Parts) (hP : CTypedParts b32 P) (n : String) (hn : n ∈ cAccepted) (hp : n ≠ "pnorm") :
    ∃ it d, Gen.items b32 P n = [it] ∧ goodDecl b32 n = some d ∧ it.cDecl (cOpts b32) (needG b32 n) = some d := by
  have hv : ∀ m, m ∈ cFtyConsts → (Gen.evalConst m (P.value m)).cDecl (cOpts b32) (needG b32 m) = some (m, .var (ftyC b32)) := by
    intro m hm
    obtain ⟨h1, h2⟩ := hP.value m
    obtain ⟨t, h2⟩ := h2 (needG b32 m)
    have h3 : cTypeNamed (needG b32 m) [] (cType ["fty"]) = some (ftyC b32) ∧ notMacro m = true := by
      have : ∀ b32 : Bool, ∀ m ∈ cFtyConsts, cTypeNamed (needG b32 m) [] (cType ["fty"]) = some (ftyC b32) ∧ notMacro m = true := by decide +kernel
      exact this b32 m hm
    simp [Gen.evalConst, Gen.constItem, RItem.cDecl, h1, h2, h3]
  have hd : ∀ m, m ∈ cFtyConsts → goodDecl b32 m = some (m, .var (ftyC b32)) := by
    have : ∀ b32 : Bool, ∀ m ∈ cFtyConsts, goodDecl b32 m = some (m, .var (ftyC b32)) := by decide +kernel
    exact this b32
  simp only [cAccepted, cItyConsts, cFtyConsts, List.cons_append, List.nil_append, List.mem_cons, List.not_mem_nil, or_false] at hn
  rcases hn with rfl | rfl | rfl | rfl | rfl | rfl | rfl | rfl | rfl | rfl | rfl | rfl | rfl | rfl | rfl | rfl | rfl | rfl | rfl | rfl | rfl | rfl | rfl | rfl | rfl | rfl
  all_goals first
    | exact absurd rfl hp
    | exact ⟨_, _, rfl, hd _ (by decide), hv _ (by decide)⟩
    | (cases b32 <;> exact ⟨_, _, rfl, rfl, rfl⟩)
    | skip
  · exact ⟨_, _, rfl, goodDecl_fn b32 _ (by decide), asin_some b32 _ (hP.approx _ (by decide))⟩
  · exact ⟨_, _, rfl, goodDecl_fn b32 _ (by decide), acos_some b32 _ (hP.approx _ (by decide))⟩

/-! ## Files -/

theorem goodDecl_unique : ∀ b32 : Bool, ∀ n ∈ cAccepted, ∀ m ∈ cAccepted, (goodDecl b32 n).isSome → (goodDecl b32 n).map (·.1) = (goodDecl b32 m).map (·.1) → n = m := by
  decide +kernel

theorem goodDecl_not_math : ∀ b32 : Bool, ∀ n ∈ cAccepted, ∀ d ∈ goodDecl b32 n, mathH.lookup d.1 = none := by decide +kernel

theorem mem_of_lookup {s : String} {d : CDecl} {D : CGlobals} (h : D.lookup s = some d) : (s, d) ∈ D := by
  induction D with
  | nil => cases h
  | cons p D ih =>
    obtain ⟨k, v⟩ := p
    simp only [List.lookup] at h
    split at h
    · rename_i he
      obtain rfl := Option.some.inj h
      rw [eq_of_beq he]
      exact List.mem_cons_self
    · exact List.mem_cons_of_mem _ (ih h)

theorem lookup_of_mem {s : String} {d : CDecl} {D : CGlobals} (h : (s, d) ∈ D) : ∃ d', D.lookup s = some d' := by
  induction D with
  | nil => cases h
  | cons p D ih =>
    obtain ⟨k, v⟩ := p
    simp only [List.lookup]
    split
    · exact ⟨_, rfl⟩
    · rename_i he
      rcases List.mem_cons.mp h with h | h
      · cases h; simp at he
      · exact ih h

theorem lookup_append (D E : CGlobals) (s : String) : (D ++ E).lookup s = (D.lookup s).or (E.lookup s) := by
  induction D with
  | nil => rfl
  | cons p D ih =>
    obtain ⟨k, v⟩ := p
    simp only [List.cons_append, List.lookup]
    split
    · rfl
    · exact ih

/-- The declarations after some accepted entries. -/
def declsOf (b32 : Bool) (ns : List String) : CGlobals := ns.filterMap (goodDecl b32)

theorem declsOf_lookup (b32 : Bool) (ns : List String) (hns : ∀ n ∈ ns, n ∈ cAccepted) (n : String) (hn : n ∈ ns) (d : String × CDecl)
    (hd : goodDecl b32 n = some d) : (declsOf b32 ns ++ mathH).lookup d.1 = some d.2 := by
  have hm : (d.1, d.2) ∈ declsOf b32 ns := List.mem_filterMap.mpr ⟨n, hn, hd⟩
  obtain ⟨d', hd'⟩ := lookup_of_mem hm
  obtain ⟨m, hm1, hm2⟩ := List.mem_filterMap.mp (mem_of_lookup hd')
  obtain rfl := goodDecl_unique b32 n (hns n hn) m (hns m hm1) (by rw [hd]; rfl) (by rw [hd, hm2]; rfl)
  rw [hd] at hm2
  rw [lookup_append, hd']
  simpa using (Prod.ext_iff.mp (Option.some.inj hm2)).2.symm

theorem declsOf_le (b32 : Bool) (ns ms : List String) (hms : ∀ n ∈ ms, n ∈ cAccepted) (h : ∀ n ∈ ns, n ∈ ms) :
    GLe (declsOf b32 ns ++ mathH) (declsOf b32 ms ++ mathH) := by
  intro s d hs
  rw [lookup_append] at hs
  cases hl : (declsOf b32 ns).lookup s with
  | some d' =>
    rw [hl] at hs
    obtain rfl : d' = d := by simpa using hs
    obtain ⟨n, hn, hd⟩ := List.mem_filterMap.mp (mem_of_lookup hl)
    exact declsOf_lookup b32 ms hms n (h n hn) _ hd
  | none =>
    rw [hl, Option.none_or] at hs
    rw [lookup_append]
    cases hl' : (declsOf b32 ms).lookup s with
    | none => simpa using hs
    | some d' =>
      obtain ⟨n, hn, hd⟩ := List.mem_filterMap.mp (mem_of_lookup hl')
      have := goodDecl_not_math b32 n (hms n hn) _ hd
      rw [this] at hs
      cases hs

theorem declsOf_none (b32 : Bool) (ns : List String) (hns : ∀ n ∈ ns, n ∈ cAccepted) (n : String) (hn : n ∈ cAccepted) (hn' : n ∉ ns) (d : String × CDecl)
    (hd : goodDecl b32 n = some d) : (declsOf b32 ns ++ mathH).lookup d.1 = none := by
  rw [lookup_append, goodDecl_not_math b32 n hn d hd, Option.or_none]
  cases hl : (declsOf b32 ns).lookup d.1 with
  | none => rfl
  | some d' =>
    obtain ⟨m, hm1, hm2⟩ := List.mem_filterMap.mp (mem_of_lookup hl)
    obtain rfl := goodDecl_unique b32 n hn m (hns m hm1) (by rw [hd]; rfl) (by rw [hd, hm2]; rfl)
    exact absurd hm1 hn'

theorem needs_accepted : ∀ n ∈ cAccepted, ∀ m ∈ cNeeds n, m ∈ cAccepted ∧ tablePos m < tablePos n := by decide +kernel

theorem entries_split : ∀ f ∈ functionTable, f.hasGen = true → f.name ∈ cAccepted ∨ f.name ∈ cRejected := by decide +kernel

theorem rejected_not_accepted : ∀ n ∈ cRejected, n ∉ cAccepted := by decide

/-- A constant is accepted only where its type is declared. -/
theorem const_needs (b32 : Bool) (P : Gen.Parts) (G : CGlobals) (n : String) (hn : n ∈ cItyConsts ++ cFtyConsts) (it : RItem) (hit : Gen.items b32 P n = [it])
    (d : String × CDecl) (hd : it.cDecl (cOpts b32) G = some d) : ∀ m ∈ cNeeds n, (G.lookup m).isSome = true := by
  have key : ∀ (k ty : String) (e : RExpr), ty ∈ ["fty", "ity"] → (RItem.const k [ty] e).cDecl (cOpts b32) G = some d → (G.lookup ty).isSome = true := by
    intro k ty e hty h
    simp only [RItem.cDecl, Option.bind_eq_some_iff] at h
    obtain ⟨t, ht, -⟩ := h
    simp only [List.mem_cons, List.not_mem_nil, or_false] at hty
    have hs : cType [ty] = ty := by rcases hty with rfl | rfl <;> decide
    rw [hs] at ht
    unfold cTypeNamed at ht
    rcases hty with rfl | rfl <;> simp at ht <;> split at ht <;> simp_all
  have hm : cNeeds n = [if n ∈ cItyConsts then "ity" else "fty"] := by
    have : ∀ n ∈ cItyConsts ++ cFtyConsts, cNeeds n = [if n ∈ cItyConsts then "ity" else "fty"] := by decide
    exact this n hn
  rw [hm]
  intro m hm'
  obtain rfl := List.mem_singleton.mp hm'
  have hform : ∃ e, it = .const n [if n ∈ cItyConsts then "ity" else "fty"] e := by
    revert hit
    simp only [cItyConsts, cFtyConsts, List.cons_append, List.nil_append, List.mem_cons, List.not_mem_nil, or_false] at hn
    rcases hn with rfl | rfl | rfl | rfl | rfl | rfl | rfl | rfl | rfl | rfl | rfl | rfl | rfl | rfl | rfl | rfl | rfl | rfl | rfl | rfl <;>
      exact fun h => ⟨_, (List.singleton_inj.mp h).symm⟩
  obtain ⟨e, rfl⟩ := hform
  refine key n _ e ?_ hd
  split <;> simp

theorem output_table (request : List String) (n : String) (hn : n ∈ outputNames request) : ∃ f ∈ functionTable, f.name = n ∧ f.hasGen = true := by
  unfold outputNames at hn
  split at hn
  · rename_i l h
    obtain ⟨f, hf, rfl⟩ := List.mem_map.mp hn
    obtain ⟨hf, hg⟩ := List.mem_filter.mp hf
    obtain ⟨i, hi, -⟩ := (C46_reachable functionTable request [] _ l h (Nat.le_refl _) f).mp hf
    exact ⟨f, List.mem_of_getElem? hi.1, rfl, hg⟩
  · cases hn

theorem output_deps (request : List String) (n : String) (hn : n ∈ outputNames request) (d : String)
    (hd : ∀ f ∈ functionTable, f.name = n → d ∈ f.deps) (hg : ∀ f ∈ functionTable, f.name = d → f.hasGen = true) (hex : d ∈ functionTable.map (·.name)) :
    d ∈ outputNames request := by
  unfold outputNames at hn ⊢
  split at hn
  · rename_i l h
    obtain ⟨f, hf, rfl⟩ := List.mem_map.mp hn
    obtain ⟨hf, -⟩ := List.mem_filter.mp hf
    obtain ⟨i, hi, -⟩ := (C46_reachable functionTable request [] _ l h (Nat.le_refl _) f).mp hf
    have hdl := C46_dependencies_present functionTable request _ l h (Nat.le_refl _) f hf d (hd f (List.mem_of_getElem? hi.1) rfl) hex
    obtain ⟨g, hgl, rfl⟩ := List.mem_map.mp hdl
    obtain ⟨j, hj, -⟩ := (C46_reachable functionTable request [] _ l h (Nat.le_refl _) g).mp hgl
    exact List.mem_map.mpr ⟨g, List.mem_filter.mpr ⟨hgl, hg g (List.mem_of_getElem? hj.1) rfl⟩, rfl⟩
  · cases hn

theorem cFile_forward (b32 : Bool) (P : Gen.Parts) (hP : CTypedParts b32 P) (ns : List String) : ∀ (done : List String), (∀ n ∈ done, n ∈ cAccepted) →
    (∀ n ∈ ns, n ∈ cAccepted ∨ n ∈ cRejected) → (∃ G, cFile (cOpts b32) (declsOf b32 done ++ mathH) (ns.flatMap (Gen.items b32 P)) = some G) →
    ∀ n ∈ ns, n ∈ cAccepted ∧ (n ∈ cItyConsts ++ cFtyConsts → ∀ m ∈ cNeeds n, m ∈ done ∨ m ∈ ns) := by
  induction ns with
  | nil => intro _ _ _ _ n hn; cases hn
  | cons k ns ih =>
    intro done hdone hns hG
    have hfull : GLe (declsOf b32 done ++ mathH) (fullG b32) := declsOf_le b32 done cAccepted (fun _ h => h) hdone
    have hk := hns k List.mem_cons_self
    by_cases hkp : k = "pnorm"
    · subst hkp
      have h := ih done hdone (fun n hn => hns n (List.mem_cons_of_mem _ hn)) hG
      intro n hn
      rcases List.mem_cons.mp hn with rfl | hn
      · exact ⟨by decide, fun hc => absurd hc (by decide)⟩
      · exact ⟨(h n hn).1, fun hc m hm => ((h n hn).2 hc m hm).imp id (List.mem_cons_of_mem _)⟩
    rcases hk with hk | hk
    · obtain ⟨it, d, h1, h2, h3⟩ := accepted_some b32 P hP k hk hkp
      have h4 := cDecl_mono _ (declsOf_le b32 (cNeeds k) cAccepted (fun _ h => h) fun m hm => (needs_accepted k hk m hm).1) it d h3
      obtain ⟨G, hG⟩ := hG
      rw [List.flatMap_cons, h1, List.cons_append, List.nil_append] at hG
      simp only [cFile, Option.bind_eq_some_iff] at hG
      obtain ⟨d', hd', hG⟩ := hG
      have h5 := cDecl_mono _ hfull it d' hd'
      have hdd : d' = d := Option.some.inj (h5.symm.trans h4)
      subst hdd
      split_ifs at hG
      have hcons : declsOf b32 (k :: done) = d' :: declsOf b32 done := by simp [declsOf, h2]
      have h := ih (k :: done) (by intro n hn; rcases List.mem_cons.mp hn with rfl | hn; exacts [hk, hdone n hn])
        (fun n hn => hns n (List.mem_cons_of_mem _ hn)) ⟨G, by rw [hcons]; exact hG⟩
      intro n hn
      rcases List.mem_cons.mp hn with rfl | hn
      · refine ⟨hk, fun hc m hm => .inl ?_⟩
        have hl := const_needs b32 P _ n hc it h1 d' hd' m hm
        have hmm : mathH.lookup m = none := by
          have : ∀ n ∈ cItyConsts ++ cFtyConsts, ∀ m ∈ cNeeds n, mathH.lookup m = none := by decide +kernel
          exact this n hc m hm
        rw [lookup_append, hmm, Option.or_none] at hl
        obtain ⟨e, he⟩ := Option.isSome_iff_exists.mp hl
        obtain ⟨q, hq1, hq2⟩ := List.mem_filterMap.mp (mem_of_lookup he)
        have hmt : ∀ n ∈ cItyConsts ++ cFtyConsts, ∀ m ∈ cNeeds n, ∀ b32 : Bool, (goodDecl b32 m).map (·.1) = some m ∧ m ∈ cAccepted := by decide +kernel
        obtain ⟨hm1, hm2⟩ := hmt n hc m hm b32
        obtain rfl := goodDecl_unique b32 q (hdone q hq1) m hm2 (by rw [hq2]; rfl) (by rw [hm1, hq2]; rfl)
        exact hq1
      · refine ⟨(h n hn).1, fun hc m hm => ?_⟩
        rcases (h n hn).2 hc m hm with h | h
        · rcases List.mem_cons.mp h with rfl | h
          · exact .inr List.mem_cons_self
          · exact .inl h
        · exact .inr (List.mem_cons_of_mem _ h)
    · exfalso
      obtain ⟨it, h1, h2⟩ := rejected_none b32 P k hk
      obtain ⟨G, hG⟩ := hG
      rw [List.flatMap_cons, h1, List.cons_append, List.nil_append] at hG
      simp only [cFile, Option.bind_eq_some_iff] at hG
      obtain ⟨d', hd', -⟩ := hG
      have h5 := cDecl_mono _ hfull it d' hd'
      rw [h2] at h5
      cases h5

theorem cFile_backward (b32 : Bool) (P : Gen.Parts) (hP : CTypedParts b32 P) (ns : List String) : ∀ (done : List String), (∀ n ∈ done, n ∈ cAccepted) →
    (∀ n ∈ ns, n ∈ cAccepted) → ns.Pairwise (fun a b => tablePos a < tablePos b) → (∀ x ∈ done, ∀ y ∈ ns, tablePos x < tablePos y) →
    (∀ n ∈ ns, ∀ m ∈ cNeeds n, m ∈ done ∨ m ∈ ns) →
    ∃ G, cFile (cOpts b32) (declsOf b32 done ++ mathH) (ns.flatMap (Gen.items b32 P)) = some G := by
  induction ns with
  | nil => intro done _ _ _ _ _; exact ⟨_, rfl⟩
  | cons k ns ih =>
    intro done hdone hns hsort hlt hneeds
    have hk := hns k List.mem_cons_self
    rw [List.pairwise_cons] at hsort
    have hnd : ∀ m ∈ cNeeds k, m ∈ done := by
      intro m hm
      have hpos := (needs_accepted k hk m hm).2
      rcases hneeds k List.mem_cons_self m hm with h | h
      · exact h
      · rcases List.mem_cons.mp h with rfl | h
        · omega
        · have := hsort.1 m h; omega
    by_cases hkp : k = "pnorm"
    · subst hkp
      refine ih done hdone (fun n hn => hns n (List.mem_cons_of_mem _ hn)) hsort.2 (fun x hx y hy => hlt x hx y (List.mem_cons_of_mem _ hy)) fun n hn m hm => ?_
      rcases hneeds n (List.mem_cons_of_mem _ hn) m hm with h | h
      · exact .inl h
      · rcases List.mem_cons.mp h with rfl | h
        · have : ∀ n ∈ cAccepted, "pnorm" ∉ cNeeds n := by decide
          exact absurd hm (this n (hns n (List.mem_cons_of_mem _ hn)))
        · exact .inr h
    · obtain ⟨it, d, h1, h2, h3⟩ := accepted_some b32 P hP k hk hkp
      have h4 := cDecl_mono _ (declsOf_le b32 (cNeeds k) done hdone hnd) it d h3
      have hfresh := declsOf_none b32 done hdone k hk (fun h => by have := hlt k h k List.mem_cons_self; omega) d h2
      have hcons : declsOf b32 (k :: done) = d :: declsOf b32 done := by simp [declsOf, h2]
      obtain ⟨G, hG⟩ := ih (k :: done) (by intro n hn; rcases List.mem_cons.mp hn with rfl | hn; exacts [hk, hdone n hn])
        (fun n hn => hns n (List.mem_cons_of_mem _ hn)) hsort.2
        (by intro x hx y hy; rcases List.mem_cons.mp hx with rfl | hx; exacts [hsort.1 y hy, hlt x hx y (List.mem_cons_of_mem _ hy)])
        (by
          intro n hn m hm
          rcases hneeds n (List.mem_cons_of_mem _ hn) m hm with h | h
          · exact .inl (List.mem_cons_of_mem _ h)
          · rcases List.mem_cons.mp h with rfl | h
            · exact .inl List.mem_cons_self
            · exact .inr h)
      refine ⟨G, ?_⟩
      rw [List.flatMap_cons, h1, List.cons_append, List.nil_append]
      simp only [cFile, h4, Option.bind_some, hfresh, Option.isSome_none]
      rw [hcons] at hG
      exact hG

/-- **C85** is false for most requests: the C file of a request compiles exactly if nothing refused is in it and the types of its constants are.  The refused
entries are `NAN`, `INFINITY`, `MIN_POSITIVE` and every function but `asin` and `acos`. -/
theorem C85_compiles_iff_partial (b32 : Bool) (P : Gen.Parts) (hP : CTypedParts b32 P) (request : List String) :
    CCompiles (cOpts b32) (outputItems b32 P request) ↔ ∀ n ∈ outputNames request, n ∈ cAccepted ∧ ∀ m ∈ cNeeds n, m ∈ outputNames request := by
  have hsplit : ∀ n ∈ outputNames request, n ∈ cAccepted ∨ n ∈ cRejected := by
    intro n hn
    obtain ⟨f, hf, rfl, hg⟩ := output_table request n hn
    exact entries_split f hf hg
  unfold CCompiles
  rw [outputItems_names]
  constructor
  · intro hG n hn
    obtain ⟨h1, h2⟩ := cFile_forward b32 P hP _ [] (by simp) hsplit hG n hn
    refine ⟨h1, fun m hm => ?_⟩
    by_cases hc : n ∈ cItyConsts ++ cFtyConsts
    · simpa using h2 hc m hm
    · have key : ∀ n ∈ cAccepted, n ∉ cItyConsts ++ cFtyConsts → ∀ m ∈ cNeeds n, (∀ f ∈ functionTable, f.name = n → m ∈ f.deps) ∧
          (∀ f ∈ functionTable, f.name = m → f.hasGen = true) ∧ m ∈ functionTable.map (·.name) := by decide +kernel
      obtain ⟨k1, k2, k3⟩ := key n h1 hc m hm
      exact output_deps request n hn m k1 k2 k3
  · intro h
    exact cFile_backward b32 P hP _ [] (by simp) (fun n hn => (h n hn).1) (outputNames_sorted request) (by simp) fun n hn m hm => .inr ((h n hn).2 m hm)

/-- **C85** No request for a refused entry compiles. -/
theorem C85_refused (b32 : Bool) (P : Gen.Parts) (hP : CTypedParts b32 P) (request : List String) (n : String) (hn : n ∈ outputNames request)
    (hr : n ∈ cRejected) : ¬ CCompiles (cOpts b32) (outputItems b32 P request) :=
  fun h => rejected_not_accepted n hr ((C85_compiles_iff_partial b32 P hP request).mp h n hn).1

/-- **C85** The whole library does not compile in C. -/
theorem C85_all_wrong (b32 : Bool) (P : Gen.Parts) (hP : CTypedParts b32 P) : ¬ CCompiles (cOpts b32) (outputItems b32 P ["all"]) :=
  C85_refused b32 P hP _ "exp2" (by decide +kernel) (by decide)

/-- **C85** `asin` and `acos` do. -/
theorem C85_asin_acos (b32 : Bool) (P : Gen.Parts) (hP : CTypedParts b32 P) : CCompiles (cOpts b32) (outputItems b32 P ["asin", "acos"]) :=
  (C85_compiles_iff_partial b32 P hP _).mpr (by decide +kernel)

/-- **C85** A constant alone does not: nothing declares its type. -/
theorem C85_constant_wrong (b32 : Bool) (P : Gen.Parts) (hP : CTypedParts b32 P) (n : String) (hn : n ∈ cFtyConsts) :
    ¬ CCompiles (cOpts b32) (outputItems b32 P [n]) := by
  rw [C85_compiles_iff_partial b32 P hP]
  have : ∀ n ∈ cFtyConsts, ¬ ∀ k ∈ outputNames [n], k ∈ cAccepted ∧ ∀ m ∈ cNeeds k, m ∈ outputNames [n] := by decide +kernel
  exact this n hn

end Verif
