import Verif.Spec.RustTypes
import Verif.Props.Tables
import Verif.Props.NumberType

/-!
# C73: the generated code type-checks
-/

namespace Verif

/-- The float type of a width. -/
def floatTy (b32 : Bool) : Ty := if b32 then .f32 else .f64

/-- The inserted polynomial has the float type whenever its variable has; the inserted constants are float literals. -/
structure TypedParts (b32 : Bool) (P : Gen.Parts) : Prop where
  approx : ∀ n sigs env, env.lookup (approxVar n) = some (floatTy b32) → (P.approx n).ty b32 sigs env = some (floatTy b32)
  value : ∀ n sigs env, ∃ t, (P.value n).ty b32 sigs env = some t ∧ ((floatTy b32).meet t).isSome = true

/-- Placeholders for the inserted parts. -/
def holeParts : Gen.Parts := ⟨fun n => .path [approxVar n], fun _ => RExpr.num "1.0"⟩

theorem holeParts_typed (b32 : Bool) : TypedParts b32 holeParts := by
  refine ⟨fun n sigs env h => ?_, fun n sigs env => ⟨.anyFloat, rfl, by cases b32 <;> rfl⟩⟩
  simpa [holeParts, RExpr.ty] using h

theorem meet_bind_f32 {β : Type} (t : Ty) (K : Ty → Option β) : (Ty.f32.meet t).bind K = if (Ty.f32.meet t).isSome then K .f32 else none := by
  cases t <;> rfl

theorem meet_bind_f64 {β : Type} (t : Ty) (K : Ty → Option β) : (Ty.f64.meet t).bind K = if (Ty.f64.meet t).isSome then K .f64 else none := by
  cases t <;> rfl

theorem meet_self (t : Ty) : t.meet t = some t := by simp [Ty.meet]
theorem meet_any32 : Ty.f32.meet .anyFloat = some .f32 := rfl
theorem meet_any64 : Ty.f64.meet .anyFloat = some .f64 := rfl
theorem any_meet32 : Ty.anyFloat.meet .f32 = some .f32 := rfl
theorem any_meet64 : Ty.anyFloat.meet .f64 = some .f64 := rfl
theorem meet_any_any : Ty.anyFloat.meet .anyFloat = some .anyFloat := rfl

/-- The polynomial typed as asked in `TypedParts`, with variable `s`. -/
def TypedIn (b32 : Bool) (s : String) (p : RExpr) : Prop :=
  ∀ sigs env, env.lookup s = some (floatTy b32) → p.ty b32 sigs env = some (floatTy b32)

local macro "typed_fn" b:ident "," hp:term "," hq:term : tactic => `(tactic| (
  have hp' := $hp
  have hq' := $hq
  unfold TypedIn at hp' hq'
  cases $b:ident <;> simp only [floatTy, if_true, if_false, Bool.false_eq_true] at hp' hq' <;>
  simp [RItem.wellTyped, Gen.asin, Gen.acos, Gen.atan, Gen.atan2, Gen.exp2, Gen.exp_m1, Gen.log2, Gen.qnorm, Gen.sin, Gen.cos, Gen.tan, Gen.sinLike,
    RFn.ofFty, RStmt.tyBlock, RStmt.letT, RStmt.letU, RExpr.ty, RExpr.tyArgs, RExpr.v, HMul.hMul, Mul.mul, HAdd.hAdd, Add.add, HSub.hSub, Sub.sub,
    HDiv.hDiv, Div.div, Neg.neg, RExpr.cond, RExpr.gt, RExpr.num, litTy, methTy, binTy, Ty.isFloat, Ty.isInt,
    tyOf, paramTys, retTy, meet_bind_f32, meet_bind_f64, List.lookup, meet_self, meet_any32, meet_any64, any_meet32, any_meet64, meet_any_any, hp', hq']))

theorem asin_typed (b32 : Bool) (p q : RExpr) (hp : TypedIn b32 "x" p) (hq : TypedIn b32 "x" q) (sigs : Sigs) (cs : List (String × Ty)) :
    (RItem.fn (Gen.asin p)).wellTyped b32 sigs cs = (RItem.fn (Gen.asin q)).wellTyped b32 sigs cs := by
  typed_fn b32, hp, hq

theorem acos_typed (b32 : Bool) (p q : RExpr) (hp : TypedIn b32 "x" p) (hq : TypedIn b32 "x" q) (sigs : Sigs) (cs : List (String × Ty)) :
    (RItem.fn (Gen.acos p)).wellTyped b32 sigs cs = (RItem.fn (Gen.acos q)).wellTyped b32 sigs cs := by
  typed_fn b32, hp, hq

theorem atan_typed (b32 : Bool) (p q : RExpr) (hp : TypedIn b32 "x" p) (hq : TypedIn b32 "x" q) (sigs : Sigs) (cs : List (String × Ty)) :
    (RItem.fn (Gen.atan p)).wellTyped b32 sigs cs = (RItem.fn (Gen.atan q)).wellTyped b32 sigs cs := by
  typed_fn b32, hp, hq

theorem atan2_typed (b32 : Bool) (p q : RExpr) (hp : TypedIn b32 "z" p) (hq : TypedIn b32 "z" q) (sigs : Sigs) (cs : List (String × Ty)) :
    (RItem.fn (Gen.atan2 p)).wellTyped b32 sigs cs = (RItem.fn (Gen.atan2 q)).wellTyped b32 sigs cs := by
  typed_fn b32, hp, hq

theorem exp2_typed (b32 : Bool) (p q : RExpr) (hp : TypedIn b32 "x" p) (hq : TypedIn b32 "x" q) (sigs : Sigs) (cs : List (String × Ty)) :
    (RItem.fn (Gen.exp2 p)).wellTyped b32 sigs cs = (RItem.fn (Gen.exp2 q)).wellTyped b32 sigs cs := by
  typed_fn b32, hp, hq

theorem exp_m1_typed (b32 : Bool) (p q : RExpr) (hp : TypedIn b32 "x" p) (hq : TypedIn b32 "x" q) (sigs : Sigs) (cs : List (String × Ty)) :
    (RItem.fn (Gen.exp_m1 p)).wellTyped b32 sigs cs = (RItem.fn (Gen.exp_m1 q)).wellTyped b32 sigs cs := by
  typed_fn b32, hp, hq

theorem log2_typed (b32 : Bool) (p q : RExpr) (hp : TypedIn b32 "x" p) (hq : TypedIn b32 "x" q) (sigs : Sigs) (cs : List (String × Ty)) :
    (RItem.fn (Gen.log2 p)).wellTyped b32 sigs cs = (RItem.fn (Gen.log2 q)).wellTyped b32 sigs cs := by
  typed_fn b32, hp, hq

theorem qnorm_typed (b32 : Bool) (p q : RExpr) (hp : TypedIn b32 "x" p) (hq : TypedIn b32 "x" q) (sigs : Sigs) (cs : List (String × Ty)) :
    (RItem.fn (Gen.qnorm p)).wellTyped b32 sigs cs = (RItem.fn (Gen.qnorm q)).wellTyped b32 sigs cs := by
  typed_fn b32, hp, hq

theorem sin_typed (b32 : Bool) (p q : RExpr) (hp : TypedIn b32 "x" p) (hq : TypedIn b32 "x" q) (sigs : Sigs) (cs : List (String × Ty)) :
    (RItem.fn (Gen.sin p)).wellTyped b32 sigs cs = (RItem.fn (Gen.sin q)).wellTyped b32 sigs cs := by
  typed_fn b32, hp, hq

theorem cos_typed (b32 : Bool) (p q : RExpr) (hp : TypedIn b32 "x" p) (hq : TypedIn b32 "x" q) (sigs : Sigs) (cs : List (String × Ty)) :
    (RItem.fn (Gen.cos p)).wellTyped b32 sigs cs = (RItem.fn (Gen.cos q)).wellTyped b32 sigs cs := by
  typed_fn b32, hp, hq

theorem tan_typed (b32 : Bool) (p q : RExpr) (hp : TypedIn b32 "x" p) (hq : TypedIn b32 "x" q) (sigs : Sigs) (cs : List (String × Ty)) :
    (RItem.fn (Gen.tan p)).wellTyped b32 sigs cs = (RItem.fn (Gen.tan q)).wellTyped b32 sigs cs := by
  typed_fn b32, hp, hq

theorem const_typed (b32 : Bool) (P : Gen.Parts) (hP : TypedParts b32 P) (n k : String) (sigs : Sigs) (cs : List (String × Ty)) :
    (Gen.evalConst n (P.value k)).wellTyped b32 sigs cs = true := by
  obtain ⟨t, h1, h2⟩ := hP.value k sigs cs
  have : tyOf b32 ["fty"] = some (floatTy b32) := by cases b32 <;> rfl
  simp [Gen.evalConst, Gen.constItem, RItem.wellTyped, this, h1, h2]

/-- Are the items of a table entry well typed? -/
def entryTyped (b32 : Bool) (P : Gen.Parts) (sigs : Sigs) (cs : List (String × Ty)) (n : String) : Bool :=
  (Gen.items b32 P n).all (RItem.wellTyped b32 sigs cs)

/-- Whether an entry is well typed does not depend on the inserted parts. -/
theorem entryTyped_hole (b32 : Bool) (P : Gen.Parts) (hP : TypedParts b32 P) (sigs : Sigs) (cs : List (String × Ty)) (n : String) :
    entryTyped b32 P sigs cs n = entryTyped b32 holeParts sigs cs n := by
  have hx : ∀ (Q : Gen.Parts), TypedParts b32 Q → ∀ n, approxVar n = "x" → TypedIn b32 "x" (Q.approx n) :=
    fun Q hQ n h sigs env he => hQ.approx n sigs env (h ▸ he)
  have hH := holeParts_typed b32
  unfold entryTyped Gen.items
  split <;> (first | with_reducible rfl | skip) <;> simp only [List.all_cons, List.all_nil, Bool.and_true, const_typed _ _ hP, const_typed _ _ hH]
  · exact asin_typed _ _ _ (hx _ hP _ (by decide)) (hx _ hH _ (by decide)) _ _
  · exact acos_typed _ _ _ (hx _ hP _ (by decide)) (hx _ hH _ (by decide)) _ _
  · exact atan_typed _ _ _ (hx _ hP _ (by decide)) (hx _ hH _ (by decide)) _ _
  · exact atan2_typed _ _ _ (hP.approx "atan2") (hH.approx "atan2") _ _
  · exact exp2_typed _ _ _ (hx _ hP _ (by decide)) (hx _ hH _ (by decide)) _ _
  · exact exp_m1_typed _ _ _ (hx _ hP _ (by decide)) (hx _ hH _ (by decide)) _ _
  · exact log2_typed _ _ _ (hx _ hP _ (by decide)) (hx _ hH _ (by decide)) _ _
  · exact qnorm_typed _ _ _ (hx _ hP _ (by decide)) (hx _ hH _ (by decide)) _ _
  · exact sin_typed _ _ _ (hx _ hP _ (by decide)) (hx _ hH _ (by decide)) _ _
  · exact cos_typed _ _ _ (hx _ hP _ (by decide)) (hx _ hH _ (by decide)) _ _
  · exact tan_typed _ _ _ (hx _ hP _ (by decide)) (hx _ hH _ (by decide)) _ _

theorem constEnv_append (b32 : Bool) (a b : List RItem) : constEnv b32 (a ++ b) = constEnv b32 a ++ constEnv b32 b := by
  induction a with
  | nil => rfl
  | cons i a ih =>
    cases i with
    | const n d e => simp only [List.cons_append, constEnv]; split <;> simp [ih]
    | _ => simpa [constEnv] using ih

theorem fnSigs_append (b32 : Bool) (a b : List RItem) : fnSigs b32 (a ++ b) = fnSigs b32 a ++ fnSigs b32 b := by
  induction a with
  | nil => rfl
  | cons i a ih =>
    cases i with
    | fn f => simp only [List.cons_append, fnSigs]; split <;> simp [ih]
    | _ => simpa [fnSigs] using ih

theorem items_constEnv (b32 : Bool) (P Q : Gen.Parts) (n : String) : constEnv b32 (Gen.items b32 P n) = constEnv b32 (Gen.items b32 Q n) := by
  unfold Gen.items
  split <;> rfl

theorem items_fnSigs (b32 : Bool) (P Q : Gen.Parts) (n : String) : fnSigs b32 (Gen.items b32 P n) = fnSigs b32 (Gen.items b32 Q n) := by
  unfold Gen.items
  split <;> rfl

theorem flatMap_declared {γ : Type} (F : List RItem → List γ) (h0 : F [] = []) (hF : ∀ a b, F (a ++ b) = F a ++ F b) {f g : FnDef → List RItem}
    (h : ∀ x, F (f x) = F (g x)) (l : List FnDef) : F (l.flatMap f) = F (l.flatMap g) := by
  induction l with
  | nil => simp [h0]
  | cons x l ih => simp [hF, h, ih]

theorem outputItems_constEnv (b32 : Bool) (P Q : Gen.Parts) (r : List String) : constEnv b32 (outputItems b32 P r) = constEnv b32 (outputItems b32 Q r) := by
  unfold outputItems
  split
  · exact flatMap_declared _ rfl (constEnv_append b32) (fun f => items_constEnv b32 P Q f.name) _
  · rfl

theorem outputItems_fnSigs (b32 : Bool) (P Q : Gen.Parts) (r : List String) : fnSigs b32 (outputItems b32 P r) = fnSigs b32 (outputItems b32 Q r) := by
  unfold outputItems
  split
  · exact flatMap_declared _ rfl (fnSigs_append b32) (fun f => items_fnSigs b32 P Q f.name) _
  · rfl

/-- Is what a table entry generates well typed inside the whole library? -/
def TypesInLibrary (b32 : Bool) (P : Gen.Parts) (n : String) : Prop :=
  ∀ it ∈ Gen.items b32 P n, it.wellTyped b32 (fnSigs b32 (outputItems b32 P ["all"])) (constEnv b32 (outputItems b32 P ["all"])) = true

theorem typesInLibrary_iff (b32 : Bool) (P : Gen.Parts) (hP : TypedParts b32 P) (n : String) :
    TypesInLibrary b32 P n ↔
      entryTyped b32 holeParts (fnSigs b32 (outputItems b32 holeParts ["all"])) (constEnv b32 (outputItems b32 holeParts ["all"])) n = true := by
  rw [← entryTyped_hole b32 P hP, outputItems_constEnv b32 holeParts P, outputItems_fnSigs b32 holeParts P]
  simp [TypesInLibrary, entryTyped]

/-- **C73** Which entries of the function table generate code that type-checks, as part of the whole library: all but four.
Full claim: all of them; false, see `C73_bit_constants_wrong`. -/
theorem C73_types_iff_partial (b32 : Bool) (P : Gen.Parts) (hP : TypedParts b32 P) (f : FnDef) (hf : f ∈ functionTable) :
    TypesInLibrary b32 P f.name ↔ f.name ∉ ["ONE_MASK", "ONE_BITS", "log2", "runif"] := by
  rw [typesInLibrary_iff b32 P hP]
  have : ∀ b32 : Bool, ∀ f ∈ functionTable,
      entryTyped b32 holeParts (fnSigs b32 (outputItems b32 holeParts ["all"])) (constEnv b32 (outputItems b32 holeParts ["all"])) f.name =
        !(["ONE_MASK", "ONE_BITS", "log2", "runif"] : List String).contains f.name := by decide +kernel
  rw [this b32 f hf]
  simp

/-- **C73** is false: `const ONE_BITS: fty` and `const ONE_MASK: fty` are given integer values, in every program. -/
theorem C73_bit_constants_wrong (b32 : Bool) (sigs : Sigs) (cs : List (String × Ty)) :
    (Gen.ONE_BITS b32).wellTyped b32 sigs cs = false ∧ (Gen.ONE_MASK b32).wellTyped b32 sigs cs = false := by
  cases b32 <;> exact ⟨rfl, rfl⟩

/-- The constants of the library with `ONE_BITS` and `ONE_MASK` declared `uty`. -/
def repairedConsts (b32 : Bool) : List (String × Ty) :=
  let u := if b32 then Ty.u32 else .u64
  ("ONE_BITS", u) :: ("ONE_MASK", u) :: constEnv b32 (outputItems b32 holeParts ["all"])

/-- **C73** With those two constants declared `uty` every function type-checks at 64 bits, and all but `runif` at 32 bits, where a `u64` is
stored in a `uty`. -/
theorem C73_repaired (b32 : Bool) (P : Gen.Parts) (hP : TypedParts b32 P) (f : FnDef) (hf : f ∈ functionTable)
    (hn : f.name ≠ "ONE_MASK" ∧ f.name ≠ "ONE_BITS") :
    (∀ it ∈ Gen.items b32 P f.name, it.wellTyped b32 (fnSigs b32 (outputItems b32 P ["all"])) (repairedConsts b32) = true) ↔
      ¬ (b32 = true ∧ f.name = "runif") := by
  have h1 := entryTyped_hole b32 P hP (fnSigs b32 (outputItems b32 P ["all"])) (repairedConsts b32) f.name
  rw [outputItems_fnSigs b32 P holeParts] at h1 ⊢
  have : ∀ b32 : Bool, ∀ f ∈ functionTable, f.name ≠ "ONE_MASK" ∧ f.name ≠ "ONE_BITS" →
      entryTyped b32 holeParts (fnSigs b32 (outputItems b32 holeParts ["all"])) (repairedConsts b32) f.name = !(b32 && f.name == "runif") := by
    decide +kernel
  rw [this b32 f hf hn] at h1
  rw [show (∀ it ∈ Gen.items b32 P f.name, it.wellTyped b32 (fnSigs b32 (outputItems b32 holeParts ["all"])) (repairedConsts b32) = true) ↔
    entryTyped b32 P (fnSigs b32 (outputItems b32 holeParts ["all"])) (repairedConsts b32) f.name = true from by simp [entryTyped], h1]
  cases b32 <;> simp

/-! ## The inserted polynomials -/

/-- The float tokens of `parse_quote!(#float)` are literals with the suffix of their type. -/
structure SuffixedLits (ext : FloatExt) : Prop where
  f32 : ∀ b e, ext.litF32 b = .ok e → ∃ ds, e = .lit (.float ds "f32")
  f64 : ∀ b e, ext.litF64 b = .ok e → ∃ ds, e = .lit (.float ds "f64")

theorem mulAdd_shape (terms : List Dec) (v : Name) (par : Parity) (e : Expr) (h : mulAddPolynomial terms v par = .ok e) :
    ∃ u hi cs, (u = .path v ∨ u = .binary (.path v) .mul (.path v)) ∧
      (e = mulAddChain u hi cs ∨ e = .binary (mulAddChain u hi cs) .mul (.path v)) ∧ (3 < terms.length → cs ≠ []) := by
  have hg : ∀ l r, vgets terms l = .ok r → r.length = l.length := by
    intro l
    induction l with
    | nil => intro r h; simp [vgets] at h; simp [← h]
    | cons i l ih =>
      intro r h
      simp only [vgets, Res.bind_eq_ok] at h
      obtain ⟨t, _, ts, h2, h3⟩ := h
      simp only [Res.pure_eq, Res.ok.injEq] at h3
      simp [← h3, ih ts h2]
  unfold mulAddPolynomial at h
  split at h
  · cases h
  · simp only [Res.bind_eq_ok] at h
    obtain ⟨hi, _, h⟩ := h
    cases par with
    | odd =>
      simp only at h
      split at h
      · cases h
      · simp only [Res.bind_eq_ok] at h
        obtain ⟨cs, h1, h⟩ := h
        simp only [Res.pure_eq, Res.ok.injEq] at h
        refine ⟨_, hi, cs, .inr rfl, .inr h.symm, fun h3 hn => ?_⟩
        have := hg _ _ h1
        simp [hn, stepTwo] at this
        omega
    | even =>
      simp only at h
      split at h
      · cases h
      · simp only [Res.bind_eq_ok] at h
        obtain ⟨cs, h1, h⟩ := h
        simp only [Res.pure_eq, Res.ok.injEq] at h
        refine ⟨_, hi, cs, .inr rfl, .inl h.symm, fun h3 hn => ?_⟩
        have := hg _ _ h1
        simp [hn, stepTwo] at this
        omega
    | neither =>
      simp only [Res.bind_eq_ok] at h
      obtain ⟨cs, h1, h⟩ := h
      simp only [Res.pure_eq, Res.ok.injEq] at h
      refine ⟨_, hi, cs, .inl rfl, .inl h.symm, fun h3 hn => ?_⟩
      have := hg _ _ h1
      simp [hn] at this
      omega

theorem mulAddChain_snoc (u : Expr) (hi : Dec) (cs : List Dec) (c : Dec) :
    mulAddChain u hi (cs ++ [c]) = .methodCall (mulAddChain u hi cs) "mul_add" [u, quotedDec c] := by
  simp [mulAddChain]

theorem quotedDec_lit (d : Dec) : ∃ l, quotedDec d = .lit l ∧ l.isNumeric = true := by
  unfold quotedDec
  split <;> exact ⟨_, rfl, rfl⟩

theorem chain_typed (b32 : Bool) (g : Lit → Expr) (sigs : Sigs) (env : List (String × Ty)) (u : Expr)
    (hg : ∀ l, l.isNumeric = true → (g l).toR.ty b32 sigs env = some (floatTy b32))
    (hu : (u.mapLeaves g .path).toR.ty b32 sigs env = some (floatTy b32)) (hi : Dec) (cs : List Dec) :
    ((mulAddChain u hi cs).mapLeaves g .path).toR.ty b32 sigs env = some (floatTy b32) := by
  induction cs using List.reverseRecOn with
  | nil =>
    obtain ⟨l, hl, hn⟩ := quotedDec_lit hi
    simpa [mulAddChain, hl, Expr.mapLeaves, Expr.toR, RExpr.ty] using hg l hn
  | append_singleton cs c ih =>
    obtain ⟨l, hl, hn⟩ := quotedDec_lit c
    rw [mulAddChain_snoc]
    simp only [Expr.mapLeaves, Expr.mapLeavesArgs, Expr.toR, Expr.toRArgs, RExpr.ty, RExpr.tyArgs, hl, ih, hu, hg l hn, Option.bind_eq_bind, Option.bind_some]
    cases b32 <;> rfl

theorem var_typed (b32 : Bool) (g : Lit → Expr) (sigs : Sigs) (env : List (String × Ty)) (s : String) (u : Expr)
    (hu : u = .path [s] ∨ u = .binary (.path [s]) .mul (.path [s])) (hs : env.lookup s = some (floatTy b32)) :
    (u.mapLeaves g .path).toR.ty b32 sigs env = some (floatTy b32) := by
  rcases hu with rfl | rfl <;> simp only [Expr.mapLeaves, Expr.toR, RExpr.ty, hs, Option.bind_eq_bind, Option.bind_some]
  cases b32 <;> rfl

/-- The literals `use_number_type` writes have the float type of the width. -/
theorem numberTypeLit_typed (ext : FloatExt) (hx : SuffixedLits ext) (b32 : Bool) (ty : String) (bits : ℕ)
    (hty : (ty = "decimal" ∧ bits = (if b32 then 32 else 64)) ∨ (ty = "hex" ∧ b32 = true ∧ bits = 32)) (l : Lit) (ds : List Char) (e : Expr)
    (h : numberTypeLit ext ty bits l ds = .ok e) (sigs : Sigs) (env : List (String × Ty)) : e.toR.ty b32 sigs env = some (floatTy b32) := by
  unfold numberTypeLit at h
  simp only [Res.bind_eq_ok] at h
  obtain ⟨d, _, a, _, b, _, h⟩ := h
  rcases hty with ⟨rfl, rfl⟩ | ⟨rfl, rfl, rfl⟩
  · cases b32
    · simp at h
      obtain ⟨ds, rfl⟩ := hx.f64 _ _ h
      rfl
    · simp at h
      obtain ⟨ds, rfl⟩ := hx.f32 _ _ h
      rfl
  · simp at h
    subst h
    rfl

/-- **C73** The polynomial of a generator, written for number type `decimal` at either width or `hex` at 32 bits, has the float type when its
variable has: this is the assumption of `TypedParts`, met for all coefficients. -/
theorem C73_polynomial_typed (ext : FloatExt) (hx : SuffixedLits ext) (b32 : Bool) (ty : String) (bits : ℕ)
    (hty : (ty = "decimal" ∧ bits = (if b32 then 32 else 64)) ∨ (ty = "hex" ∧ b32 = true ∧ bits = 32))
    (terms : List Dec) (s : String) (par : Parity) (e e' : Expr) (he : mulAddPolynomial terms [s] par = .ok e)
    (he' : useNumberType ext e ty bits = .ok e') : TypedIn b32 s e'.toR := by
  intro sigs env hs
  let v := useNumberTypeVisitor ext ty bits
  let g : Lit → Expr := fun l => match v.lit l with | .ok e => e | _ => .lit (.float "1.0".toList (if b32 then "f32" else "f64"))
  have hleaves : e' = e.mapLeaves g .path := by
    refine Visitor.visit_leaves v rfl rfl rfl _ .path ?_ ?_ e e' he'
    · intro l x hx; simp [g, hx]
    · intro p x hx; simpa [v, useNumberTypeVisitor] using hx.symm
  have hg : ∀ l, l.isNumeric = true → (g l).toR.ty b32 sigs env = some (floatTy b32) := by
    intro l hl
    have hd : (Expr.lit (.float "1.0".toList (if b32 then "f32" else "f64"))).toR.ty b32 sigs env = some (floatTy b32) := by
      cases b32 <;> rfl
    have key : ∀ ds, v.lit l = numberTypeLit ext ty bits l ds → (g l).toR.ty b32 sigs env = some (floatTy b32) := by
      intro ds hv
      simp only [g, hv]
      cases hn : numberTypeLit ext ty bits l ds with
      | ok x => exact numberTypeLit_typed ext hx b32 ty bits hty l ds x hn sigs env
      | _ => exact hd
    cases l with
    | int ds k => exact key ds rfl
    | float ds k => exact key ds rfl
    | _ => simp [Lit.isNumeric] at hl
  obtain ⟨u, hi, cs, hu, h | h, _⟩ := mulAdd_shape terms [s] par e he
  · rw [hleaves, h]
    exact chain_typed b32 g sigs env u hg (var_typed b32 g sigs env s u hu hs) hi cs
  · rw [hleaves, h]
    simp only [Expr.mapLeaves, Expr.toR, RExpr.ty, chain_typed b32 g sigs env u hg (var_typed b32 g sigs env s u hu hs) hi cs, hs,
      Option.bind_eq_bind, Option.bind_some]
    cases b32 <;> rfl

theorem chain_untyped (b32 : Bool) (g : Lit → Expr) (sigs : Sigs) (env : List (String × Ty)) (u : Expr) (hi : Dec) (cs : List Dec)
    (h : cs ≠ [] ∧ (∀ l, l.isNumeric = true → (g l).toR.ty b32 sigs env = some .anyFloat ∨ (g l).toR.ty b32 sigs env = some .anyInt) ∨
      (∀ l, l.isNumeric = true → (g l).toR.ty b32 sigs env = none)) :
    ((mulAddChain u hi cs).mapLeaves g .path).toR.ty b32 sigs env = none := by
  have head : ∀ t, ((mulAddChain u hi []).mapLeaves g .path).toR.ty b32 sigs env = some t →
      (∀ l, l.isNumeric = true → (g l).toR.ty b32 sigs env = some .anyFloat ∨ (g l).toR.ty b32 sigs env = some .anyInt) → t = .anyFloat ∨ t = .anyInt := by
    intro t ht hh
    obtain ⟨l, hl, hn⟩ := quotedDec_lit hi
    simp [mulAddChain, hl, Expr.mapLeaves, Expr.toR, RExpr.ty] at ht
    rcases hh l hn with h | h <;> rw [h] at ht <;> cases ht <;> simp
  have step : ∀ (a : Expr) (args : List Expr), (a.toR.ty b32 sigs env = none ∨ a.toR.ty b32 sigs env = some .anyFloat ∨ a.toR.ty b32 sigs env = some .anyInt) →
      (Expr.methodCall a "mul_add" args).toR.ty b32 sigs env = none := by
    intro a args ha
    simp only [Expr.toR, RExpr.ty]
    rcases ha with ha | ha | ha <;> simp only [ha, Option.bind_eq_bind, Option.bind_some, Option.bind_none]
    · cases RExpr.tyArgs b32 sigs env (Expr.toRArgs args) <;> simp [methTy]
    · cases RExpr.tyArgs b32 sigs env (Expr.toRArgs args) <;> simp [methTy]
  have tail : ∀ cs : List Dec, (((mulAddChain u hi []).mapLeaves g .path).toR.ty b32 sigs env = none ∨
      ((mulAddChain u hi []).mapLeaves g .path).toR.ty b32 sigs env = some .anyFloat ∨
      ((mulAddChain u hi []).mapLeaves g .path).toR.ty b32 sigs env = some .anyInt) → cs ≠ [] →
      ((mulAddChain u hi cs).mapLeaves g .path).toR.ty b32 sigs env = none := by
    intro cs h0 hc
    induction cs using List.reverseRecOn with
    | nil => exact absurd rfl hc
    | append_singleton cs c ih =>
      rw [mulAddChain_snoc]
      simp only [Expr.mapLeaves]
      apply step
      by_cases hcs : cs = []
      · subst hcs; exact h0
      · exact .inl (ih hcs)
  obtain ⟨l, hl, hn⟩ := quotedDec_lit hi
  have h0 : ((mulAddChain u hi []).mapLeaves g .path).toR.ty b32 sigs env = (g l).toR.ty b32 sigs env := by
    simp [mulAddChain, hl, Expr.mapLeaves, Expr.toR, RExpr.ty]
  rcases h with ⟨hc, hh⟩ | hh
  · exact tail cs (.inr (by rw [h0]; exact hh l hn)) hc
  · by_cases hc : cs = []
    · subst hc; rw [h0]; exact hh l hn
    · exact tail cs (.inl (by rw [h0]; exact hh l hn)) hc

/-- **C73** is false for hexadecimal numbers at 64 bits: no generated polynomial type-checks. -/
theorem C73_hex64_untyped (ext : FloatExt) (terms : List Dec) (s : String) (par : Parity) (e e' : Expr)
    (he : mulAddPolynomial terms [s] par = .ok e) (he' : useNumberType ext e "hex" 64 = .ok e') (b32 : Bool) (sigs : Sigs) (env : List (String × Ty)) :
    e'.toR.ty b32 sigs env = none := by
  let v := useNumberTypeVisitor ext "hex" 64
  let g : Lit → Expr := fun l => match v.lit l with | .ok e => e | _ => .other ""
  have hleaves : e' = e.mapLeaves g .path := by
    refine Visitor.visit_leaves v rfl rfl rfl _ .path ?_ ?_ e e' he'
    · intro l x hx; simp [g, hx]
    · intro p x hx; simpa [v, useNumberTypeVisitor] using hx.symm
  have hg : ∀ l, l.isNumeric = true → (g l).toR.ty b32 sigs env = none := by
    intro l hl
    have key : ∀ ds, v.lit l = numberTypeLit ext "hex" 64 l ds → (g l).toR.ty b32 sigs env = none := by
      intro ds hv
      simp only [g, hv]
      cases hn : numberTypeLit ext "hex" 64 l ds with
      | ok x =>
        unfold numberTypeLit at hn
        simp only [Res.bind_eq_ok] at hn
        obtain ⟨d, _, a, _, b, _, hn⟩ := hn
        simp at hn
        subst hn
        rfl
      | _ => rfl
    cases l with
    | int ds k => exact key ds rfl
    | float ds k => exact key ds rfl
    | _ => simp [Lit.isNumeric] at hl
  obtain ⟨u, hi, cs, hu, h | h, _⟩ := mulAdd_shape terms [s] par e he
  · rw [hleaves, h]
    exact chain_untyped b32 g sigs env u hi cs (.inr hg)
  · rw [hleaves, h]
    simp only [Expr.mapLeaves, Expr.toR, RExpr.ty, chain_untyped b32 g sigs env u hi cs (.inr hg)]
    rfl

/-- **C73** is false for every other number type: the polynomials (of four terms or more) call `mul_add` on a literal of undetermined type. -/
theorem C73_other_number_types_untyped (ext : FloatExt) (ty : String) (bits : ℕ) (hty : (ty ≠ "decimal" ∧ ty ≠ "hex") ∨ (bits ≠ 32 ∧ bits ≠ 64))
    (terms : List Dec) (h4 : 3 < terms.length) (s : String) (par : Parity) (e e' : Expr) (he : mulAddPolynomial terms [s] par = .ok e)
    (he' : useNumberType ext e ty bits = .ok e') (b32 : Bool) (sigs : Sigs) (env : List (String × Ty)) : e'.toR.ty b32 sigs env = none := by
  rw [C20_unknown_type_unchanged ext e e' ty bits hty he']
  obtain ⟨u, hi, cs, hu, h, hc⟩ := mulAdd_shape terms [s] par e he
  have hcs := hc h4
  -- only the literals written by `quotedDec` occur, and they carry no suffix
  let g : Lit → Expr := fun l => match l with | .int ds _ => .lit (.int ds "") | .float ds _ => .lit (.float ds "") | l => .lit l
  have hg : ∀ l, l.isNumeric = true → (g l).toR.ty b32 sigs env = some .anyFloat ∨ (g l).toR.ty b32 sigs env = some .anyInt := by
    intro l hl
    cases l with
    | int ds k => exact .inr rfl
    | float ds k => exact .inl rfl
    | _ => simp [Lit.isNumeric] at hl
  have hq : ∀ d, (quotedDec d).mapLeaves g .path = quotedDec d := by
    intro d; unfold quotedDec; split <;> rfl
  have hid : (mulAddChain u hi cs).mapLeaves g .path = mulAddChain u hi cs := by
    have hu' : u.mapLeaves g .path = u := by rcases hu with rfl | rfl <;> rfl
    clear hcs h hc
    induction cs using List.reverseRecOn with
    | nil => simp [mulAddChain, Expr.mapLeaves, hq]
    | append_singleton cs c ih => rw [mulAddChain_snoc]; simp [Expr.mapLeaves, Expr.mapLeavesArgs, ih, hu', hq]
  have hn := chain_untyped b32 g sigs env u hi cs (.inl ⟨hcs, hg⟩)
  rw [hid] at hn
  rcases h with h | h
  · rw [h]; exact hn
  · rw [h]
    simp only [Expr.toR, RExpr.ty, hn]
    rfl

/-- Conversions as in the examples, writing every number as `1.0` with a suffix. -/
example : SuffixedLits exampleExt := ⟨fun _ _ h => ⟨_, (Res.ok.inj h).symm⟩, fun _ _ h => ⟨_, (Res.ok.inj h).symm⟩⟩

/-- `(1.0f32).mul_add(x, 1.0f32)` from the polynomial `0.5 + 2.5 x`. -/
example : ∃ e, mulAddPolynomial [⟨5, 1⟩, ⟨25, 1⟩] ["x"] .neither = .ok e ∧
    useNumberType exampleExt e "decimal" 32 = .ok (.methodCall (.paren (.lit (.float "1.0".toList "f32"))) "mul_add"
      [.path ["x"], .lit (.float "1.0".toList "f32")]) := ⟨_, rfl, rfl⟩

end Verif
