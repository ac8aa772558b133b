import Verif.Props.SimdGenerated
import Verif.Spec.VectorTypes

/-!
# C80: types of the vectorised library

The polynomials are replaced by their variable, which has the same type.
-/

namespace Verif

/-- All functions of an entry have well typed methods. -/
def entryVectorTyped (b32 : Bool) (cs : List SimdConst) (n : String) : Bool :=
  (Gen.items b32 holeParts n).all fun
    | .fn f => match simdFn b32 cs f with
      | .ok m => m.wellTyped b32
      | _ => false
    | _ => true

/-- **C80 (partial).** With the whole library's constants at hand, the method of a library function type-checks exactly when it is one of the
26 vectorisable ones. -/
theorem C80_types_iff_partial (b32 : Bool) (n : String) (hn : n ∈ functionEntries) :
    entryVectorTyped b32 (RItem.constsOf (libraryConsts.flatMap (Gen.items b32 holeParts))) n = true ↔ n ∈ vectorEntries := by
  revert n
  cases b32 <;> decide +kernel

/-- Every entry with a function is among those listed. -/
theorem C80_entries_listed (b32 : Bool) (P : Gen.Parts) (n : String) (f : RFn) (hf : RItem.fn f ∈ Gen.items b32 P n) : n ∈ functionEntries := by
  have notfn : ∀ it : RItem, RItem.fn f = it → (it matches .fn _) = false → False := by
    rintro _ rfl h
    cases h
  unfold Gen.items at hf
  split at hf <;> first
    | decide
    | exact absurd hf List.not_mem_nil
    | exact (notfn _ (List.mem_singleton.1 hf) rfl).elim

/-- A free call is a type error in any method, whatever its name and arguments. -/
theorem C80_free_call_untyped (b32 : Bool) (env : List (String × VTy)) (f : String) (args : List RExpr) : RExpr.vty b32 env (.call (.path [f]) args) = none := by
  match args with
  | [] | _ :: _ :: _ => simp [RExpr.vty]
  | [a] => cases h : a.vty b32 env <;> simp [RExpr.vty, splatTy, h]

/-- An integer without suffix is splatted into a float vector: a type error. -/
theorem C80_integer_untyped (b32 : Bool) (env : List (String × VTy)) (r : List Char) (e : RExpr) (h : simdExpr b32 (.lit (.int r "")) = .ok e) :
    e.vty b32 env = none := by
  have h : convertLit (.int r "") = e := by simpa [simdExpr] using h
  subst h
  cases b32 <;> simp [convertLit, RExpr.vty, splatTy, splatArgTy, litTy, VTy.elem, Ty.meet, Ty.isInt]

/-! ## The others fail for every polynomial -/

/-- The vectorised form of an expression has no type in any environment. -/
def NeverTyped (b32 : Bool) (e : RExpr) : Prop := ∀ e', simdExpr b32 e = .ok e' → ∀ env, e'.vty b32 env = none

/-- A statement that cannot be typed. -/
def BadStmt (b32 : Bool) : RStmt → Prop
  | .letInit _ _ e => NeverTyped b32 e
  | .expr e => NeverTyped b32 e
  | .const _ _ _ => True
  | _ => False

theorem bad_block (b32 : Bool) (b b' : List RStmt) (h : simdStmts b32 b = .ok b') (s : RStmt) (hs : s ∈ b) (hb : BadStmt b32 s) (env : List (String × VTy)) :
    RStmt.vtyBlock b32 env b' = none := by
  induction b generalizing b' env with
  | nil => simp at hs
  | cons t b ih =>
    simp only [simdStmts, Res.bind_eq_ok] at h
    obtain ⟨t', ht, bs, hbs, he⟩ := h
    cases he
    rcases List.mem_cons.1 hs with rfl | hs
    · cases s with
      | decl => exact hb.elim
      | semi => exact hb.elim
      | letInit n ty e =>
        simp only [simdStmt, Res.bind_eq_ok] at ht
        obtain ⟨e', he, ht⟩ := ht
        cases ht
        simp [RStmt.vtyBlock, hb e' he]
      | expr e =>
        simp only [simdStmt, Res.bind_eq_ok] at ht
        obtain ⟨e', he, ht⟩ := ht
        cases ht
        simp [RStmt.vtyBlock, hb e' he]
      | const n ty e =>
        simp only [simdStmt, Res.bind_eq_ok] at ht
        obtain ⟨e', he, ht⟩ := ht
        cases ht
        simp [RStmt.vtyBlock]
    · cases t' with
      | letInit n ty e =>
        cases ty with
        | some _ => simp [RStmt.vtyBlock]
        | none =>
          simp only [RStmt.vtyBlock]
          cases e.vty b32 env with
          | none => rfl
          | some v => exact ih bs hbs hs _
      | expr e =>
        simp only [RStmt.vtyBlock]
        split
        · rename_i h0
          cases bs with
          | nil => cases b with
            | nil => simp at hs
            | cons u b =>
              simp only [simdStmts, Res.bind_eq_ok] at hbs
              obtain ⟨_, _, _, _, hx⟩ := hbs
              cases hx
          | cons => simp at h0
        · rfl
      | _ => simp [RStmt.vtyBlock]

theorem bad_consts (b32 : Bool) (cs : List SimdConst) (used : List String) (body body' : List RStmt) (h : insertConsts b32 cs used body = .ok body')
    (hb : ∀ env, RStmt.vtyBlock b32 env body = none) (env : List (String × VTy)) : RStmt.vtyBlock b32 env body' = none := by
  induction cs generalizing used body with
  | nil => cases h; exact hb env
  | cons c cs ih =>
    simp only [insertConsts] at h
    split at h
    · simp only [Res.bind_eq_ok] at h
      obtain ⟨e, _, h⟩ := h
      refine ih _ _ h ?_
      intro env
      simp only [RStmt.vtyBlock]
      cases e.vty b32 env with
      | none => rfl
      | some v => exact hb _
    · exact ih _ _ h hb

/-- One statement that cannot be typed spoils the method. -/
theorem C80_bad_statement (b32 : Bool) (cs : List SimdConst) (f : RFn) (m : SimdMethod) (hm : simdFn b32 cs f = .ok m) (s : RStmt) (hs : s ∈ f.body)
    (hb : BadStmt b32 s) : m.wellTyped b32 = false := by
  unfold simdFn at hm
  split at hm
  · cases hm
  · simp only [Res.bind_eq_ok] at hm
    obtain ⟨body, hbody, body', hc, hm⟩ := hm
    cases hm
    unfold SimdMethod.wellTyped
    split
    · rw [bad_consts b32 cs _ body body' hc fun env => bad_block b32 _ body hbody s (List.mem_cons_of_mem _ hs) hb env]
      rfl
    · rfl

theorem simd_add (b32 : Bool) (a b : RExpr) : simdExpr b32 (a + b) = simdExpr b32 (.binary a .add b) := rfl
theorem simd_sub (b32 : Bool) (a b : RExpr) : simdExpr b32 (a - b) = simdExpr b32 (.binary a .sub b) := rfl

macro "never_typed" : tactic => `(tactic| (
  intro e' he env
  simp [RStmt.letT, RExpr.v, RExpr.as, RExpr.app, RExpr.fromBits, Gen.ilit, simd_add, simd_sub, simdExpr, simdExprs, convertCall, convertBinary, convertPath, convertLit, convertCast, attachMethod, simdIdent, simdType, simdCalls,
    RExpr.num, RExpr.int] at he
  subst he
  simp [RExpr.vty, RExpr.vtyArgs, splatTy, splatArgTy, litTy, VTy.elem, Ty.meet, Ty.isInt]))

/-- **C80 (negative).** The other twelve functions have a type error in the vectorised output, whatever polynomials and constants surround them. -/
theorem C80_others_wrong (b32 : Bool) (P : Gen.Parts) (cs : List SimdConst) (n : String) (hn : n ∉ vectorEntries) (f : RFn)
    (hf : RItem.fn f ∈ Gen.items b32 P n) (m : SimdMethod) (hm : simdFn b32 cs f = .ok m) : m.wellTyped b32 = false := by
  have hl := C80_entries_listed b32 P n f hf
  have : n ∈ functionEntries.filter (· ∉ vectorEntries) := List.mem_filter.2 ⟨hl, by simpa using hn⟩
  have he : functionEntries.filter (· ∉ vectorEntries) = ["negate_on_odd", "nextafter", "exp2", "exp_m1", "sqrt", "recip", "runif", "rnorm", "sin", "cos", "tan", "sin_cos"] := by decide
  rw [he] at this
  simp only [List.mem_cons, List.not_mem_nil, or_false] at this
  rcases this with rfl | rfl | rfl | rfl | rfl | rfl | rfl | rfl | rfl | rfl | rfl | rfl <;>
    simp only [Gen.items, List.mem_singleton, RItem.fn.injEq] at hf <;> subst hf
  · exact C80_bad_statement b32 cs _ m hm _ (List.mem_cons_self) (by cases b32 <;> never_typed)
  · exact C80_bad_statement b32 cs _ m hm _ (List.mem_cons_self) (by cases b32 <;> never_typed)
  · exact C80_bad_statement b32 cs _ m hm _ (List.mem_cons_self) (by never_typed)
  · exact C80_bad_statement b32 cs _ m hm _ (List.mem_cons_of_mem _ List.mem_cons_self) (by never_typed)
  · exact C80_bad_statement b32 cs _ m hm _ (List.mem_cons_self) (by never_typed)
  · exact C80_bad_statement b32 cs _ m hm _ (List.mem_cons_self) (by never_typed)
  · exact C80_bad_statement b32 cs _ m hm _ (List.mem_cons_self) (by cases b32 <;> never_typed)
  · exact C80_bad_statement b32 cs _ m hm _ (List.mem_cons_self) trivial
  · exact C80_bad_statement b32 cs _ m hm _ (List.mem_cons_of_mem _ List.mem_cons_self) (by never_typed)
  · exact C80_bad_statement b32 cs _ m hm _ (List.mem_cons_of_mem _ List.mem_cons_self) (by never_typed)
  · exact C80_bad_statement b32 cs _ m hm _ (List.mem_cons_of_mem _ List.mem_cons_self) (by never_typed)
  · exact C80_bad_statement b32 cs _ m hm _ (List.mem_cons_self) (by never_typed)

example : ∃ m, simdFn true [] (Gen.sin (.path ["x"])) = .ok m ∧ m.wellTyped true = false ∧ m.body.length = 4 := ⟨_, rfl, rfl, rfl⟩

example : "sin" ∈ functionEntries ∧ "sin" ∉ vectorEntries ∧ "qnorm" ∈ vectorEntries := by decide

end Verif
