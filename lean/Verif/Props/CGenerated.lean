import Verif.Props.CCode
import Verif.Props.GenTypes

/-!
# C40, C78: the C text of the generated library
-/

namespace Verif

/-- The inserted polynomials and constants have a C text of their own. -/
def PlainParts (P : Gen.Parts) : Prop := ∀ n, (P.approx n).plain = true ∧ (P.value n).plain = true

example : PlainParts holeParts := fun _ => ⟨rfl, rfl⟩

theorem plain_add (a b : RExpr) : (a + b).plain = (a.plain && b.plain) := by with_unfolding_all rfl
theorem plain_sub (a b : RExpr) : (a - b).plain = (a.plain && b.plain) := by with_unfolding_all rfl
theorem plain_mul (a b : RExpr) : (a * b).plain = (a.plain && b.plain) := by with_unfolding_all rfl
theorem plain_div (a b : RExpr) : (a / b).plain = (a.plain && b.plain) := by with_unfolding_all rfl
theorem plain_neg (a : RExpr) : (-a).plain = a.plain := by with_unfolding_all rfl

theorem items_plain (b32 : Bool) (P : Gen.Parts) (hP : PlainParts P) (n : String) : ∀ it ∈ Gen.items b32 P n, it.plain = true := by
  have h1 := fun n => (hP n).1
  have h2 := fun n => (hP n).2
  unfold Gen.items
  split <;> (first | (cases b32 <;> decide) | skip) <;>
  simp [RItem.plain, Gen.evalConst, Gen.constItem, Gen.asin, Gen.acos, Gen.atan, Gen.atan2, Gen.exp2, Gen.exp_m1, Gen.log2, Gen.qnorm, Gen.sin, Gen.cos,
    Gen.tan, Gen.sinLike, RFn.ofFty, RStmt.plainAll, RStmt.plain, RStmt.letT, RStmt.letU, RExpr.plain, RExpr.plainAll, RExpr.v, RExpr.cond, RExpr.gt,
    RExpr.lt, RExpr.ge, RExpr.num, RExpr.app, RExpr.as, RExpr.fromBits, Gen.scaleBits, Gen.insideLim, Gen.edgeArg, plain_add, plain_sub, plain_mul,
    plain_div, plain_neg, h1, h2]

/-- **C40** The library written for any request, whatever its polynomials and constants, is translated to C without a panic, item by item. -/
theorem C40_generated (o : COptions) (b32 : Bool) (P : Gen.Parts) (hP : PlainParts P) (request : List String) :
    toC o (outputItems b32 P request) = .ok ("\n\n".intercalate ("#include <math.h>" :: (outputItems b32 P request).map (RItem.cText o))) := by
  refine C40_file o _ fun i hi => ?_
  unfold outputItems at hi
  split at hi
  · obtain ⟨f, _, hf⟩ := List.mem_flatMap.mp hi
    exact items_plain b32 P hP f.name i hf
  · simp at hi

theorem chain_plain (g : Lit → Expr) (hg : ∀ l, (g l).toR.plain = true) (u : Expr) (hu : (u.mapLeaves g .path).toR.plain = true) (hi : Dec)
    (cs : List Dec) : ((mulAddChain u hi cs).mapLeaves g .path).toR.plain = true := by
  induction cs using List.reverseRecOn with
  | nil =>
    obtain ⟨l, hl, hn⟩ := quotedDec_lit hi
    simpa [mulAddChain, hl, Expr.mapLeaves, Expr.toR, RExpr.plain] using hg l
  | append_singleton cs c ih =>
    obtain ⟨l, hl, hn⟩ := quotedDec_lit c
    rw [mulAddChain_snoc]
    simp [Expr.mapLeaves, Expr.mapLeavesArgs, Expr.toR, Expr.toRArgs, RExpr.plain, RExpr.plainAll, hl, ih, hu, hg l]

/-- **C40** The polynomials that the generators insert have a C text of their own, for all coefficients and number types. -/
theorem C40_polynomial (ext : FloatExt) (hx : SuffixedLits ext) (ty : String) (bits : ℕ) (terms : List Dec) (v : Name) (par : Parity) (e e' : Expr)
    (he : mulAddPolynomial terms v par = .ok e) (he' : useNumberType ext e ty bits = .ok e') : e'.toR.plain = true := by
  let V := useNumberTypeVisitor ext ty bits
  let g : Lit → Expr := fun l => match V.lit l with | .ok e => e | _ => .lit l
  have hleaves : e' = e.mapLeaves g .path := by
    refine Visitor.visit_leaves V rfl rfl rfl _ .path ?_ ?_ e e' he'
    · intro l x hx; simp [g, hx]
    · intro p x hx; simpa [V, useNumberTypeVisitor] using hx.symm
  have hl : ∀ l ds x, numberTypeLit ext ty bits l ds = .ok x → x.toR.plain = true := by
    intro l ds x h
    unfold numberTypeLit at h
    simp only [Res.bind_eq_ok] at h
    obtain ⟨d, _, a, _, b, _, h⟩ := h
    split at h
    · obtain ⟨ds, rfl⟩ := hx.f32 _ _ h; rfl
    · split at h
      · obtain ⟨ds, rfl⟩ := hx.f64 _ _ h; rfl
      · split at h
        · cases h; rfl
        · split at h <;> (cases h; rfl)
  have hg : ∀ l, (g l).toR.plain = true := by
    intro l
    simp only [g]
    split
    · rename_i x hx
      cases l with
      | int ds k => exact hl _ ds x hx
      | float ds k => exact hl _ ds x hx
      | bool b => simp only [V, useNumberTypeVisitor, Res.ok.injEq] at hx; subst hx; rfl
      | other k => simp only [V, useNumberTypeVisitor, Res.ok.injEq] at hx; subst hx; rfl
    · rfl
  obtain ⟨u, hi, cs, hu, h⟩ := mulAdd_shape terms v par e he
  have hu' : (u.mapLeaves g .path).toR.plain = true := by rcases hu with rfl | rfl <;> rfl
  rcases h.1 with h | h <;> rw [hleaves, h]
  · exact chain_plain g hg u hu' hi cs
  · simp only [Expr.mapLeaves, Expr.toR, RExpr.plain, chain_plain g hg u hu' hi cs, Bool.and_self]

/-! ## C78: local variables -/

/-- **C78** A `let` with a type is printed as a C declaration of that type. -/
theorem C78_typed_let (o : COptions) (n : String) (t : Name) (e : RExpr) :
    (RStmt.letInit n (some t) e).cText o = cType t ++ " " ++ n ++ " = " ++ e.cText o := rfl

/-- **C78** A `let` without a type is printed as an assignment: the two statements `let n = e;` and `n = e;` have the same C text, so that nothing
declares `n`. -/
theorem C78_untyped_let (o : COptions) (n : String) (e : RExpr) :
    (RStmt.letInit n none e).cText o = (RStmt.semi (.assign (.path [n]) e)).cText o := rfl

/-- The variables a body declares in C: those of typed `let`s and of constants. -/
def cDeclares : List RStmt → List String
  | [] => []
  | .letInit n (some _) _ :: b | .decl n (some _) :: b | .const n _ _ :: b => n :: cDeclares b
  | _ :: b => cDeclares b

/-- The variables a body declares in Rust. -/
def rustDeclares : List RStmt → List String
  | [] => []
  | .letInit n _ _ :: b | .decl n _ :: b | .const n _ _ :: b => n :: rustDeclares b
  | _ :: b => rustDeclares b

/-- Every variable of the body is declared, and once, in its C text. -/
def CDeclared (f : RFn) : Prop := cDeclares f.body = rustDeclares f.body ∧ (cDeclares f.body).Nodup

instance (f : RFn) : Decidable (CDeclared f) := inferInstanceAs (Decidable (_ ∧ _))

/-- The functions a table entry generates. -/
def entryFns (b32 : Bool) (P : Gen.Parts) (n : String) : List RFn := (Gen.items b32 P n).filterMap fun | .fn f => some f | _ => none

theorem entryFns_declares (b32 : Bool) (P Q : Gen.Parts) (n : String) :
    (entryFns b32 P n).map (fun f => (cDeclares f.body, rustDeclares f.body)) = (entryFns b32 Q n).map fun f => (cDeclares f.body, rustDeclares f.body) := by
  unfold entryFns Gen.items
  split <;> rfl

/-- **C78** is false for these functions of the library, and true for all others: `round`, `atan2`, `exp2` and `qnorm` have a variable that C does not
declare, and `cbrt` declares one variable five times. -/
theorem C78_generated_iff_partial (b32 : Bool) (P : Gen.Parts) (f : FnDef) (hf : f ∈ functionTable) :
    (∀ g ∈ entryFns b32 P f.name, CDeclared g) ↔ f.name ∉ ["round", "atan2", "exp2", "qnorm", "cbrt"] := by
  have key : ∀ Q : Gen.Parts, (∀ g ∈ entryFns b32 Q f.name, CDeclared g) ↔
      ∀ p ∈ (entryFns b32 Q f.name).map (fun f => (cDeclares f.body, rustDeclares f.body)), p.1 = p.2 ∧ p.1.Nodup := by
    intro Q
    rw [List.forall_mem_map]
    rfl
  rw [key, entryFns_declares b32 P holeParts, ← key]
  have : ∀ b32 : Bool, ∀ f ∈ functionTable, (decide (∀ g ∈ entryFns b32 holeParts f.name, CDeclared g)) =
      !(["round", "atan2", "exp2", "qnorm", "cbrt"] : List String).contains f.name := by decide +kernel
  have h := this b32 f hf
  rw [← decide_eq_true_iff (p := ∀ g ∈ entryFns b32 holeParts f.name, CDeclared g), h]
  simp

end Verif
