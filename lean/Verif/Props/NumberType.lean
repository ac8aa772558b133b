import Mathlib.Tactic.Tauto
import Verif.Lemmas.Leaves

/-! # C20, C21: `use_number_type` -/

namespace Verif

/-- Is this a numeric literal? -/
def Lit.isNumeric : Lit → Bool
  | .int _ _ => true
  | .float _ _ => true
  | _ => false

/-- **C20** The result is the input with each numeric literal replaced by something depending on that literal
only; every other node, other literals and names included, is kept. -/
theorem C20_only_numeric_literals (ext : FloatExt) (e e' : Expr) (ty : String) (bits : Nat)
    (h : useNumberType ext e ty bits = .ok e') :
    ∃ g : Lit → Expr, (∀ l, l.isNumeric = false → g l = .lit l) ∧ e' = e.mapLeaves g .path := by
  let v := useNumberTypeVisitor ext ty bits
  refine ⟨fun l => match v.lit l with | .ok e => e | _ => .lit l, ?_, ?_⟩
  · intro l hl
    cases l <;> first | rfl | simp [Lit.isNumeric] at hl
  · refine Visitor.visit_leaves v rfl rfl rfl _ .path ?_ ?_ e e' h
    · intro l x hx; simp [hx]
    · intro p x hx; simpa [v, useNumberTypeVisitor] using hx.symm

/-- **C20** For a number type other than decimal/hex, or a width other than 32/64, the expression comes back unchanged. -/
theorem C20_unknown_type_unchanged (ext : FloatExt) (e e' : Expr) (ty : String) (bits : Nat)
    (hty : (ty ≠ "decimal" ∧ ty ≠ "hex") ∨ (bits ≠ 32 ∧ bits ≠ 64))
    (h : useNumberType ext e ty bits = .ok e') : e' = e := by
  let v := useNumberTypeVisitor ext ty bits
  have key : ∀ l ds x, numberTypeLit ext ty bits l ds = .ok x → x = .lit l := by
    intro l ds x hx
    unfold numberTypeLit at hx
    simp only [Res.bind_eq_ok] at hx
    obtain ⟨d, _, b32, _, b64, _, hx⟩ := hx
    have h1 : ¬ (ty = "decimal" ∧ bits = 32) := by tauto
    have h2 : ¬ (ty = "decimal" ∧ bits = 64) := by tauto
    have h3 : ¬ (ty = "hex" ∧ bits = 32) := by tauto
    have h4 : ¬ (ty = "hex" ∧ bits = 64) := by tauto
    rw [if_neg h1, if_neg h2, if_neg h3, if_neg h4] at hx
    simpa using hx.symm
  have := Visitor.visit_leaves v rfl rfl rfl .lit .path ?_ ?_ e e' h
  · rw [this, Expr.mapLeaves_id _ _ (fun _ _ => rfl)]
  · intro l x hx
    cases l with
    | int ds s => exact key _ ds x hx
    | float ds s => exact key _ ds x hx
    | bool b => simpa [v, useNumberTypeVisitor] using hx.symm
    | other t => simpa [v, useNumberTypeVisitor] using hx.symm
  · intro p x hx; simpa [v, useNumberTypeVisitor] using hx.symm

/-- **C20** ... and (when its literals convert) it does come back. -/
theorem C20_unknown_type_succeeds (ext : FloatExt) (e : Expr) (ty : String) (bits : Nat)
    (hty : (ty ≠ "decimal" ∧ ty ≠ "hex") ∨ (bits ≠ 32 ∧ bits ≠ 64)) (hs : e.supported = true)
    (hconv : ∀ l, ∃ x, (useNumberTypeVisitor ext ty bits).lit l = .ok x) :
    useNumberType ext e ty bits = .ok e := by
  obtain ⟨e', he⟩ := Visitor.visit_supported (useNumberTypeVisitor ext ty bits) rfl rfl hconv (fun p => ⟨_, rfl⟩) e hs
  have := C20_unknown_type_unchanged ext e e' ty bits hty he
  rw [useNumberType, he, this]

/-- A conversion for examples: every number becomes the bit pattern 7. -/
def exampleExt : FloatExt where
  toF32 := fun _ => some 7
  toF64 := fun _ => some 7
  litF32 := fun _ => .ok (.lit (.float "1.0".toList "f32"))
  litF64 := fun _ => .ok (.lit (.float "1.0".toList "f64"))

example : useNumberType exampleExt (.binary (.path ["x"]) .mul (.lit (.float "2.5".toList ""))) "octal" 32 =
    .ok (.binary (.path ["x"]) .mul (.lit (.float "2.5".toList ""))) := by rfl

/-! ## C21 -/

/-- What C21 asks for: the call `fW::from_bits(b)`. -/
def fromBitsCall (width : Nat) (b : Nat) : Expr :=
  .call (.path [if width = 32 then "f32" else "f64", "from_bits"])
    [.lit (.int (natText b) (if width = 32 then "u32" else "u64"))]

/-- **C21** (32 bits only.)  A numeric literal whose conversions succeed becomes `f32::from_bits(b)` with `b` the
32-bit pattern of the literal's value.

Full claim: the same for width 64 with `f64::from_bits` and the 64-bit pattern; that is false,
see `C21_hex64_wrong`. -/
theorem C21_hex32_partial (ext : FloatExt) (l : Lit) (ds : List Char) (s : String)
    (hl : l = .int ds s ∨ l = .float ds s) (d : Dec) (b32 b64 : Nat)
    (hd : parseDec ds = some d) (h32 : ext.toF32 d = some b32) (h64 : ext.toF64 d = some b64) :
    useNumberType ext (.lit l) "hex" 32 = .ok (fromBitsCall 32 b32) := by
  rcases hl with rfl | rfl <;>
    simp [useNumberType, Visitor.visit, useNumberTypeVisitor, numberTypeLit, hd, h32, h64, Res.unwrapOpt, fromBitsCall,
      fromBits32Call]

/-- **C21** is false for width 64: the emitted call is `f32::from_bits` applied to the 64-bit pattern, for every
literal. -/
theorem C21_hex64_wrong (ext : FloatExt) (l : Lit) (ds : List Char) (s : String)
    (hl : l = .int ds s ∨ l = .float ds s) (d : Dec) (b32 b64 : Nat)
    (hd : parseDec ds = some d) (h32 : ext.toF32 d = some b32) (h64 : ext.toF64 d = some b64) :
    useNumberType ext (.lit l) "hex" 64 =
      .ok (.call (.path ["f32", "from_bits"]) [.lit (.int (natText b64) "u64")]) ∧
    useNumberType ext (.lit l) "hex" 64 ≠ .ok (fromBitsCall 64 b64) := by
  have h : useNumberType ext (.lit l) "hex" 64 =
      .ok (.call (.path ["f32", "from_bits"]) [.lit (.int (natText b64) "u64")]) := by
    rcases hl with rfl | rfl <;>
    simp [useNumberType, Visitor.visit, useNumberTypeVisitor, numberTypeLit, hd, h32, h64, Res.unwrapOpt,
      fromBits32Call]
  refine ⟨h, ?_⟩
  rw [h]
  simp [fromBitsCall]

example : parseDec "2.5".toList = some ⟨25, 1⟩ ∧ exampleExt.toF32 ⟨25, 1⟩ = some 7 := by
  constructor <;> rfl

end Verif
