import Verif.Spec.RustMeaning
import Verif.Spec.LitValue
import Mathlib.Data.Int.Log
import Mathlib.Data.Int.Bitwise
import Mathlib.Data.Real.Sqrt
import Mathlib.Analysis.SpecialFunctions.Log.Basic

/-!
# Generated code over the real numbers

Floats are real numbers (so arithmetic is exact), with the IEEE bit patterns of those that have one.  Integers are unbounded except where the
program casts or multiplies with wrap-around.
-/

namespace Verif

/-- A value of a generated program. -/
inductive RV where
  | f (x : ℝ)
  | inf (neg : Bool)
  | nan
  | i (n : ℤ)
  | b (t : Bool)
  | junk

/-- A binary floating point format: fraction bits and exponent bits. -/
structure FloatFmt where
  mant : ℕ
  ebits : ℕ

def FloatFmt.f32 : FloatFmt := ⟨23, 8⟩
def FloatFmt.f64 : FloatFmt := ⟨52, 11⟩

/-- Width in bits. -/
def FloatFmt.width (F : FloatFmt) : ℕ := F.mant + F.ebits + 1
/-- Exponent bias. -/
def FloatFmt.bias (F : FloatFmt) : ℕ := 2 ^ (F.ebits - 1) - 1

/-- IEEE 754: the value of the bit pattern `n`. -/
noncomputable def FloatFmt.decode (F : FloatFmt) (n : ℕ) : RV :=
  let frac : ℕ := n % 2 ^ F.mant
  let e : ℕ := n / 2 ^ F.mant % 2 ^ F.ebits
  let neg : Bool := n / 2 ^ (F.mant + F.ebits) % 2 == 1
  let sgn : ℝ := if neg then -1 else 1
  if e = 2 ^ F.ebits - 1 then (if frac = 0 then .inf neg else .nan)
  else if e = 0 then .f (sgn * frac * (2 : ℝ) ^ (1 - (F.bias : ℤ) - F.mant))
  else .f (sgn * (1 + frac / 2 ^ F.mant) * (2 : ℝ) ^ ((e : ℤ) - F.bias))

/-- IEEE 754: the bit pattern of a float (`+0` for zero). -/
noncomputable def FloatFmt.encode (F : FloatFmt) (x : ℝ) : ℕ :=
  let sgn := if x < 0 then 2 ^ (F.mant + F.ebits) else 0
  if |x| < (2 : ℝ) ^ (1 - (F.bias : ℤ)) then sgn + ⌊|x| / (2 : ℝ) ^ (1 - (F.bias : ℤ) - F.mant)⌋₊
  else
    let e := Int.log 2 |x|
    sgn + (e + F.bias).toNat * 2 ^ F.mant + ⌊(|x| / (2 : ℝ) ^ e - 1) * 2 ^ F.mant⌋₊

/-- Rust `as` from float to integer drops the fraction. -/
noncomputable def truncR (x : ℝ) : ℤ := if 0 ≤ x then ⌊x⌋ else ⌈x⌉

/-- Rust `as` saturates. -/
def clampZ (lo hi n : ℤ) : ℤ := if n < lo then lo else if hi < n then hi else n

/-- Two's complement wrap to `w` bits, signed. -/
def wrapS (w : ℕ) (n : ℤ) : ℤ := (n + 2 ^ (w - 1)) % 2 ^ w - 2 ^ (w - 1)

/-- The cast `as ty`. -/
noncomputable def castRV (F : FloatFmt) : Name → RV → RV
  | ["fty"], .f x => .f x
  | ["fty"], .i n => .f n
  | ["ity"], .f x => .i (clampZ (-2 ^ (F.width - 1)) (2 ^ (F.width - 1) - 1) (truncR x))
  | ["uty"], .f x => .i (clampZ 0 (2 ^ F.width - 1) (truncR x))
  | ["ity"], .i n => .i (wrapS F.width n)
  | ["uty"], .i n => .i (n % 2 ^ F.width)
  | ["u64"], .i n => .i (n % 2 ^ 64)
  | _, _ => .junk

noncomputable def unRV : UnOp → RV → RV
  | .neg, .f x => .f (-x)
  | .neg, .inf s => .inf (!s)
  | .neg, .nan => .nan
  | .neg, .i n => .i (-n)
  | .not, .b t => .b (!t)
  | _, _ => .junk

open Classical in
noncomputable def binRV : BinOp → RV → RV → RV
  | .add, .f x, .f y => .f (x + y)
  | .sub, .f x, .f y => .f (x - y)
  | .mul, .f x, .f y => .f (x * y)
  | .div, .f x, .f y => if y = 0 then (if x = 0 then .nan else .inf (decide (x < 0))) else .f (x / y)
  | .lt, .f x, .f y => .b (decide (x < y))
  | .le, .f x, .f y => .b (decide (x ≤ y))
  | .gt, .f x, .f y => .b (decide (y < x))
  | .ge, .f x, .f y => .b (decide (y ≤ x))
  | .add, .i x, .i y => .i (x + y)
  | .sub, .i x, .i y => .i (x - y)
  | .bitAnd, .i x, .i y => .i (Int.land x y)
  | .bitOr, .i x, .i y => .i (Int.lor x y)
  | .bitXor, .i x, .i y => .i (Int.xor x y)
  | .shl, .i x, .i y => .i (x * 2 ^ y.toNat)
  | .shr, .i x, .i y => .i (x / 2 ^ y.toNat)
  | .add, .nan, _ => .nan
  | .sub, .nan, _ => .nan
  | .mul, .nan, _ => .nan
  | .div, .nan, _ => .nan
  | .add, _, .nan => .nan
  | .sub, _, .nan => .nan
  | .mul, _, .nan => .nan
  | .div, _, .nan => .nan
  | _, _, _ => .junk

noncomputable def methRV (F : FloatFmt) : String → RV → List RV → RV
  | "abs", .f x, [] => .f |x|
  | "sqrt", .f x, [] => if x < 0 then .nan else .f (Real.sqrt x)
  | "recip", .f x, [] => if x = 0 then .inf false else .f x⁻¹
  | "ln", .f x, [] => if x < 0 then .nan else if x = 0 then .inf true else .f (Real.log x)
  | "copysign", .f x, [.f y] => .f (if y < 0 then -|x| else |x|)
  | "mul_add", .f x, [.f y, .f z] => .f (x * y + z)
  | "to_bits", .f x, [] => .i (F.encode x)
  | "wrapping_mul", .i x, [.i y] => .i (x * y % 2 ^ 64)
  | _, _, _ => .junk

/-- The value of a literal. -/
noncomputable def litRV (l : Lit) : RV :=
  match l, litValue l with
  | .int _ _, some q => .i q.num
  | .float _ _, some q => .f (q : ℝ)
  | _, _ => .junk

/-- Generated code in exact arithmetic; `calls` says what the other generated functions compute. -/
noncomputable def realInterp (F : FloatFmt) (calls : String → List RV → RV) : RInterp RV where
  lit := litRV
  un := unRV
  bin := binRV
  meth := methRV F
  call
    | ["fty", "from_bits"], [.i n] => if 0 ≤ n ∧ n < 2 ^ F.width then F.decode n.toNat else .junk
    | [g], args => calls g args
    | _, _ => .junk
  cast := castRV F
  tuple _ := .junk
  test
    | .b t => t
    | _ => false
  junk := .junk

end Verif
