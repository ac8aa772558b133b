import Verif.Spec.RealMeaning
import Mathlib.Data.EReal.Basic

/-!
# Generated code in IEEE 754 arithmetic

Every operation on finite floats computes the exact result and rounds it to the nearest float, ties to even, with gradual underflow and overflow
to infinity.  The sign of zero is not tracked, nor are the sign and the payload of a NaN: `.nan` stands for the quiet NaN that is positive and has
no payload, so `to_bits` gives that pattern and `copysign` with a NaN as sign gives a positive number.
-/

namespace Verif

/-- The nearest integer; of two, the even one. -/
noncomputable def roundEven (t : ℝ) : ℤ :=
  if t - ⌊t⌋ < 1 / 2 then ⌊t⌋ else if 1 / 2 < t - ⌊t⌋ then ⌊t⌋ + 1 else if ⌊t⌋ % 2 = 0 then ⌊t⌋ else ⌊t⌋ + 1

/-- The exponent of the last place of a number of the size of `x`. -/
noncomputable def FloatFmt.lastPlace (F : FloatFmt) (x : ℝ) : ℤ := max (Int.log 2 |x|) (1 - F.bias) - F.mant

/-- Rounding without an upper limit of the exponent. -/
noncomputable def FloatFmt.rnd (F : FloatFmt) (x : ℝ) : ℝ := roundEven (x / 2 ^ F.lastPlace x) * 2 ^ F.lastPlace x

open Classical in
/-- IEEE 754 rounding to nearest. -/
noncomputable def FloatFmt.rne (F : FloatFmt) (x : ℝ) : RV :=
  if |F.rnd x| < 2 ^ (F.bias + 1) then .f (F.rnd x) else .inf (decide (x < 0))

open Classical in
/-- The sign of a number, where that is known. -/
noncomputable def RV.neg? : RV → Bool
  | .f x => decide (x < 0)
  | .inf s => s
  | _ => false

/-- The place of a value in the order of floats. -/
noncomputable def RV.ereal? : RV → Option EReal
  | .f x => some (x : EReal)
  | .inf false => some ⊤
  | .inf true => some ⊥
  | _ => none

open Classical in
noncomputable def cmpIE (r : EReal → EReal → Prop) (a b : RV) : RV :=
  match a.ereal?, b.ereal? with
  | some x, some y => .b (decide (r x y))
  | _, _ => match a, b with
    | .nan, .nan => .b false
    | .nan, .f _ => .b false
    | .nan, .inf _ => .b false
    | .f _, .nan => .b false
    | .inf _, .nan => .b false
    | _, _ => .junk

noncomputable def addIE (F : FloatFmt) : RV → RV → RV
  | .f x, .f y => F.rne (x + y)
  | .f _, .inf s => .inf s
  | .inf s, .f _ => .inf s
  | .inf s, .inf t => if s = t then .inf s else .nan
  | .nan, .f _ => .nan
  | .nan, .inf _ => .nan
  | .f _, .nan => .nan
  | .inf _, .nan => .nan
  | .nan, .nan => .nan
  | _, _ => .junk

open Classical in
noncomputable def mulIE (F : FloatFmt) : RV → RV → RV
  | .f x, .f y => F.rne (x * y)
  | .f x, .inf s => if x = 0 then .nan else .inf (s ^^ decide (x < 0))
  | .inf s, .f x => if x = 0 then .nan else .inf (s ^^ decide (x < 0))
  | .inf s, .inf t => .inf (s ^^ t)
  | .nan, .f _ => .nan
  | .nan, .inf _ => .nan
  | .f _, .nan => .nan
  | .inf _, .nan => .nan
  | .nan, .nan => .nan
  | _, _ => .junk

open Classical in
noncomputable def divIE (F : FloatFmt) : RV → RV → RV
  | .f x, .f y => if y = 0 then (if x = 0 then .nan else .inf (decide (x < 0))) else F.rne (x / y)
  | .f _, .inf _ => .f 0
  | .inf s, .f x => .inf (s ^^ decide (x < 0))
  | .inf _, .inf _ => .nan
  | .nan, .f _ => .nan
  | .nan, .inf _ => .nan
  | .f _, .nan => .nan
  | .inf _, .nan => .nan
  | .nan, .nan => .nan
  | _, _ => .junk

/-- Operators: on floats rounded, on integers as in exact arithmetic. -/
noncomputable def binIE (F : FloatFmt) (op : BinOp) (a b : RV) : RV :=
  match op, a, b with
  | op, .i x, .i y => binRV op (.i x) (.i y)
  | .add, a, b => addIE F a b
  | .sub, a, b => addIE F a (unRV .neg b)
  | .mul, a, b => mulIE F a b
  | .div, a, b => divIE F a b
  | .lt, a, b => cmpIE (· < ·) a b
  | .le, a, b => cmpIE (· ≤ ·) a b
  | .gt, a, b => cmpIE (fun x y => y < x) a b
  | .ge, a, b => cmpIE (fun x y => y ≤ x) a b
  | _, _, _ => .junk

noncomputable def methIE (F : FloatFmt) : String → RV → List RV → RV
  | "abs", .f x, [] => .f |x|
  | "abs", .inf _, [] => .inf false
  | "abs", .nan, [] => .nan
  | "sqrt", .f x, [] => if x < 0 then .nan else F.rne (Real.sqrt x)
  | "sqrt", .inf false, [] => .inf false
  | "sqrt", .inf true, [] => .nan
  | "sqrt", .nan, [] => .nan
  | "recip", x, [] => divIE F (.f 1) x
  | "copysign", .f x, [.f y] => .f (if y < 0 then -|x| else |x|)
  | "copysign", .f x, [.inf s] => .f (if s then -|x| else |x|)
  | "copysign", .f x, [.nan] => .f |x|
  | "copysign", .inf _, [y] => .inf y.neg?
  | "copysign", .nan, [_] => .nan
  | "mul_add", .f x, [.f y, .f z] => F.rne (x * y + z)
  | "mul_add", .f _, [.f _, .inf s] => .inf s
  | "mul_add", x, [y, z] => addIE F (mulIE F x y) z
  | "to_bits", .f x, [] => .i (F.encode x)
  | "to_bits", .inf s, [] => .i ((2 ^ F.ebits - 1) * 2 ^ F.mant + if s then 2 ^ (F.mant + F.ebits) else 0)
  | "to_bits", .nan, [] => .i ((2 ^ F.ebits - 1) * 2 ^ F.mant + 2 ^ (F.mant - 1))
  | "wrapping_mul", .i x, [.i y] => .i (x * y % 2 ^ 64)
  | _, _, _ => .junk

noncomputable def castIE (F : FloatFmt) : Name → RV → RV
  | ["fty"], .i n => F.rne n
  | ["fty"], v => v
  | ["ity"], .inf s => .i (if s then -2 ^ (F.width - 1) else 2 ^ (F.width - 1) - 1)
  | ["uty"], .inf s => .i (if s then 0 else 2 ^ F.width - 1)
  | ["ity"], .nan => .i 0
  | ["uty"], .nan => .i 0
  | t, v => castRV F t v

/-- A literal is rounded to the nearest float. -/
noncomputable def litIE (F : FloatFmt) (l : Lit) : RV :=
  match litRV l with
  | .f x => F.rne x
  | v => v

/-- Generated code in IEEE 754 arithmetic; `calls` says what the other generated functions compute. -/
noncomputable def ieeeInterp (F : FloatFmt) (calls : String → List RV → RV) : RInterp RV where
  lit := litIE F
  un := unRV
  bin := binIE F
  meth := methIE F
  call
    | ["fty", "from_bits"], [.i n] => if 0 ≤ n ∧ n < 2 ^ F.width then F.decode n.toNat else .junk
    | [g], args => calls g args
    | _, _ => .junk
  cast := castIE F
  tuple _ := .junk
  test
    | .b t => t
    | _ => false
  junk := .junk

end Verif
