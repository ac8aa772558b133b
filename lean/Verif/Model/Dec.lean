import Mathlib.Data.Nat.Log
import Verif.Model.Res

/-!
# `BigDecimal` (crate `bigdecimal 0.2`, external)

The crate is not part of `/repo`; these definitions are the trusted reading of the operations that
`doctor-syn/src/bdmath.rs`, `polynomial.rs`, `expression.rs` and `transformation/eval.rs` call.
A number is `int * 10^(-scale)`.
-/

namespace Verif

/-- `struct BigDecimal { int_val : BigInt, scale : i64 }`.  `scale` is unbounded here. -/
structure Dec where
  int : Int
  scale : Int
  deriving DecidableEq, Repr

namespace Dec

/-- `ten_to_the(n as u64)`; only called with a non-negative difference of scales. -/
def tenPow (n : Int) : Int := 10 ^ n.toNat

/-- `BigDecimal::from_i32` / `from_usize`. -/
def ofInt (i : Int) : Dec := ⟨i, 0⟩

/-- `zero()`, `one()`, `two()`: `doctor-syn/src/bdmath.rs:97-111`; also `BigDecimal::zero()/one()`. -/
def zero : Dec := ofInt 0
def one : Dec := ofInt 1
def two : Dec := ofInt 2

/-- `half()`: `doctor-syn/src/bdmath.rs:105-107`; `from_f32(0.5)` reads the text `5.000000e-1`. -/
def half : Dec := ⟨5000000, 7⟩

/-- `bigdf(0.5)`: `doctor-syn/src/bdmath.rs:89-91`; `from_f64(0.5)` reads the text `5.000000000000000e-1`. -/
def halfF64 : Dec := ⟨5000000000000000, 16⟩

/-- `bigdf(0.0)`: `from_f64(0.0)` reads the text `0.000000000000000e0`. -/
def zeroF64 : Dec := ⟨0, 15⟩

/-- `&a + &b`: the operand with the smaller scale is rescaled. -/
def add (a b : Dec) : Dec :=
  if a.scale = b.scale then ⟨a.int + b.int, a.scale⟩
  else if a.scale < b.scale then ⟨a.int * tenPow (b.scale - a.scale) + b.int, b.scale⟩
  else ⟨b.int * tenPow (a.scale - b.scale) + a.int, a.scale⟩

/-- `-a`. -/
def neg (a : Dec) : Dec := ⟨-a.int, a.scale⟩

/-- `&a - &b`. -/
def sub (a b : Dec) : Dec :=
  if a.scale = b.scale then ⟨a.int - b.int, a.scale⟩
  else if a.scale < b.scale then ⟨a.int * tenPow (b.scale - a.scale) - b.int, b.scale⟩
  else ⟨a.int - b.int * tenPow (a.scale - b.scale), a.scale⟩

/-- `&a * &b`. -/
def mul (a b : Dec) : Dec := ⟨a.int * b.int, a.scale + b.scale⟩

/-- `a == b` compares values after aligning scales. -/
def beq (a b : Dec) : Bool :=
  if b.scale < a.scale then a.int == b.int * tenPow (a.scale - b.scale)
  else if a.scale < b.scale then a.int * tenPow (b.scale - a.scale) == b.int
  else a.int == b.int

/-- `a.cmp(&b) == Less`: compare signs first, then the sign of the difference. -/
def lt (a b : Dec) : Bool :=
  if a.int.sign = b.int.sign then
    if a.int.sign = 0 then false else decide ((sub a b).int < 0)
  else decide (a.int.sign < b.int.sign)

/-- `a <= b`. -/
def le (a b : Dec) : Bool := !(lt b a)

/-- `is_zero`, `is_positive`, `is_negative`. -/
def isZero (a : Dec) : Bool := a.int == 0
def isPositive (a : Dec) : Bool := decide (0 < a.int)
def isNegative (a : Dec) : Bool := decide (a.int < 0)

/-- `abs`. -/
def abs (a : Dec) : Dec := ⟨a.int.natAbs, a.scale⟩

/-- `signum`. -/
def signum (a : Dec) : Dec := if 0 < a.int then one else if a.int = 0 then zero else neg one

/-- `with_scale`: truncates toward zero when digits are dropped. -/
def withScale (a : Dec) (s : Int) : Dec :=
  if a.int = 0 then ⟨0, s⟩
  else if a.scale < s then ⟨a.int * tenPow (s - a.scale), s⟩
  else if s < a.scale then ⟨a.int.tdiv (tenPow (a.scale - s)), s⟩
  else a

/-- Loop of `normalized`: drop trailing decimal zeros of a positive integer.  `fuel` bounds the number of digits. -/
def stripZeros : Nat → Nat → Int → Nat × Int
  | 0, n, s => (n, s)
  | fuel + 1, n, s => if n % 10 = 0 ∧ n ≠ 0 then stripZeros fuel (n / 10) (s - 1) else (n, s)

/-- `normalized`. -/
def normalized (a : Dec) : Dec :=
  if a.int = 0 then zero
  else
    let r := stripZeros (a.int.natAbs.log2 + 1) a.int.natAbs a.scale
    ⟨a.int.sign * r.1, r.2⟩

/-- First loop of `impl_division`: multiply by ten until the numerator reaches the denominator. -/
def shiftUp (den : Nat) : Nat → Nat → Int → Nat × Int
  | 0, num, s => (num, s)
  | fuel + 1, num, s => if num < den then shiftUp den fuel (num * 10) (s + 1) else (num, s)

/-- Second loop of `impl_division`.  `rem` is the remainder already multiplied by ten; `k` is
`max_precision - precision`. -/
def longDiv (den : Nat) : Nat → Nat → Nat → Int → Nat × Nat × Int
  | 0, q, rem, s => (q, rem, s)
  | k + 1, q, rem, s =>
    if rem = 0 then (q, rem, s)
    else longDiv den k (q * 10 + rem / den) (rem % den * 10) (s + 1)

/-- `impl_division` for positive arguments. -/
def implDivPos (num den : Nat) (scale : Int) (maxPrec : Nat) : Dec :=
  let ns := shiftUp den (den.log2 + 1) num scale
  let q := ns.1 / den
  let r := ns.1 % den
  if r = 0 then ⟨q, ns.2⟩
  else
    let st := longDiv den (maxPrec - (Nat.log 10 q + 1)) q (r * 10) ns.2
    let up : Nat := if st.2.1 = 0 then 0 else if 5 ≤ st.2.1 / den then 1 else 0
    ⟨((st.1 + up : Nat) : Int), st.2.2⟩

/-- `impl_division`: the sign is handled first. -/
def implDiv (num den : Int) (scale : Int) (maxPrec : Nat) : Dec :=
  if num = 0 then ⟨0, 0⟩
  else if (num < 0) = (den < 0) then implDivPos num.natAbs den.natAbs scale maxPrec
  else neg (implDivPos num.natAbs den.natAbs scale maxPrec)

/-- `&a / &b`: panics on a zero divisor; 100 significant digits. -/
def div (a b : Dec) : Res Dec :=
  if b.int = 0 then .panic
  else if a.int = 0 ∨ beq b one = true then .ok a
  else if a.int = b.int then .ok ⟨1, a.scale - b.scale⟩
  else .ok (implDiv a.int b.int (a.scale - b.scale) 100)

instance : Add Dec := ⟨add⟩
instance : Sub Dec := ⟨sub⟩
instance : Mul Dec := ⟨mul⟩
instance : Neg Dec := ⟨neg⟩

end Dec
end Verif
