import Mathlib.Data.Nat.Digits.Defs
import Verif.Model.Dec

/-!
# Decimal text: `Display` and `FromStr` of `BigDecimal`

`doctor-syn/src/expression.rs:81-91` prints a number with `to_string()` and stores the text in a float
literal; `expression.rs:106-124` parses the literal's digits back.  Texts are `List Char`.
-/

namespace Verif

/-- The character of a decimal digit. -/
def digitChar (d : Nat) : Char := Char.ofNat (48 + d)

/-- The value of a decimal digit character. -/
def charDigit (c : Char) : Option Nat :=
  if 48 ≤ c.toNat ∧ c.toNat ≤ 57 then some (c.toNat - 48) else none

/-- `BigInt::to_str_radix(10)` of a non-negative integer. -/
def natText (n : Nat) : List Char :=
  if n = 0 then ['0'] else (Nat.digits 10 n).reverse.map digitChar

/-- `"0".repeat(k)`. -/
def zeros (k : Nat) : List Char := List.replicate k '0'

/-- `impl Display for BigDecimal` (no precision requested): digits before and after the point. -/
def displayParts (d : Dec) : List Char × List Char :=
  let absInt := natText d.int.natAbs
  let len : Int := absInt.length
  if len ≤ d.scale then
    (['0'], zeros (d.scale - len).toNat ++ absInt)
  else
    let location := len - d.scale
    if len < location then (absInt ++ zeros (location - len).toNat, [])
    else (absInt.take location.toNat, absInt.drop location.toNat)

/-- `impl Display for BigDecimal`. -/
def displayDec (d : Dec) : List Char :=
  let p := displayParts d
  let body := if p.2 = [] then p.1 else p.1 ++ '.' :: p.2
  if d.int < 0 then '-' :: body else body

/-- Split at the first character satisfying `p`; the character itself is dropped. -/
def splitFirst (p : Char → Bool) : List Char → List Char × Option (List Char)
  | [] => ([], none)
  | c :: cs =>
    if p c then ([], some cs)
    else ((c :: (splitFirst p cs).1), (splitFirst p cs).2)

/-- Accumulate decimal digits. -/
def parseDigits : Nat → List Char → Option Nat
  | acc, [] => some acc
  | acc, c :: cs => match charDigit c with
    | some d => parseDigits (acc * 10 + d) cs
    | none => none

/-- A non-empty digit string. -/
def parseNat (cs : List Char) : Option Nat := if cs = [] then none else parseDigits 0 cs

/-- `BigInt::from_str_radix(s, 10)` (also `i64::from_str` before the range check): optional sign, digits.
Underscores, which `base10_digits` never contains, are not accepted here. -/
def parseInt : List Char → Option Int
  | '-' :: cs => (parseNat cs).map fun n => -(n : Int)
  | '+' :: cs => (parseNat cs).map fun n => (n : Int)
  | cs => (parseNat cs).map fun n => (n : Int)

/-- `i64::from_str`. -/
def parseI64 (cs : List Char) : Option Int :=
  match parseInt cs with
  | some i => if -9223372036854775808 ≤ i ∧ i ≤ 9223372036854775807 then some i else none
  | none => none

/-- Drop one leading `+`. -/
def dropPlus : List Char → List Char
  | '+' :: cs => cs
  | cs => cs

/-- Exponent part of `impl Num for BigDecimal`: default 0, one leading `+` is skipped, then `i64::from_str`. -/
def parseExponent : Option (List Char) → Option Int
  | none => some 0
  | some cs => parseI64 (dropPlus cs)

/-- `impl Num for BigDecimal :: from_str_radix(s, 10)`. -/
def parseDec (s : List Char) : Option Dec :=
  let be := splitFirst (fun c => c == 'e' || c == 'E') s
  match parseExponent be.2 with
  | none => none
  | some ex =>
    if be.1 = [] then none
    else
      let lt := splitFirst (fun c => c == '.') be.1
      let trail := lt.2.getD []
      match parseInt (lt.1 ++ trail) with
      | none => none
      | some i => some ⟨i, (trail.length : Int) - ex⟩

end Verif
