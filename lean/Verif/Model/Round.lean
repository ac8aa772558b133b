import Verif.Model.Dec

/-! # `round` (`doctor-syn/src/bdmath.rs:16-31`) -/

namespace Verif

/-- `doctor-syn/src/bdmath.rs:16-31`.  `into_bigint_and_exponent` followed by `BigDecimal::new` rebuilds `x`. -/
def round (x : Dec) (roundDigits : Int) : Dec :=
  let five : Int := if x.isPositive then 5 else -5
  if roundDigits < 0 ∨ x.scale ≤ roundDigits then x
  else (x + (⟨five, roundDigits + 1⟩ : Dec)).withScale roundDigits

end Verif
