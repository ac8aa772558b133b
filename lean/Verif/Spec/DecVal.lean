import Mathlib.Algebra.Order.Field.Rat
import Mathlib.Algebra.Order.Field.Power
import Verif.Model.Dec

/-! # The rational number a decimal stands for -/

namespace Verif

/-- The value of a decimal: `int * 10^(-scale)`. -/
def Dec.val (d : Dec) : ℚ := (d.int : ℚ) * (10 : ℚ) ^ (-d.scale)

end Verif
