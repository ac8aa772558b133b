import Mathlib.Analysis.SpecialFunctions.Pow.Real
import Verif.Model.BdMath
import Verif.Spec.DecVal

/-!
# What is assumed of `BigDecimal::sqrt`

The external square root is a parameter of the model.  Accuracy theorems about functions that use it assume
`SqrtOk`: it returns on non-negative numbers with a relative error of at most `10^-98` (it works with 100 significant
digits), and answers "no value" on negative numbers.
-/

namespace Verif

/-- Assumption on the external square root. -/
structure SqrtOk (ext : BdExt) : Prop where
  ok : ∀ d : Dec, 0 ≤ d.val → ∃ r, ext.sqrt d = some r ∧ |(r.val : ℝ) - √(d.val : ℝ)| ≤ 1 / 10 ^ 98 * √(d.val : ℝ)
  neg : ∀ d : Dec, d.val < 0 → ext.sqrt d = none

end Verif
