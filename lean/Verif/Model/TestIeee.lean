import Verif.Model.TestSpecs
import Verif.Spec.Ieee

/-!
# The accuracy tests in float arithmetic

`test_function` (`libmgen/src/auxfuncs.rs:445-477`) as in `Model/Test.lean`, with every operation rounded.  Of the four running variables only the
largest error decides whether the test passes; the other three are printed.
-/

namespace Verif

/-- `(ycalc - yref - yerr).abs()`, `auxfuncs.rs:452`. -/
noncomputable def refErrorIE (F : FloatFmt) (ycalc yref yerr : RV) : RV :=
  methIE F "abs" (binIE F .sub (binIE F .sub ycalc yref) yerr) []

open Classical in
/-- The body of the loop, `auxfuncs.rs:450-459`. -/
noncomputable def maxErrorStepIE (F : FloatFmt) (f : RV → RV) (m : RV) (row : RV × RV × RV) : RV :=
  let e := refErrorIE F (f row.1) row.2.1 row.2.2
  if binIE F .gt e m = .b true then e else m

/-- `max_ref_error` after the loop. -/
noncomputable def maxErrorIE (F : FloatFmt) (rows : List (RV × RV × RV)) (f : RV → RV) : RV :=
  rows.foldl (maxErrorStepIE F f) (.f 0)

/-- Both assertions at the end hold, `auxfuncs.rs:470-471`. -/
def TestPassesIE (F : FloatFmt) (rows : List (RV × RV × RV)) (limit : RV) (f : RV → RV) : Prop :=
  maxErrorIE F rows f ≠ .nan ∧ binIE F .le (maxErrorIE F rows f) limit = .b true

/-- An emitted number as the compiler reads it. -/
noncomputable def emittedIE (F : FloatFmt) (e : Expr) : RV := e.toR.denote (ieeeInterp F fun _ _ => .junk) fun _ => .junk

/-- An emitted row as the compiler reads it. -/
noncomputable def rowIE (F : FloatFmt) (row : Expr × Expr × Expr) : RV × RV × RV := (emittedIE F row.1, emittedIE F row.2.1, emittedIE F row.2.2)

/-- `#accuracy as fty`, `test.rs:63-67,81`: the limits in use are floats of both widths, so the literal and the cast change nothing. -/
noncomputable def limitIE (b32 : Bool) (k32 k64 : ℚ) : RV := .f ((accuracyLimit b32 k32 k64 : ℚ) : ℝ)

end Verif
