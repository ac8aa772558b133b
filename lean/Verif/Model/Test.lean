import Verif.Model.Eval
import Verif.Model.Transform
import Mathlib.Data.Rat.Floor

/-!
# The generated tests (`libmgen/src/test.rs`, `libmgen/src/auxfuncs.rs:425-481`)

The test programs compute with floats.  Here a float is an exact rational, an infinity or NaN (`Fl`); rounding and the sign of zero are not
modelled.
-/

namespace Verif

/-- A float of a test program. -/
inductive Fl where
  | num (q : ℚ)
  | inf (neg : Bool)
  | nan
  deriving DecidableEq

namespace Fl

/-- IEEE `a - b`. -/
def sub : Fl → Fl → Fl
  | num a, num b => num (a - b)
  | num _, inf s => inf (!s)
  | inf s, num _ => inf s
  | inf s, inf t => if s = t then nan else inf s
  | nan, _ => nan
  | _, nan => nan

/-- `abs`. -/
def abs : Fl → Fl
  | num a => num |a|
  | inf _ => inf false
  | nan => nan

/-- IEEE `a < b`: false when either side is NaN. -/
def lt : Fl → Fl → Bool
  | num a, num b => decide (a < b)
  | num _, inf s => !s
  | inf s, num _ => s
  | inf s, inf t => s && !t
  | nan, _ => false
  | _, nan => false

/-- IEEE `a <= b`. -/
def le : Fl → Fl → Bool
  | num a, num b => decide (a ≤ b)
  | num _, inf s => !s
  | inf s, num _ => s
  | inf s, inf t => s || !t
  | nan, _ => false
  | _, nan => false

/-- `is_nan`. -/
def isNan : Fl → Bool
  | nan => true
  | _ => false

end Fl

/-! ## `test_function`, `auxfuncs.rs:445-477` -/

/-- The four running variables of the loop. -/
structure Worst where
  err : Fl
  ycalc : Fl
  yref : Fl
  x : Fl

/-- `(ycalc - yref - yerr).abs()`, `auxfuncs.rs:452`. -/
def refError (ycalc yref yerr : Fl) : Fl := ((ycalc.sub yref).sub yerr).abs

/-- The body of the loop, `auxfuncs.rs:450-459`. -/
def worstStep (f : Fl → Fl) (w : Worst) (row : Fl × Fl × Fl) : Worst :=
  let ycalc := f row.1
  let e := refError ycalc row.2.1 row.2.2
  if w.err.lt e then ⟨e, ycalc, row.2.1, row.1⟩ else w

/-- The loop, started with zeros. -/
def worst (rows : List (Fl × Fl × Fl)) (f : Fl → Fl) : Worst :=
  rows.foldl (worstStep f) ⟨.num 0, .num 0, .num 0, .num 0⟩

/-- Both assertions at the end hold, `auxfuncs.rs:470-471`. -/
def testPasses (rows : List (Fl × Fl × Fl)) (limit : Fl) (f : Fl → Fl) : Bool :=
  let m := (worst rows f).err
  !m.isNan && m.le limit

/-! ## `gen_histogram`, `test.rs:87-131` -/

/-- `((y - min) / (max - min) * nbuckets as f64).floor() as isize` for finite `min` and `max`, `test.rs:111`.  The cast takes NaN to 0 and
infinities to the ends of the range; saturation of finite values is not modelled, they are out of the buckets either way. -/
def bucketIndex (min max : ℚ) (nb : ℕ) : Fl → ℤ
  | .num y => ⌊(y - min) / (max - min) * nb⌋
  | .inf s => if s = (decide (max < min)) then 2 ^ 63 - 1 else -2 ^ 63
  | .nan => 0

/-- One turn of the sampling loop, `test.rs:109-115`. -/
def countSample (min max : ℚ) (nb : ℕ) (h : List ℕ) (y : Fl) : List ℕ :=
  let idx := bucketIndex min max nb y
  if 0 ≤ idx ∧ idx < nb then h.modify idx.toNat (· + 1) else h

/-- The counts after `niter` samples, `test.rs:108-115`. -/
def histogram (min max : ℚ) (nb niter : ℕ) (sample : ℕ → Fl) : List ℕ :=
  ((List.range niter).map sample).foldl (countSample min max nb) (List.replicate nb 0)

/-- The middle of bucket `i`, `test.rs:119`. -/
def bucketMid (min max : ℚ) (nb i : ℕ) : ℚ := ((i + 1 / 2) / nb) * (max - min) + min

/-- `h[i] as f64 / (niter as f64 * dx)`, `test.rs:116,120`. -/
def densityEst (min max : ℚ) (nb niter : ℕ) (h : List ℕ) (i : ℕ) : ℚ := (h.getD i 0 : ℚ) / (niter * ((max - min) / nb))

/-- `max_err` after the second loop, `test.rs:117-124`: assigned, not maximised. -/
def histogramError (min max : ℚ) (nb niter : ℕ) (pdf : ℚ → Fl) (h : List ℕ) : Fl :=
  (List.range nb).foldl (fun _ i => ((Fl.num (densityEst min max nb niter h i)).sub (pdf (bucketMid min max nb i))).abs) (.num 0)

/-- The histogram test with its 32 buckets and 1000000 samples, `test.rs:93-94,126`. -/
def histogramPasses (min max : ℚ) (pdf : ℚ → Fl) (sample : ℕ → Fl) : Bool :=
  (histogramError min max 32 1000000 pdf (histogram min max 32 1000000 sample)).lt (.num (1 / 1000))

/-! ## `gen_max_abs`, `test.rs:12-84` -/

/-- An integer interpolated with `#i`: a literal with suffix. -/
def usizeLit (k : ℕ) : Expr := .lit (.int (displayDec ⟨k, 0⟩) "usize")

/-- `((#i * ((#tmax) - (#tmin)) / (#n) + (#tmin)))`, `test.rs:34`. -/
def samplePoint (tmin tmax : Expr) (n i : ℕ) : Expr :=
  .paren (.paren (.binary (.binary (.binary (usizeLit i) .mul (.paren (.binary (.paren tmax) .sub (.paren tmin)))) .div
    (.paren (usizeLit n))) .add (.paren tmin)))

/-- `#e.round_ieee(#bits)`. -/
def roundIeeeExpr (e : Expr) (bits : ℕ) : Expr := .methodCall e "round_ieee" [usizeLit bits]

/-- One row `(#x, #y, #ye)` of the table, `test.rs:30-58`.  `unwrap` of an error and the explicit `panic!` both end the run. -/
def sampleRow (ext : BdExt) (digits : ℕ) (bits : ℕ) (ref tmin tmax : Expr) (n i : ℕ) : Res (Expr × Expr × Expr) := do
  let xee := roundIeeeExpr (samplePoint tmin tmax n i) bits
  let x ← (eval ext digits xee).unwrap
  let vars := (VariableList.new.addVar ["x"] xee).1
  let sub ← (subst ref vars).unwrap
  let yexpr ← (eval ext digits sub).unwrap
  let y ← (eval ext digits (roundIeeeExpr yexpr bits)).unwrap
  let ye ← (eval ext digits (.binary yexpr .sub (roundIeeeExpr yexpr bits))).unwrap
  pure (x, y, ye)

/-- `accuracy`, `test.rs:63-67`, of a limit given in units. -/
def accuracyLimit (b32 : Bool) (bits32 bits64 : ℚ) : ℚ := if b32 then bits32 * (1 / 2 ^ 23) else bits64 * (1 / 2 ^ 53)

end Verif
