import Verif.Model.Constants
import Verif.Model.Test
import Verif.Model.Generated

/-!
# The test specifications

The `test_specs` of `FUNCTIONS`, `libmgen/src/functions.rs:52-824`, with the strings read as expressions, and the test functions
`libmgen/src/test.rs:12-143` makes of them.
-/

namespace Verif

/-- `TestType`, `functions.rs:5-8`. -/
inductive TestType where
  | maxAbs (min max : Expr) (bits32 bits64 : ℚ) (n : ℕ)
  | histogram (min max : Expr)

/-- `TestSpec`, `functions.rs:10-15` with the function it belongs to. -/
structure TestSpec where
  fn : String
  name : String
  ref : Expr
  call : RExpr
  test : TestType

namespace TestSpec

/-- `x`. -/
def x : Expr := .path ["x"]
/-- A float literal. -/
def fl (s : String) : Expr := .lit (.float s.toList "")
/-- `-e`. -/
def neg (e : Expr) : Expr := .unary .neg e
/-- `x.m()`. -/
def meth (m : String) : Expr := .methodCall x m []
/-- `x.m(0, 1)`. -/
def meth01 (m : String) : Expr := .methodCall x m [litInt "0", litInt "1"]
/-- `PI`. -/
def pi : Expr := .path ["PI"]
/-- `f(args)` of the test program. -/
def app (f : String) (args : List RExpr) : RExpr := .call (.path [f]) args
/-- `s as fty`. -/
def asFty (s : String) : RExpr := .cast (.lit (.float s.toList "")) ["fty"]
/-- A float literal of the test program. -/
def rfl (s : String) : RExpr := .lit (.float s.toList "")

/-- A specification with `TestType::MaxAbs`. -/
def maxAbs (fn name : String) (ref : Expr) (call : RExpr) (min max : Expr) (bits32 bits64 : ℚ) (n : ℕ) : TestSpec :=
  ⟨fn, name, ref, call, .maxAbs min max bits32 bits64 n⟩

end TestSpec

open TestSpec in
/-- All test specifications, in the order of the table. -/
def testSpecs : List TestSpec := [
  maxAbs "nextafter" "test_nextafter" x (app "nextafter" [.path ["x"]]) (litInt "0") (litInt "1") 1 1 237,
  maxAbs "asin" "test_asin" (meth "asin") (app "asin" [.path ["x"]]) (neg (fl "0.5")) (fl "0.5") 2 2 1024,
  maxAbs "asin" "test_asin2" (meth "asin") (app "asin" [.path ["x"]]) (neg (fl "1.0")) (fl "1.0") 6 6 1024,
  maxAbs "acos" "test_acos" (meth "acos") (app "acos" [.path ["x"]]) (neg (litInt "1")) (litInt "1") 6 6 1024,
  maxAbs "acos" "test_acos2" (meth "acos") (app "acos" [.path ["x"]]) (neg (fl "0.5")) (fl "0.5") 3 3 1024,
  maxAbs "exp2" "test_exp2_1" (meth "exp2") (app "exp2" [.path ["x"]]) (neg (litInt "1")) (litInt "0") 1 1 237,
  maxAbs "exp2" "test_exp2_2" (meth "exp2") (app "exp2" [.path ["x"]]) (litInt "0") (litInt "1") 2 2 237,
  maxAbs "exp" "test_exp_1" (meth "exp") (app "exp" [.path ["x"]]) (neg (litInt "1")) (litInt "0") 1 1 237,
  maxAbs "exp" "test_exp_2" (meth "exp") (app "exp" [.path ["x"]]) (litInt "0") (litInt "1") 4 4 237,
  maxAbs "exp" "test_exp_3" (meth "exp") (app "exp" [.path ["x"]]) (litInt "1") (litInt "2") 16 16 237,
  maxAbs "exp_m1" "test_exp_m1_1" (.binary (meth "exp") .sub (litInt "1")) (app "exp_m1" [.path ["x"]]) (neg (litInt "1")) (litInt "0") 1 1 237,
  maxAbs "exp_m1" "test_exp_m1_2" (.binary (meth "exp") .sub (litInt "1")) (app "exp_m1" [.path ["x"]]) (litInt "0") (litInt "1") 4 4 237,
  maxAbs "log2" "test_log2_1" (meth "log2") (app "log2" [.path ["x"]]) (fl "0.7") (fl "1.0") (3 / 2) (3 / 2) 237,
  maxAbs "log2" "test_log2_2" (meth "log2") (app "log2" [.path ["x"]]) (fl "1.0") (litInt "2") 2 2 237,
  maxAbs "ln_1p" "test_ln_1p_1" (.methodCall (.paren (.binary (litInt "1") .add x)) "ln" []) (app "ln_1p" [.path ["x"]]) (litInt "1") (litInt "2") 2 2 237,
  maxAbs "ln" "test_ln_1" (meth "ln") (app "ln" [.path ["x"]]) (fl "0.7") (fl "1.0") (3 / 2) (3 / 2) 237,
  maxAbs "ln" "test_ln_2" (meth "ln") (app "ln" [.path ["x"]]) (fl "1.0") (litInt "2") 2 2 237,
  maxAbs "log10" "test_log10_1" (meth "log10") (app "log10" [.path ["x"]]) (fl "0.1") (fl "1.0") (3 / 2) (3 / 2) 237,
  maxAbs "log10" "test_log10_2" (meth "log10") (app "log10" [.path ["x"]]) (fl "1.0") (litInt "10") 2 2 237,
  maxAbs "log" "test_log_1" (meth "log10") (app "log" [.path ["x"], asFty "10.0"]) (fl "0.1") (fl "1.0") (3 / 2) (3 / 2) 237,
  maxAbs "log" "test_log_2" (meth "log10") (app "log" [.path ["x"], asFty "10.0"]) (fl "1.0") (litInt "10") 2 2 237,
  ⟨"runif", "test_runif", litInt "1", app "runif" [.path ["i"], rfl "0.0", rfl "1.0"], .histogram (fl "0.0") (fl "1.0")⟩,
  maxAbs "dnorm" "test_dnorm_1" (meth01 "dnorm") (app "dnorm" [.path ["x"], asFty "0.0", asFty "1.0"]) (neg (litInt "1")) (litInt "1") 1 1 237,
  maxAbs "qnorm" "test_qnorm_1" (meth01 "qnorm") (app "qnorm" [.path ["x"], asFty "0.0", asFty "1.0"]) (fl "0.0001") (fl "0.999") 1000000 1000000 237,
  ⟨"rnorm", "test_rnorm", .call (.path ["dnorm"]) [x, fl "0.0", fl "1.0"],
    app "rnorm" [.path ["i"], rfl "0.0", rfl "1.0"], .histogram (neg (fl "2.0")) (fl "2.0")⟩,
  maxAbs "sin" "test_sin" (meth "sin") (app "sin" [.path ["x"]]) (neg pi) pi 9 9 1024,
  maxAbs "sin" "test_sini" (meth "sin") (app "sin" [.path ["x"]]) (neg (fl "1.0")) (fl "1.0") 2 2 1024,
  maxAbs "sin" "test_sin2" (meth "sin") (app "sin" [.path ["x"]]) (.binary (neg pi) .div (litInt "2")) (.binary pi .div (litInt "2")) 3 3 1024,
  maxAbs "sin" "test_sin3" (meth "sin") (app "sin" [.path ["x"]]) (.binary (neg pi) .div (litInt "4")) (.binary pi .div (litInt "4")) 2 2 1024,
  maxAbs "cos" "test_cos" (meth "cos") (app "cos" [.path ["x"]]) (neg pi) pi 6 8 237,
  maxAbs "cos" "test_cos2" (meth "cos") (app "cos" [.path ["x"]]) (.binary (neg pi) .div (litInt "2")) (.binary pi .div (litInt "2")) 2 2 237,
  maxAbs "cos" "test_cos3" (meth "cos") (app "cos" [.path ["x"]]) (.binary (neg pi) .div (litInt "4")) (.binary pi .div (litInt "4")) 1 1 237,
  maxAbs "tan" "test_tan" (meth "tan") (app "tan" [.path ["x"]]) (neg (fl "0.7")) (fl "0.7") 2 2 237,
  maxAbs "tan" "test_tan2" (meth "tan") (app "tan" [.path ["x"]]) (neg (fl "1.1")) (fl "1.1") 6 6 237]

/-- The rows of an accuracy test, `test.rs:30-58`, in order; the first that cannot be made ends the run. -/
def testRows (ext : BdExt) (b32 : Bool) (ref min max : Expr) (n : ℕ) : Res (List (Expr × Expr × Expr)) :=
  (List.range n).foldlM (fun rows i => do
    let row ← sampleRow ext (configDigits b32) (if b32 then 32 else 64) ref min max n i
    pure (rows ++ [row])) []

end Verif
