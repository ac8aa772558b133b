import Verif.Model.Poly

/-!
# The approximation requests made by the generators

Each generator that needs a polynomial calls `expr!(…).approx(num_terms, xmin, xmax, name!(v), parity, digits)`.  The bounds are
given as the decimals the float literals stand for; the bounds of `atan2` are floats computed at run time and are left out.
-/

namespace Verif

/-- One call of `approx`. -/
structure ApproxSpec where
  name : String
  target : Expr
  bounds : Option (Dec × Dec)
  var : String
  parity : Parity

namespace ApproxSpec

/-- Shorthand for the target expressions. -/
def v (s : String) : Expr := .path [s]
def num (s : String) : Expr := .lit (.float s.toList "")
def int (s : String) : Expr := .lit (.int s.toList "")
def mul (a b : Expr) : Expr := .binary a .mul b
def meth (r : Expr) (m : String) (args : List Expr) : Expr := .methodCall r m args

/-- `trig.rs:111`: `(x * PI * 2.0).sin()`. -/
def sin : ApproxSpec := ⟨"sin", meth (.paren (mul (mul (v "x") (v "PI")) (num "2.0"))) "sin" [], some (⟨-5, 1⟩, ⟨5, 1⟩), "x", .odd⟩
/-- `trig.rs:140`: `(x * PI * 2.0).cos()`. -/
def cos : ApproxSpec := ⟨"cos", meth (.paren (mul (mul (v "x") (v "PI")) (num "2.0"))) "cos" [], some (⟨-5, 1⟩, ⟨5, 1⟩), "x", .even⟩
/-- `trig.rs:180`: `(x * PI).tan() * (x * x - 0.25)`. -/
def tan : ApproxSpec := ⟨"tan", mul (meth (.paren (mul (v "x") (v "PI"))) "tan" [])
  (.paren (.binary (mul (v "x") (v "x")) .sub (num "0.25"))), some (⟨-499999, 6⟩, ⟨499999, 6⟩), "x", .odd⟩
/-- `inv_trig.rs:89`: `x.asin()`. -/
def asin : ApproxSpec := ⟨"asin", meth (v "x") "asin" [], some (⟨-70710678118654752440, 20⟩, ⟨70710678118654752440, 20⟩), "x", .odd⟩
/-- `inv_trig.rs:121`: `x.asin()`. -/
def acos : ApproxSpec := ⟨"acos", meth (v "x") "asin" [], some (⟨-70710678118654752440, 20⟩, ⟨70710678118654752440, 20⟩), "x", .odd⟩
/-- `inv_trig.rs:150`: `x.atan()`. -/
def atan : ApproxSpec := ⟨"atan", meth (v "x") "atan" [], some (⟨-1, 0⟩, ⟨1, 0⟩), "x", .odd⟩
/-- `inv_trig.rs:10`: `z.atan()`. -/
def atan2 : ApproxSpec := ⟨"atan2", meth (v "z") "atan" [], none, "z", .odd⟩
/-- `log_exp.rs:12`: `2.0.powf(x)`. -/
def exp2 : ApproxSpec := ⟨"exp2", meth (num "2.0") "powf" [v "x"], some (⟨-5, 1⟩, ⟨5, 1⟩), "x", .neither⟩
/-- `log_exp.rs:51`: `2.0.powf(x) - 1.0`. -/
def exp_m1 : ApproxSpec :=
  ⟨"exp_m1", .binary (meth (num "2.0") "powf" [v "x"]) .sub (num "1.0"), some (⟨-5, 1⟩, ⟨5, 1⟩), "x", .neither⟩
/-- `log_exp.rs:122`: `(x + 1.5).log2()`. -/
def log2 : ApproxSpec :=
  ⟨"log2", meth (.paren (.binary (v "x") .add (num "1.5"))) "log2" [], some (⟨-5, 1⟩, ⟨5, 1⟩), "x", .neither⟩
/-- `stats_norm.rs:44`: `(x + 0.5).qnorm(0, 1) * (x * x - 0.5 * 0.5)`. -/
def qnorm : ApproxSpec := ⟨"qnorm", mul (meth (.paren (.binary (v "x") .add (num "0.5"))) "qnorm" [int "0", int "1"])
  (.paren (.binary (mul (v "x") (v "x")) .sub (mul (num "0.5") (num "0.5")))), some (⟨-4999, 4⟩, ⟨4999, 4⟩), "x", .odd⟩

end ApproxSpec

/-- All approximation requests of the generators in the function table. -/
def approxSpecs : List ApproxSpec := [ApproxSpec.sin, .cos, .tan, .asin, .acos, .atan, .atan2, .exp2, .exp_m1, .log2, .qnorm]

end Verif
