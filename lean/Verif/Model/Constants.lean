import Verif.Model.Eval

/-!
# Constants of the generated library

`libmgen/src/auxfuncs.rs:186-276`: each constant is an expression given to `eval` at `config.num_digits()` digits; the literal that comes back is
written into the output.
-/

namespace Verif

/-- `Config::num_digits`, `config.rs:23-29`. -/
def configDigits (b32 : Bool) : ℕ := if b32 then 20 else 40

/-- An integer literal. -/
def litInt (s : String) : Expr := .lit (.int s.toList "")

/-- `expr!(1.exp().log(2))`. -/
def log2e : Expr := .methodCall (.methodCall (litInt "1") "exp" []) "log" [litInt "2"]

/-- `expr!(1 / (2 * PI))`. -/
def recip2pi : Expr := .binary (litInt "1") .div (.paren (.binary (litInt "2") .mul (.path ["PI"])))

/-- The expressions in `gen_PI` ... `gen_SQRT_RECIP_2PI`, `auxfuncs.rs:186-276`. -/
def constSource : List (String × Expr) := [
  ("PI", .path ["PI"]),
  ("PI_BY_2", .binary (.path ["PI"]) .div (litInt "2")),
  ("PI_BY_8", .binary (.path ["PI"]) .div (litInt "8")),
  ("TAN_PI_BY_8", .methodCall (.paren (.binary (.path ["PI"]) .div (litInt "8"))) "tan" []),
  ("LOG2_E", log2e),
  ("RECIP_LOG2_E", .binary (litInt "1") .div log2e),
  ("RECIP_LOG2_10", .binary (litInt "1") .div (.methodCall (litInt "10") "log" [litInt "2"])),
  ("RECIP_PI", .binary (litInt "1") .div (.path ["PI"])),
  ("RECIP_2PI", recip2pi),
  ("SQRT_RECIP_2PI", .methodCall (.paren recip2pi) "sqrt" [])]

end Verif
