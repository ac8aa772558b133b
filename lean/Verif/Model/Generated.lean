import Verif.Model.RustCode

/-!
# The code generated by `libmgen`

One definition per generator, giving the items its `quote!` block expands to.  Polynomial approximations (`#approx`) are a
parameter; they are interpolated without parentheses, and being method chains (times a variable) they bind tighter than
everything written next to them.  Values of evaluated constants are a parameter too.  Comments are dropped.
-/

namespace Verif.Gen
open RExpr RStmt

/-- `const name: ty = e;`. -/
def constItem (name ty : String) (e : RExpr) : RItem := .const name [ty] e

/-- A literal with a suffix: `base10_digits` and suffix. -/
def flit (s suffix : String) : RExpr := .lit (.float s.toList suffix)
def ilit (s suffix : String) : RExpr := .lit (.int s.toList suffix)

/-! ## `auxfuncs.rs` -/

/-- `gen_MIN_POSITIVE`, `auxfuncs.rs:7-18`. -/
def MIN_POSITIVE (b32 : Bool) : RItem := constItem "MIN_POSITIVE" "fty" (.path [if b32 then "f32" else "f64", "MIN_POSITIVE"])
/-- `gen_NAN`, `auxfuncs.rs:21-32`. -/
def NAN (b32 : Bool) : RItem := constItem "NAN" "fty" (.path [if b32 then "f32" else "f64", "NAN"])
/-- `gen_INF`, `auxfuncs.rs:35-46`. -/
def INFINITY (b32 : Bool) : RItem := constItem "INFINITY" "fty" (.path [if b32 then "f32" else "f64", "INFINITY"])
/-- `gen_ONE_BITS`, `auxfuncs.rs:49-60`: `0x3f800000_u32`, `0x3ff0000000000000_u64`. -/
def ONE_BITS (b32 : Bool) : RItem :=
  constItem "ONE_BITS" "fty" (if b32 then ilit "1065353216" "u32" else ilit "4607182418800017408" "u64")
/-- `gen_ONE_MASK`, `auxfuncs.rs:63-74`: `0x007fffff_u32`, `0x000fffffffffffff_u64`. -/
def ONE_MASK (b32 : Bool) : RItem :=
  constItem "ONE_MASK" "fty" (if b32 then ilit "8388607" "u32" else ilit "4503599627370495" "u64")
/-- `gen_EXP2_ONE`, `auxfuncs.rs:77-88`. -/
def EXP2_ONE (b32 : Bool) : RItem :=
  constItem "EXP2_ONE" "fty" (if b32 then flit "1065353216.0" "f32" else flit "4607182418800017408.0" "f64")
/-- `gen_EXP2_SCALE`, `auxfuncs.rs:91-102`. -/
def EXP2_SCALE (b32 : Bool) : RItem :=
  constItem "EXP2_SCALE" "fty" (if b32 then flit "8388608.0" "f32" else flit "4503599627370496.0" "f64")
/-- `gen_EXP2_MIN`, `auxfuncs.rs:105-116`. -/
def EXP2_MIN (b32 : Bool) : RItem :=
  constItem "EXP2_MIN" "fty" (-(if b32 then flit "127.0" "f32" else flit "1023.0" "f64"))
/-- `gen_EXP2_MAX`, `auxfuncs.rs:119-130`. -/
def EXP2_MAX (b32 : Bool) : RItem :=
  constItem "EXP2_MAX" "fty" (if b32 then flit "127.0" "f32" else flit "1023.0" "f64")
/-- `gen_LOG2_SHIFT`, `auxfuncs.rs:133-144`. -/
def LOG2_SHIFT (b32 : Bool) : RItem := constItem "LOG2_SHIFT" "ity" (if b32 then ilit "23" "i32" else ilit "52" "i64")
/-- `gen_LOG2_OFFSET`, `auxfuncs.rs:147-157`. -/
def LOG2_OFFSET (b32 : Bool) : RItem := constItem "LOG2_OFFSET" "ity" (if b32 then ilit "127" "i32" else ilit "1023" "i64")
/-- `gen_ONE_THIRD`, `auxfuncs.rs:160-171`. -/
def ONE_THIRD (b32 : Bool) : RItem :=
  constItem "ONE_THIRD" "fty" (if b32 then flit "0.33333333" "f32" else flit "0.333333333333333333" "f64")
/-- `gen_TWO_THIRDS`, `auxfuncs.rs:174-185`. -/
def TWO_THIRDS (b32 : Bool) : RItem :=
  constItem "TWO_THIRDS" "fty" (if b32 then flit "0.66666667" "f32" else flit "0.666666666666666667" "f64")

/-- The constants made by evaluating an expression, `auxfuncs.rs:188-276`: `const NAME: fty = #value;`. -/
def evalConst (name : String) (value : RExpr) : RItem := constItem name "fty" value

/-- `gen_fty`, `gen_ity`, `gen_uty`, `auxfuncs.rs:278-299`. -/
def tyItem (name letter : String) (b32 : Bool) : RItem := .type name [letter ++ (if b32 then "32" else "64")]

/-- `gen_negate_on_odd`, `auxfuncs.rs:301-311`. -/
def negate_on_odd (b32 : Bool) : RFn := .ofFty "negate_on_odd" ["x", "y"] [
  letT "sign_bit" "uty" (as (.paren (.binary (.paren (.binary (.paren (as (v "x") "ity")) .bitAnd (int "1"))) .shl
    (ilit (if b32 then "31" else "63") "i32"))) "uty"),
  .expr (fromBits (.binary (v "sign_bit") .bitXor (.method (v "y") "to_bits" [])))]

/-- `gen_round`, `auxfuncs.rs:332-339`. -/
def round : RFn := .ofFty "round" ["x"] [
  letU "half" (as (.paren (num "0.5")) "fty"),
  .expr (as (as (.paren (v "x" + .method (v "half") "copysign" [v "x"])) "ity") "fty")]

/-- `gen_power_scale`, `auxfuncs.rs:355-371`. -/
def powerScale (name : String) (scale offset correction : RExpr) : RFn := .ofFty name ["x"] [
  letT "y" "fty" (fromBits (as (.paren (.paren (.method (.paren (as (.method (.method (v "x") "abs" []) "to_bits" []) "fty")) "mul_add"
    [scale, v "EXP2_ONE" * offset]))) "uty")),
  .expr correction]

/-- `gen_recip_approx`, `auxfuncs.rs:373-378`. -/
def recip_approx : RFn :=
  powerScale "recip_approx" (-num "1.0") (num "2.0") (.method (.paren (v "y" - num "0.08")) "copysign" [v "x"])

/-- `gen_sqrt_approx`, `auxfuncs.rs:380-385`. -/
def sqrt_approx : RFn := powerScale "sqrt_approx" (num "0.5") (num "0.5") (v "y" - num "0.08")

/-- `gen_cbrt_approx`, `auxfuncs.rs:387-392`.  The offset `2.0 / 3.0` is interpolated without parentheses:
`EXP2_ONE * 2.0 / 3.0`. -/
def cbrt_approx : RFn := .ofFty "cbrt_approx" ["x"] [
  letT "y" "fty" (fromBits (as (.paren (.paren (.method (.paren (as (.method (.method (v "x") "abs" []) "to_bits" []) "fty")) "mul_add"
    [num "1.0" / num "3.0", v "EXP2_ONE" * num "2.0" / num "3.0"]))) "uty")),
  .expr (.method (.paren (v "y" - num "0.08")) "copysign" [v "x"])]

/-- `gen_nextafter`, `auxfuncs.rs:414-420`. -/
def nextafter : RFn := .ofFty "nextafter" ["arg"] [
  .expr (fromBits (.method (v "arg") "to_bits" [] + int "1"))]

/-! ## `trig.rs` -/

/-- `gen_sin`, `trig.rs:107-134`; `name` and `approx` differ for `gen_cos`, `trig.rs:136-163`. -/
def sinLike (name : String) (approx : RExpr) : RFn := .ofFty name ["arg"] [
  letT "scaled" "fty" (v "arg" * v "RECIP_2PI"),
  letT "x" "fty" (v "scaled" - app "round" [v "scaled"]),
  .expr approx]

def sin (approx : RExpr) : RFn := sinLike "sin" approx
def cos (approx : RExpr) : RFn := sinLike "cos" approx

/-- `gen_sin_cos`, `trig.rs:165-172`. -/
def sin_cos : RFn := ⟨"sin_cos", [("arg", ["fty"])], some (.tuple [["fty"], ["fty"]]),
  [.expr (.tuple [app "sin" [v "arg"], app "cos" [v "arg"]])]⟩

/-- `gen_tan`, `trig.rs:174-206`. -/
def tan (approx : RExpr) : RFn := .ofFty "tan" ["arg"] [
  letT "scaled" "fty" (v "arg" * v "RECIP_PI"),
  letT "x" "fty" (v "scaled" - app "round" [v "scaled"]),
  letT "recip" "fty" (num "1.0" / .paren (v "x" * v "x" - num "0.25")),
  letT "y" "fty" approx,
  .expr (v "y" * v "recip")]

/-! ## `inv_trig.rs` -/

/-- `gen_atan2`, `inv_trig.rs:9-83`. -/
def atan2 (approx : RExpr) : RFn := .ofFty "atan2" ["y", "x"] [
  letU "x1" (.method (v "x") "abs" []),
  letU "y1" (.method (v "y") "abs" []),
  letU "x2" (cond (gt (v "x1") (v "y1")) (v "x1") (v "y1")),
  letU "y2" (cond (gt (v "x1") (v "y1")) (v "y1") (v "x1")),
  letT "x3" "fty" (v "TAN_PI_BY_8" * v "y2" + v "x2"),
  letT "y3" "fty" (.paren (-v "TAN_PI_BY_8") * v "x2" + v "y2"),
  letU "z" (v "y3" / v "x3"),
  letT "a" "fty" (approx + v "PI_BY_8"),
  letT "q1" "fty" (cond (gt (v "x1") (v "y1")) (v "a") (v "PI_BY_2" - v "a")),
  letT "q12" "fty" (cond (ge (v "x") (num "0.0")) (v "q1") (v "PI" - v "q1")),
  .expr (cond (ge (v "y") (num "0.0")) (v "q12") (-v "q12"))]

/-- `arg * arg < LIM * LIM`. -/
def insideLim : RExpr := lt (v "arg" * v "arg") (v "LIM" * v "LIM")

/-- `(1.0-arg*arg).sqrt()`. -/
def edgeArg : RExpr := .method (.paren (num "1.0" - v "arg" * v "arg")) "sqrt" []

/-- `gen_asin`, `inv_trig.rs:85-116`. -/
def asin (approx : RExpr) : RFn := .ofFty "asin" ["arg"] [
  letT "LIM" "fty" (num "0.70710678118654752440"),
  letT "c" "fty" (cond (lt (v "arg") (num "0.0")) (-v "PI_BY_2") (v "PI_BY_2")),
  letT "s" "fty" (cond (lt (v "arg") (num "0.0")) (-num "1.0") (num "1.0")),
  letT "x" "fty" (cond insideLim (v "arg") edgeArg),
  letT "y" "fty" approx,
  .expr (cond insideLim (v "y") (v "c" - v "y" * v "s"))]

/-- `gen_acos`, `inv_trig.rs:118-145`. -/
def acos (approx : RExpr) : RFn := .ofFty "acos" ["arg"] [
  letT "LIM" "fty" (num "0.70710678118654752440"),
  letT "c" "fty" (cond (lt (v "arg") (num "0.0")) (v "PI") (num "0.0")),
  letT "s" "fty" (cond (lt (v "arg") (num "0.0")) (num "1.0") (-num "1.0")),
  letT "x" "fty" (cond insideLim (v "arg") edgeArg),
  letT "y" "fty" approx,
  .expr (cond insideLim (v "PI_BY_2" - v "y") (v "c" - v "y" * v "s"))]

/-- `gen_atan`, `inv_trig.rs:147-173`. -/
def atan (approx : RExpr) : RFn := .ofFty "atan" ["arg"] [
  letT "LIM" "fty" (num "1.0"),
  letT "c" "fty" (cond (lt (v "arg") (num "0.0")) (-v "PI_BY_2") (v "PI_BY_2")),
  letT "x" "fty" (cond (lt (.method (v "arg") "abs" []) (v "LIM")) (v "arg") (.method (v "arg") "recip" [])),
  letT "y" "fty" approx,
  .expr (cond (lt (.method (v "arg") "abs" []) (v "LIM")) (v "y") (v "c" - v "y"))]

/-! ## `log_exp.rs` -/

/-- `fty::from_bits((r.mul_add(EXP2_SCALE, EXP2_ONE)) as uty)`. -/
def scaleBits : RExpr := fromBits (as (.paren (.method (v "r") "mul_add" [v "EXP2_SCALE", v "EXP2_ONE"])) "uty")

/-- `gen_exp2`, `log_exp.rs:8-36`. -/
def exp2 (approx : RExpr) : RFn := .ofFty "exp2" ["arg"] [
  letT "r" "fty" (app "round" [v "arg"]),
  letT "mul" "fty" scaleBits,
  letT "x" "fty" (v "arg" - v "r"),
  letT "y" "fty" (approx * v "mul"),
  letU "y1" (cond (gt (v "arg") (v "EXP2_MAX")) (v "INFINITY") (v "y")),
  .expr (cond (lt (v "r") (v "EXP2_MIN")) (num "0.0") (v "y1"))]

/-- `gen_exp`, `log_exp.rs:38-44`. -/
def exp : RFn := .ofFty "exp" ["arg"] [.expr (app "exp2" [v "arg" * v "LOG2_E"])]

/-- `gen_exp_m1`, `log_exp.rs:47-75`. -/
def exp_m1 (approx : RExpr) : RFn := .ofFty "exp_m1" ["arg"] [
  letT "scaled" "fty" (v "arg" * v "LOG2_E"),
  letT "r" "fty" (app "round" [v "scaled"]),
  letT "mul" "fty" scaleBits,
  letT "x" "fty" (v "scaled" - v "r"),
  .expr (approx * v "mul" + .paren (v "mul" - num "1.0"))]

/-- `gen_ln_1p`, `log_exp.rs:77-111`. -/
def ln_1p : RFn := .ofFty "ln_1p" ["arg"] [.expr (.method (.paren (num "1.0" + v "arg")) "ln" [])]

/-- `gen_log2`, `log_exp.rs:113-151`. -/
def log2 (approx : RExpr) : RFn := .ofFty "log2" ["arg"] [
  letT "arg_bits" "uty" (.method (v "arg") "to_bits" []),
  letT "exponent" "ity" (.paren (.binary (as (v "arg_bits") "ity") .shr (v "LOG2_SHIFT")) - v "LOG2_OFFSET"),
  letT "x" "fty" (fromBits (.binary (.paren (.binary (v "arg_bits") .bitAnd (v "ONE_MASK"))) .bitOr (v "ONE_BITS")) - num "1.5"),
  letT "y" "fty" approx,
  .expr (.ifElse (lt (v "arg") (num "0.0")) [.expr (-v "NAN")] (.block [.expr
    (cond (lt (v "arg") (v "MIN_POSITIVE")) (-v "INFINITY") (v "y" + .paren (as (v "exponent") "fty")))]))]

/-- `gen_ln`, `log_exp.rs:153-159`. -/
def ln : RFn := .ofFty "ln" ["arg"] [.expr (app "log2" [v "arg"] * v "RECIP_LOG2_E")]

/-- `gen_log10`, `log_exp.rs:161-167`. -/
def log10 : RFn := .ofFty "log10" ["arg"] [.expr (app "log2" [v "arg"] * v "RECIP_LOG2_10")]

/-- `gen_log`, `log_exp.rs:169-175`. -/
def log : RFn := .ofFty "log" ["arg", "base"] [.expr (app "log2" [v "arg"] / app "log2" [v "base"])]

/-- `gen_powf`, `log_exp.rs:177-183`. -/
def powf : RFn := .ofFty "powf" ["arg", "y"] [.expr (app "exp2" [app "log2" [v "arg"] * v "y"])]

/-- `gen_powi`, `log_exp.rs:185-208`. -/
def powi : RFn := ⟨"powi", [("x", ["fty"]), ("y", ["ity"])], some (.path ["fty"]), [.expr (app "powf" [v "x", as (v "y") "fty"])]⟩

/-! ## `recip_sqrt.rs` -/

/-- `gen_sqrt`, `recip_sqrt.rs:7-26`. -/
def sqrt : RFn := .ofFty "sqrt" ["x"] [
  letT "r" "fty" (app "sqrt_approx" [v "x"]),
  letT "y" "fty" (v "r" + .paren (v "x" - v "r" * v "r") / .paren (num "2.0" * v "r")),
  .expr (v "y")]

/-- `r + (x.abs() - r * r * r) / (3.0 * r * r)`. -/
def cbrtStep : RExpr :=
  v "r" + .paren (.method (v "x") "abs" [] - v "r" * v "r" * v "r") / .paren (num "3.0" * v "r" * v "r")

/-- `gen_cbrt`, `recip_sqrt.rs:28-55`. -/
def cbrt : RFn := .ofFty "cbrt" ["x"] [
  letT "r" "fty" (fromBits (as (.paren (.method (.paren (as (.method (.method (v "x") "abs" []) "to_bits" []) "fty")) "mul_add"
    [v "ONE_THIRD", v "EXP2_ONE" * v "TWO_THIRDS"])) "uty")),
  letT "r" "fty" cbrtStep, letT "r" "fty" cbrtStep, letT "r" "fty" cbrtStep, letT "r" "fty" cbrtStep,
  .expr (.method (v "r") "copysign" [v "x"])]

/-- `r * (2.0 - x * r)`. -/
def recipStep (r : String) : RExpr := v r * .paren (num "2.0" - v "x" * v r)

/-- `gen_recip`, `recip_sqrt.rs:57-76`. -/
def recip : RFn := .ofFty "recip" ["x"] [
  letT "r" "fty" (app "recip_approx" [v "x"]),
  letT "r1" "fty" (recipStep "r"), letT "r2" "fty" (recipStep "r1"), letT "r3" "fty" (recipStep "r2"),
  .expr (v "r3")]

/-- `gen_hypot`, `recip_sqrt.rs:78-89`. -/
def hypot : RFn := .ofFty "hypot" ["x", "y"] [
  letT "xgty" "bool" (gt (.method (v "x") "abs" []) (.method (v "y") "abs" [])),
  letT "x2" "fty" (cond (v "xgty") (v "x") (v "y")),
  letT "y2" "fty" (cond (v "xgty") (v "y") (v "x")),
  .expr (cond (le (.method (v "x2") "abs" []) (v "MIN_POSITIVE")) (v "x2")
    (.method (v "x2") "abs" [] * .method (.paren (num "1.0" + .paren (v "y2" / v "x2") * .paren (v "y2" / v "x2"))) "sqrt" []))]

/-! ## `hyperbolic.rs` -/

/-- `let a: fty = x.mul_add(LOG2_E, -1.0); let b: fty = x.mul_add(-LOG2_E, -1.0);`. -/
def hypLets : List RStmt := [
  letT "a" "fty" (.method (v "x") "mul_add" [v "LOG2_E", -num "1.0"]),
  letT "b" "fty" (.method (v "x") "mul_add" [-v "LOG2_E", -num "1.0"])]

/-- `gen_sinh`, `hyperbolic.rs:6-14`. -/
def sinh : RFn := .ofFty "sinh" ["x"] (hypLets ++ [.expr (app "exp2" [v "a"] - app "exp2" [v "b"])])

/-- `gen_cosh`, `hyperbolic.rs:17-25`. -/
def cosh : RFn := .ofFty "cosh" ["x"] (hypLets ++ [.expr (app "exp2" [v "a"] + app "exp2" [v "b"])])

/-- `gen_tanh`, `hyperbolic.rs:28-35`. -/
def tanh : RFn := .ofFty "tanh" ["x"] [
  letT "exp2x" "fty" (app "exp2" [v "x" * .paren (v "LOG2_E" * num "2.0")]),
  .expr (.paren (v "exp2x" - num "1.0") / .paren (v "exp2x" + num "1.0"))]

/-- `gen_asinh`, `hyperbolic.rs:38-44`. -/
def asinh : RFn := .ofFty "asinh" ["x"] [
  .expr (app "ln" [v "x" + .method (.paren (v "x" * v "x" + num "1.0")) "sqrt" []])]

/-- `gen_acosh`, `hyperbolic.rs:47-53`. -/
def acosh : RFn := .ofFty "acosh" ["x"] [
  .expr (cond (lt (v "x") (num "1.0")) (v "NAN") (app "ln" [v "x" + .method (.paren (v "x" * v "x" - num "1.0")) "sqrt" []]))]

/-- `gen_atanh`, `hyperbolic.rs:56-62`. -/
def atanh : RFn := .ofFty "atanh" ["x"] [
  .expr (.paren (app "ln" [num "1.0" + v "x"] - app "ln" [num "1.0" - v "x"]) * num "0.5")]

/-! ## `stats_norm.rs`, `stats_random.rs` -/

/-- `gen_dnorm`, `stats_norm.rs:9-18`. -/
def dnorm : RFn := .ofFty "dnorm" ["arg", "mean", "sigma"] [
  letT "rsigma" "fty" (.paren (as (num "1.0") "fty") / v "sigma"),
  letT "y" "fty" (.paren (v "arg" - v "mean") * v "rsigma"),
  letT "e" "fty" (as (.paren (-num "0.5" * v "LOG2_E")) "fty" * v "y" * v "y"),
  .expr (v "rsigma" * v "SQRT_RECIP_2PI" * app "exp2" [v "e"])]

/-- `gen_rnorm`, `stats_norm.rs:28-37`. -/
def rnorm : RFn := ⟨"rnorm", [("index", ["usize"]), ("mean", ["fty"]), ("sigma", ["fty"])], some (.path ["fty"]), [
  .const "MIN" ["fty"] (num "0.000001"),
  .const "MAX" ["fty"] (num "1.0" - v "MIN"),
  letT "x" "fty" (app "runif" [v "index", v "MIN", v "MAX"]),
  .expr (app "qnorm" [v "x", v "mean", v "sigma"])]⟩

/-- `gen_qnorm`, `stats_norm.rs:39-75`. -/
def qnorm (approx : RExpr) : RFn := .ofFty "qnorm" ["arg", "mean", "sigma"] [
  letT "scaled" "fty" (v "arg" - num "0.5"),
  letU "x" (v "scaled"),
  letT "recip" "fty" (v "sigma" / .paren (v "x" * v "x" - num "0.5" * num "0.5")),
  letT "y" "fty" approx,
  .expr (v "y" * v "recip" + v "mean")]

/-- `(z ^ (z >> k))`. -/
def xorShift (z k : String) : RExpr := .binary (v z) .bitXor (.paren (.binary (v z) .shr (int k)))

/-- `gen_runif`, `stats_random.rs:5-18`; the multipliers are written in hexadecimal in the source. -/
def runif : RFn := ⟨"runif", [("index", ["usize"]), ("min", ["fty"]), ("max", ["fty"])], some (.path ["fty"]), [
  letT "z" "uty" (.method (.paren (as (v "index") "u64" + int "1")) "wrapping_mul" [int "11400714819323198485"]),
  letT "z1" "uty" (.method (.paren (xorShift "z" "30")) "wrapping_mul" [int "13787848793156543929"]),
  letT "z2" "uty" (.method (.paren (xorShift "z1" "27")) "wrapping_mul" [int "10723151780598845931"]),
  letT "z3" "uty" (xorShift "z2" "31"),
  letT "x" "fty" (fromBits (.binary (.paren (.binary (as (v "z3") "uty") .shr (int "2"))) .bitOr (v "ONE_BITS")) - num "1.0"),
  .expr (.paren (v "x" * .paren (v "max" - v "min")) + v "min")]⟩

/-! ## All of it -/

/-- The approximating polynomials, one per generator that makes one, and the values of the evaluated constants. -/
structure Parts where
  approx : String → RExpr
  value : String → RExpr

/-- What the generator of a table entry produces; `gen_pnorm` (`stats_norm.rs:20-26`) produces nothing, and so do the groups. -/
def items (b32 : Bool) (P : Parts) : String → List RItem
  | "fty" => [tyItem "fty" "f" b32]
  | "uty" => [tyItem "uty" "u" b32]
  | "ity" => [tyItem "ity" "i" b32]
  | "round" => [.fn round]
  | "LOG2_SHIFT" => [LOG2_SHIFT b32]
  | "LOG2_OFFSET" => [LOG2_OFFSET b32]
  | "NAN" => [NAN b32]
  | "INFINITY" => [INFINITY b32]
  | "MIN_POSITIVE" => [MIN_POSITIVE b32]
  | "ONE_MASK" => [ONE_MASK b32]
  | "ONE_BITS" => [ONE_BITS b32]
  | "EXP2_ONE" => [EXP2_ONE b32]
  | "EXP2_SCALE" => [EXP2_SCALE b32]
  | "EXP2_MIN" => [EXP2_MIN b32]
  | "EXP2_MAX" => [EXP2_MAX b32]
  | "ONE_THIRD" => [ONE_THIRD b32]
  | "TWO_THIRDS" => [TWO_THIRDS b32]
  | "PI" => [evalConst "PI" (P.value "PI")]
  | "PI_BY_2" => [evalConst "PI_BY_2" (P.value "PI_BY_2")]
  | "TAN_PI_BY_8" => [evalConst "TAN_PI_BY_8" (P.value "TAN_PI_BY_8")]
  | "PI_BY_8" => [evalConst "PI_BY_8" (P.value "PI_BY_8")]
  | "LOG2_E" => [evalConst "LOG2_E" (P.value "LOG2_E")]
  | "RECIP_LOG2_E" => [evalConst "RECIP_LOG2_E" (P.value "RECIP_LOG2_E")]
  | "RECIP_LOG2_10" => [evalConst "RECIP_LOG2_10" (P.value "RECIP_LOG2_10")]
  | "RECIP_PI" => [evalConst "RECIP_PI" (P.value "RECIP_PI")]
  | "RECIP_2PI" => [evalConst "RECIP_2PI" (P.value "RECIP_2PI")]
  | "SQRT_RECIP_2PI" => [evalConst "SQRT_RECIP_2PI" (P.value "SQRT_RECIP_2PI")]
  | "negate_on_odd" => [.fn (negate_on_odd b32)]
  | "recip_approx" => [.fn recip_approx]
  | "sqrt_approx" => [.fn sqrt_approx]
  | "cbrt_approx" => [.fn cbrt_approx]
  | "nextafter" => [.fn nextafter]
  | "sinh" => [.fn sinh]
  | "cosh" => [.fn cosh]
  | "tanh" => [.fn tanh]
  | "asinh" => [.fn asinh]
  | "acosh" => [.fn acosh]
  | "atanh" => [.fn atanh]
  | "asin" => [.fn (asin (P.approx "asin"))]
  | "acos" => [.fn (acos (P.approx "acos"))]
  | "atan" => [.fn (atan (P.approx "atan"))]
  | "atan2" => [.fn (atan2 (P.approx "atan2"))]
  | "exp2" => [.fn (exp2 (P.approx "exp2"))]
  | "exp" => [.fn exp]
  | "exp_m1" => [.fn (exp_m1 (P.approx "exp_m1"))]
  | "log2" => [.fn (log2 (P.approx "log2"))]
  | "ln_1p" => [.fn ln_1p]
  | "ln" => [.fn ln]
  | "log10" => [.fn log10]
  | "log" => [.fn log]
  | "powf" => [.fn powf]
  | "powi" => [.fn powi]
  | "sqrt" => [.fn sqrt]
  | "cbrt" => [.fn cbrt]
  | "recip" => [.fn recip]
  | "hypot" => [.fn hypot]
  | "runif" => [.fn runif]
  | "dnorm" => [.fn dnorm]
  | "pnorm" => []
  | "qnorm" => [.fn (qnorm (P.approx "qnorm"))]
  | "rnorm" => [.fn rnorm]
  | "sin" => [.fn (sin (P.approx "sin"))]
  | "cos" => [.fn (cos (P.approx "cos"))]
  | "tan" => [.fn (tan (P.approx "tan"))]
  | "sin_cos" => [.fn sin_cos]
  | _ => []

end Verif.Gen
