import Verif.Model.Functions

/-!
# The function table of the program

`FUNCTIONS`, `libmgen/src/functions.rs:52-824`, entry by entry, without the test specifications.
-/

namespace Verif

def functionTable : List FnDef := [
  ⟨"fty", [], (0, 0), true⟩,
  ⟨"uty", [], (0, 0), true⟩,
  ⟨"ity", [], (0, 0), true⟩,
  ⟨"round", ["fty", "ity"], (0, 0), true⟩,
  ⟨"LOG2_SHIFT", [], (0, 0), true⟩,
  ⟨"LOG2_OFFSET", [], (0, 0), true⟩,
  ⟨"NAN", [], (0, 0), true⟩,
  ⟨"INFINITY", [], (0, 0), true⟩,
  ⟨"MIN_POSITIVE", [], (0, 0), true⟩,
  ⟨"ONE_MASK", [], (0, 0), true⟩,
  ⟨"ONE_BITS", [], (0, 0), true⟩,
  ⟨"EXP2_ONE", [], (0, 0), true⟩,
  ⟨"EXP2_SCALE", [], (0, 0), true⟩,
  ⟨"EXP2_MIN", [], (0, 0), true⟩,
  ⟨"EXP2_MAX", [], (0, 0), true⟩,
  ⟨"ONE_THIRD", [], (0, 0), true⟩,
  ⟨"TWO_THIRDS", [], (0, 0), true⟩,
  ⟨"PI", [], (0, 0), true⟩,
  ⟨"PI_BY_2", [], (0, 0), true⟩,
  ⟨"TAN_PI_BY_8", [], (0, 0), true⟩,
  ⟨"PI_BY_8", [], (0, 0), true⟩,
  ⟨"LOG2_E", [], (0, 0), true⟩,
  ⟨"RECIP_LOG2_E", [], (0, 0), true⟩,
  ⟨"RECIP_LOG2_10", [], (0, 0), true⟩,
  ⟨"RECIP_PI", [], (0, 0), true⟩,
  ⟨"RECIP_2PI", [], (0, 0), true⟩,
  ⟨"SQRT_RECIP_2PI", [], (0, 0), true⟩,
  ⟨"negate_on_odd", ["fty"], (0, 0), true⟩,
  ⟨"recip_approx", ["fty"], (0, 0), true⟩,
  ⟨"sqrt_approx", ["fty", "uty"], (0, 0), true⟩,
  ⟨"cbrt_approx", ["fty"], (0, 0), true⟩,
  ⟨"nextafter", ["fty"], (0, 0), true⟩,
  ⟨"sinh", ["fty"], (16, 24), true⟩,
  ⟨"cosh", ["fty"], (16, 24), true⟩,
  ⟨"tanh", ["fty"], (16, 24), true⟩,
  ⟨"asinh", ["fty", "ln"], (16, 24), true⟩,
  ⟨"acosh", ["fty", "NAN", "ln"], (16, 24), true⟩,
  ⟨"atanh", ["fty", "ln"], (16, 24), true⟩,
  ⟨"asin", ["fty", "PI_BY_2"], (16, 36), true⟩,
  ⟨"acos", ["fty", "PI_BY_2", "PI"], (16, 34), true⟩,
  ⟨"atan", ["fty"], (16, 36), true⟩,
  ⟨"atan2", ["fty", "PI_BY_8", "PI_BY_2", "TAN_PI_BY_8"], (16, 36), true⟩,
  ⟨"exp2", ["fty", "ity", "uty", "EXP2_SCALE", "EXP2_ONE", "EXP2_MIN", "EXP2_MAX"], (8, 12), true⟩,
  ⟨"exp", ["fty", "exp2", "LOG2_E"], (16, 24), true⟩,
  ⟨"exp_m1", ["fty", "exp2"], (8, 12), true⟩,
  ⟨"log2", ["fty", "LOG2_SHIFT", "LOG2_OFFSET", "ONE_MASK", "ONE_BITS", "MIN_POSITIVE", "NAN", "INFINITY"], (10, 20), true⟩,
  ⟨"ln_1p", ["fty", "RECIP_LOG2_E"], (16, 24), true⟩,
  ⟨"ln", ["log2", "RECIP_LOG2_E"], (16, 24), true⟩,
  ⟨"log10", ["log2", "RECIP_LOG2_10"], (16, 24), true⟩,
  ⟨"log", ["fty", "log2"], (16, 24), true⟩,
  ⟨"powf", ["fty", "log2", "exp2"], (16, 24), true⟩,
  ⟨"powi", ["fty", "log2", "exp2"], (16, 24), true⟩,
  ⟨"sqrt", ["fty", "sqrt_approx"], (16, 24), true⟩,
  ⟨"cbrt", ["fty", "ONE_THIRD", "TWO_THIRDS"], (16, 24), true⟩,
  ⟨"recip", ["fty", "recip_approx"], (16, 24), true⟩,
  ⟨"hypot", ["fty"], (16, 24), true⟩,
  ⟨"runif", ["fty"], (0, 0), true⟩,
  ⟨"dnorm", ["fty", "LOG2_E", "SQRT_RECIP_2PI", "recip", "exp2"], (16, 24), true⟩,
  ⟨"pnorm", ["fty"], (16, 24), true⟩,
  ⟨"qnorm", ["fty", "sqrt", "log2"], (16, 32), true⟩,
  ⟨"rnorm", ["fty", "runif", "qnorm"], (16, 24), true⟩,
  ⟨"sin", ["fty", "round", "RECIP_2PI"], (12, 24), true⟩,
  ⟨"cos", ["fty", "round", "RECIP_2PI"], (13, 25), true⟩,
  ⟨"tan", ["fty", "RECIP_PI"], (12, 24), true⟩,
  ⟨"sin_cos", ["fty", "sin", "cos"], (0, 0), true⟩,
  ⟨"invtrig", ["fty", "asin", "acos", "atan", "atan2"], (16, 24), false⟩,
  ⟨"trig", ["fty", "sin", "cos", "tan", "invtrig"], (16, 24), false⟩,
  ⟨"invhyperbolic", ["fty", "asinh", "acosh", "atanh"], (16, 24), false⟩,
  ⟨"hyperbolic", ["sinh", "cosh", "tanh", "invhyperbolic"], (16, 24), false⟩,
  ⟨"logexp", ["exp2", "exp", "exp_m1", "log2", "ln_1p", "ln", "log10", "log", "powf", "powi"], (16, 24), false⟩,
  ⟨"recip_sqrt", ["recip", "sqrt", "cbrt"], (16, 24), false⟩,
  ⟨"libm", ["logexp", "trig", "hyperbolic", "recip_sqrt"], (16, 24), false⟩,
  ⟨"normal", ["fty", "rnorm", "dnorm", "pnorm", "qnorm"], (16, 24), false⟩,
  ⟨"stats", ["fty", "normal"], (16, 24), false⟩,
  ⟨"all", ["fty", "stats", "libm"], (16, 24), false⟩]

end Verif
