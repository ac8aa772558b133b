# Formal model of doctor-syn

Everything here is about the source text in `/repo` (crates `doctor-syn` and `libmgen`).  The code was read, not run.
Properties are listed in `properties.jsonl`; `MANIFEST.json` maps each one to Lean theorems.

## Layout

| Lean module (under `lean/Verif/`) | What it holds |
|---|---|
| `Model/*` | executable model, one definition per Rust function, each citing file and lines |
| `Spec/*`  | small independent specifications (values of decimals, meaning of expressions, grammars, reachability) |
| `Model/RustCode.lean`, `Model/Generated.lean` | syntax trees of Rust programs, and the code each libmgen generator emits as such a tree |
| `Spec/RustMeaning.lean` | what such a program means, over an arbitrary type of values |
| `Spec/RealMeaning.lean` | the meaning over real numbers, infinities, NaN and integers; IEEE bit patterns (`FloatFmt`) |
| `Spec/Ieee.lean` | the meaning in IEEE 754 arithmetic: rounding to nearest even, overflow, subnormals |
| `Lemmas/*`| helper lemmas |
| `Props/*` | the property theorems, named after the property ids, each with an `example` meeting its hypotheses |

## Trusted base

* Lean 4.33 kernel and the three standard axioms `propext`, `Classical.choice`, `Quot.sound`.  No own axioms, no `sorry`,
  no `native_decide`, no `bv_decide`.
* The reading of `/repo`: every model definition cites the lines it models.
* The behaviour of external crates, which are not in the sandbox and were modelled from knowledge of their sources:
  * `bigdecimal 0.2`: a number is `(int_val : BigInt, scale : i64)` with value `int_val * 10^-scale`; `+`/`-` align scales, `*` adds
    scales, `/` is long division to 100 significant digits rounding half up on the next digit, `with_scale` truncates toward zero,
    `==`/`<` compare values, `Display` prints plain decimals, `FromStr` reads `[-]digits[.digits][e[+-]digits]`.
    `sqrt` (floating-point seeded Newton iteration) is a *parameter*; theorems that need it assume
    `SqrtOk` (`Spec/Sqrt.lean`): a root is returned exactly for non-negative numbers, with relative error at most `10^-98`.  `goodExt`
    (`Props/Inverse.lean`) shows an implementation meeting the assumption exists.
  * `syn 1.0`: `Expr` trees, the token printing of `ToTokens` (no parentheses are invented) and the precedence parser behind
    `parse_quote!`.
  * a coefficient quoted into `parse_quote!` is read again: a text without `.` becomes an integer literal (`quotedDec`).
  * `num-bigint`: exact integers, truncating division.
  * IEEE conversions (`to_f32`, `from_f64`, ...) are parameters unless a theorem says otherwise.
* Generated code is given two meanings.  In C51–C61 and C82 arithmetic is exact (`realInterp`): a float is a real number, an infinity or NaN, and
  only `from_bits`/`to_bits`, casts and wrapping integer methods see bit patterns and integer ranges; those theorems bound the error of the
  method.  In C83 (`Spec/Ieee.lean`, `ieeeInterp`) every operation rounds to the nearest float, ties to even, with subnormals and overflow to
  infinity; `mul_add` rounds once.  The sign of zero is not tracked in either.
* A NaN in `ieeeInterp` has neither sign nor payload: it is the positive quiet NaN (pattern `0x7fc00000`, `0x7ff8000000000000`).  This matters only for
  `to_bits` and `copysign` of a NaN, so for `log2`, `sqrt`, `cbrt`, `recip` and `round` in C88.
* C: the lexer and grammar of `Spec/CTokens.lean` and the rules for names and types of `Spec/CTypes.lean` are those of ISO C99 as far as the
  generator's text needs them, with GNU statement expressions; `long` and `long long` are one type, `int` has 32 bits.
* The emitted tests are modelled over exact rationals with infinities and NaN (`Fl`), comparisons behave as IEEE comparisons do.
* `i64`/`i32`/`usize` counters are modelled as `Int`/`Nat` without overflow except where a property is about overflow.

Panics are explicit outcomes (`Res.panic`), unbounded loops take fuel and report `Res.diverge` when it runs out.

## What is modelled and how each property is attacked

| id | model | method |
|---|---|---|
| C01-C02 | `bdmath.rs` round on `Dec` | direct arithmetic on `Int.tdiv`, spec over `ℚ` |
| C03 | Display / FromStr on `List Char` | digit-list round trip lemmas |
| C04-C09 | `eval.rs` on `Expr` trees with text literals | structural induction |
| C10-C14 | `visitor.rs`, `subst.rs`, `variablelist.rs`, `collect.rs` | structural induction, arbitrary interpretation of operators |
| C15-C16 | `paren.rs`; tokens and trees (`Spec/RustTokens.lean`), Rust's precedence grammar (`Spec/Grammar.lean`) | induction; the grammar's reader is the inverse of printing (`Lang.reads_iff`); C16 is false for method receivers and signed literals: witnesses + partial |
| C17-C19 | `expand.rs`, `tools.rs` | induction over any commutative ring |
| C20-C21 | `use_number_type.rs` | induction; C21 is false for 64 bits: witness |
| C22 | `expression.rs` make_op | false for `-`,`*`,`/` on symbolic operands: witness + partial |
| C23-C34, C63 | `bdmath.rs` | generic error analysis of the series loop against real power series |
| C64-C66 | `tan`, `log`, `pow` of `bdmath.rs` | error propagation through quotients and exponentials |
| C67 | `eval.rs` | one error rule per construct, composed along the tree |
| C69 | constants of `auxfuncs.rs` (`Model/Constants.lean`) | the rules of C67 applied to each defining expression |
| C35-C39 | `polynomial.rs`, `approx.rs` | Newton interpolation over a field, refinement to decimals |
| C81 | the same, with the requests of the generators (`Model/Approximants.lean`) | Rolle's theorem for divided differences, Chebyshev nodes that are only nearly right, error of the decimal divided differences (`Lemmas/Interp.lean`, `ChebNodes.lean`, `NodeBounds.lean`, `DivDiff.lean`, `ApproxError.lean`); for `asin`, `acos` and `tan` Chebyshev truncation of a power series (`ChebSeries.lean`, `SeriesError.lean`, `ArcsinSeries.lean`, `TanSeries.lean`) |
| C82 | `polynomialCode` (`Model/Shipped.lean`): `approx` at the term count of the table, then `use_number_type`; the generated functions of C51–C54 | the sum of the absolute values of the terms bounds what rounding the coefficients can do: near-best polynomials with known coefficients (`Lemmas/NearTargets.lean`, for `atan` its Chebyshev expansion) and the Chebyshev coefficient bound give it without knowing the coefficients (`Lemmas/CodePoly.lean`) |
| C83 | the same functions under `ieeeInterp` (`Spec/Ieee.lean`) | rounding as a function on reals (`Lemmas/Ieee.lean`), error of a chain of `mul_add`s by induction (`Lemmas/IeeeCode.lean`), exactness of the subtraction after `round` (`Lemmas/IeeeRound.lean`), which floats pass the test `arg*arg < LIM*LIM` (`Props/IeeeInvTrig.lean`), relative error of a product through `exp2` (`Props/IeeeNormal.lean`) |
| C40-C42, C78 | `codegen/c.rs` (`Model/CCode.lean`) | stack machine refined to a pure function |
| C41 | the same, with a C lexer and C's precedence grammar (`Spec/CTokens.lean`) | the lexer proved on the generator's text, then levels compared; false: witnesses + partial; true for every expression of the generated library but the pair in `sin_cos` (`C41_library`, `C41_polynomial`; the places are listed in `Spec/CPlaces.lean`) |
| C43-C44, C77 | `codegen/rust.rs` (`Model/Format.lean`) | induction over token trees |
| C45, C79, C80 | `codegen/portable_simd.rs` (`Model/Simd.lean`, `Spec/Lanes.lean`, `Spec/VectorTypes.lean`) | lane-wise simulation; acceptance and typing as recursive predicates |
| C46-C50 | `libmgen/src/functions.rs` | worklist invariant; whole-table computation |
| C51-C58 | `libmgen` generated code over `ℝ` | Mathlib real analysis |
| C53-C54, C59-C61 | bit-level parts | `Nat`/`BitVec` arithmetic |
| C74 | generated `sqrt`, `recip`, `cbrt` with their estimates | bit pattern as a logarithm (`Lemmas/Seeds.lean`), then the Newton steps of C55, exactly and rounded (`Lemmas/NewtonIeee.lean`, `Props/IeeeSeeds.lean`); false for two: witnesses + partial |
| C73 | generated code (`Spec/RustTypes.lean`: typing rules) | typing independent of the inserted parts, then whole-table computation; false: witnesses + partial |
| C75 | generated `dnorm`, `qnorm`, `rnorm` (`Props/GenStats.lean`) | algebra over `ℝ`; the word of `runif` as a function of the index; last part false: witness + partial |
| C84 | tokens and trees of programs (`Spec/RustText.lean`), generated items, the vectoriser | induction over programs on top of `Lang.reads_iff`; `if`, blocks, tuples and arrays are single words whose insides are read on their own |
| C86 | `libmgen/src/main.rs`, `config.rs` (`Model/Main.lean`), generators and back ends as parameters | effects as a list; permutation invariant of the worklist; false on standard output: witnesses + exact condition |
| C87 | call graph of the generated functions (`Model/Generated.lean`), code of the polynomials | rank of every function; induction on the rank for existence and uniqueness; structural induction on code |
| C76 | generated exp/log/hyperbolic functions of a whole library under `ieeeInterp` (`Props/IeeeBase.lean`, `Props/IeeeLibrary.lean`, `Props/IeeeDerived.lean`, `Props/IeeeHyperbolic.lean`, `Props/IeeeArea.lean`, instances in `Props/IeeeExamples.lean`) | rounding errors carried through each body; case split at the exponent bounds; false at some arguments: witnesses |
| C88 | the generated functions at NaN and the infinities under `ieeeInterp` (`Props/IeeeSpecial.lean`, `Props/IeeeSpecialLib.lean`, `Props/IeeeSpecialLog.lean`, `Props/IeeeSpecialRoot.lean`, instances in `Props/IeeeSpecialExamples.lean`) | polynomial code keeps a NaN and never turns an infinity into a number (`SpecialIE`, induction on the coefficients); then evaluation of each body; false for many: witnesses |
| C85 | the C files of all requests, checked by `Spec/CTypes.lean` (names, types, arities, `<math.h>`) | monotonicity of the checker in the declarations, induction over the file; false: exact list of what compiles + partial |
| C89 | `qnormLoop`, `qnorm` with its unbounded Newton loop | monotone Newton from 0: the residual keeps its sign up to a quarter of the last digit and shrinks by 21/25 or to nothing; induction on the passes |
| C90 | `test_specs` (`Model/TestSpecs.lean`), `gen_max_abs` (`sampleRow`, `testRows`) | a row lemma on top of C67, C72 and C89, one lemma per reference function, intermediate value theorem for the quantile |
| C91 | the specifications against the output of a request (`Props/TestTypes.lean`), typing rules of C73 | signatures of an output as a function of its names; evaluation per specification; false: exact condition + witnesses |
| C92 | `test_function` in float arithmetic (`Model/TestIeee.lean`) on the tables of C90 | invariant of the loop, error analysis of one row, C90 for the rows; false at NaN: exact verdict + witness |
| C93 | the generated `runif` under `ieeeInterp` (`Props/RunifIeee.lean`) | exact bit-level value of the fraction, monotone rounding for the range; `max` excluded is false: witness |
| C94 | `histogram` / `histogramError` of `Model/Test.lean` on the samples of the generated `runif` (`Props/TestRunif.lean`), read off the table of tests (`Props/HistogramSpecs.lean`) and run on the whole library (`Props/HistogramLibrary.lean`) | samples shown equal to the generated code in float arithmetic; a packed count of the million samples evaluated by the kernel (`Lemmas/RunifCount*.lean`) |
| C95 | the generated `rnorm` and `runif` under `ieeeInterp`, the histogram of `Model/Test.lean` (`Props/TestRnorm.lean`), read off the table of tests (`Props/HistogramSpecs.lean`) | error analysis of the argument of `qnorm`, numeric bounds of the normal distribution function (`Lemmas/NormalNumbers.lean`), kernel count of the samples by interval |
| C96 | `Gen.qnorm` with the polynomial that `approx` makes, under `ieeeInterp .f64` (`Lemmas/QnormNodes.lean`, `Props/QnormError.lean`, `Props/QnormIeee.lean`, `Props/QnormTest.lean`), and on the whole library (`Props/HistogramLibrary.lean`) | the 32 nodes, quantiles and coefficients as decimals checked by the kernel; stability of interpolation; verified bisection for bounds of the polynomial; false: negation proved |
| C97 | the histogram of `Model/Test.lean` on the samples of the generated `rnorm`, `runif` and `qnorm` (`Props/QnormTest.lean`), and with the generated `dnorm` as the density (`Props/HistogramLibrary.lean`) | `C96_value`, `C83_dnorm`, verified bisection, kernel count of the samples by interval; false: negation proved |
| C98 | the same requests (`Props/ApproxSharp.lean`) | aliasing at the Chebyshev nodes: the interpolant of a Chebyshev sum in closed form (`Lemmas/ChebAlias.lean`), certificates with whole coefficients checked by the kernel (`ChebList.lean`), series of the six targets with bounds of the tails (`SharpSeries.lean`, `SharpTan.lean`); the lower bound compares the interpolant with the series at one rational point |
| C99 | the accuracy tests of `asin`, the logarithms, the exponentials and `dnorm` (`Props/TestPasses.lean`) | interval-and-error enclosures checked by the kernel (`Lemmas/Enc.lean`, `EncPoly.lean`, `EncBox.lean`, `EncCode.lean`), cut into cells along the samples (`Props/TestAsin.lean`, `TestLog.lean`, `TestLogBase.lean`) or runs of samples (`TestExp.lean`, `TestExpPass.lean`, with the coefficient boxes of `ApproxExp.lean`), digits of the logarithms from the artanh series (`Lemmas/LogBounds.lean`), the step from enclosures to the test (`TestPass.lean`) |
| C100 | the accuracy test `test_acos2` at 64 bits (`Props/TestFails.lean`) | the interpolant at one sample from the certificate of the polynomial (`Lemmas/EncBox.lean` `interpolant_parity`, `EncCode.lean` `encCode_interpolant`), an enclosure of the roundings of the chain, the float `PI_BY_2` from 20 digits of pi, the last rounding pinned by `FloatFmt.rnd_eq`, the step from one bad sample to the failing test (`fails_at`) |
| C101 | the accuracy test `test_log_1` at 64 bits (`Props/TestFailsLog.lean`) | as C100, with the lowest coefficient of the polynomial kept as the float it is (`Lemmas/EncLast.lean` `code_last`); the value of `log2` at 0.1 is an exact tie (`tenth_tie`); the quotient pinned by `FloatFmt.rnd_eq` |
| C102 | the accuracy tests `test_asin2` and `test_acos` at 32 bits (`Props/TestInvTrig.lean`) | as C99, with the samples as the floats they are: the squares of multiples of 1/512 are exact (`grid_square`), so only the square root and the last difference are rounded; the arc sine is Hölder continuous with exponent 1/2 (`arcsin_holder`), which bounds the effect of the conversions |
| C103 | the accuracy test `test_acos` at 64 bits (`Props/TestFailsAcos.lean`) | as C100 at the sample -315/512; the enclosure of the polynomial leaves two floats, and both lead to the same result because the tie goes to the even float (`last_step_315`); `fails_at_rows` needs finite results only at the rows of the table, as `acos` is not finite beyond 1 |
| C104 | the accuracy test `test_log2_1` at 64 bits (`Props/TestFailsLog2.lean`) | as C101 at sample 71; the result is computed step by step from an enclosure of the polynomial (`log2_value_71`); one window (`log2Near`, `log2Mean`) holds both the float that is kept and the 16 digits that are written for it |
| C105 | the accuracy test `test_asin2` at 64 bits (`Props/TestAsin64.lean`) | as C102, with the coefficient boxes of the 36-term polynomial and the exact float for half of pi (`half_pi_f64`); the errors add up to 5.97 of 6 units: polynomial .89, its evaluation 1.80, square root .71, half of pi .56, last difference 1, reference value 1 |
| C106 | the generated `runif` under `ieeeInterp .f64` (`Props/RunifUniform.lean`) | odd multipliers and xor with a shifted copy are injective on 64-bit words, so the words are a permutation of the indices; count of the words with given bits 2 to 53.  At the last index `index as u64 + 1` overflows: the model takes the wrapped value 0, as an optimised build does; a checked build panics there |
| C107 | `mulAddPolynomial`, `useNumberType` under `ieeeInterp` (`Props/IeeeParity.lean`) | the chain depends on `x` only through `x * x`, and rounding to nearest even commutes with negation.  The model has a single zero, so the sign of a zero result is not covered |
| C108 | the generated functions under `ieeeInterp` (`Props/IeeeSymmetry.lean`) | C107 for the polynomials; the reduction commutes with negation, also where the cast to the integer type saturates.  **Disagreement:** `tanh` is NaN at infinity and -1 at minus infinity (`C108_tanh_wrong`); `asinh(-2^30)` is minus infinity while `asinh(2^30)` is finite (`C108_asinh_wrong`).  The model has a single zero, so the sign of a zero result is not covered |
| C109 | `Gen.hypot` under `ieeeInterp` (`Props/IeeeHypot.lean`) | the quotient of the coordinates is at most one in size, so the errors of its square, of the sum and of the root add up to less than 4 units, and the last product adds one.  The method `sqrt` is taken as correctly rounded.  **Disagreement:** for two tiny arguments of opposite signs the second is returned, so the order matters (`C109_hypot_swap_wrong`; see also C56) |
| C110 | `Gen.recip`, `Gen.cbrt` under `ieeeInterp` (`Props/IeeeRootSymmetry.lean`) | the seed depends on the size of the argument only and `copysign` restores the sign; the steps of `recip` commute with negation.  Zero is left out: the model has a single zero |
| C62, C70-C72 | `libmgen/src/test.rs`, `test_function` (`Model/Test.lean`) | fold over samples; C62, C70, C71 are false: witnesses + partial |

## Not modelled

`Span`s, attributes, turbofish arguments, generics, macros, command-line parsing (`structopt`), plotting, the wording of error
messages, the parts of test functions that are the same for all tests, performance.  `exprext.rs` is not part of the crate (`lib.rs` does not name it).

## Disagreements between code and property

* **C21** `use_number_type("hex", 64)` prints `f32::from_bits(<64-bit pattern>u64)` (use_number_type.rs): wrong function for the
  width.  `C21_hex64_wrong`.
* **C22** `make_op!` (expression.rs) builds `(l) + (r)` for symbolic operands whatever the operator.  `C22_symbolic_wrong`,
  `C22_symbolic_sub_witness`.
* **C08** the restriction to expressions without field access is needed (`C08_field_not_literal`).
* **C34** `round_ieee` reads `bits` with `to_i32`, which drops the fraction: `C34_fraction_ignored`.
* **C27** at zero digits `exp(-1/2, 0)` is `1`, so the scaling loop of `ln` makes no progress and `ln(x, 0)` never returns for
  `x >= 3`; the accuracy theorems need at least the digit counts they state.
* **C63** from about 101 digits on the digits of `pi` are wrong, because every division keeps only 100 digits: the 110-digit value is
  off by more than `10^-102` (`C63_pi_110_digits_wrong`).
* **C49** the dependency lists of `functions.rs` are incomplete: only 16 of the 75 entries, requested alone, give code that defines
  every name it uses (`C49_self_contained_iff`).  `sinh` uses `exp2` and `LOG2_E` without listing them (`C49_sinh_incomplete`).
* **C51** argument reduction casts to a signed integer, which saturates: past that range the reduced argument is not small
  (`C51_reduction_saturates`).
* **C53** generated `exp2` compares its argument with the exponent bias, so it answers infinity for `bias + 1/2`, whose power is finite
  (`C53_not_finite`).
* **C56** generated `hypot` returns the larger argument itself, with its sign, when neither exceeds `MIN_POSITIVE`: `hypot(-m, 0) = -m`
  (`C56_hypot_negative`).
* **C74** the estimates of `sqrt` and `recip` are the bit-pattern estimate minus `0.08`, at every scale.  `sqrt` makes a single Newton step, so
  `sqrt(1) > 1.003` (`C74_sqrt_wrong`) and `sqrt(2^-10) < 0` (`C74_sqrt_negative`); the error for `x >= 1/2` is up to 1.2 percent
  (`C74_sqrt_large_partial`).  `recip` makes three steps, good to `0.127^8` while `0.08 |x|` is small (`C74_recip_partial`), but
  `recip(128)` is below `-100000` (`C74_recip_wrong`).  `cbrt` uses its own estimate without the `0.08`, and four steps: the claim holds (`C74_cbrt`).
  The same in rounded arithmetic: `C74_sqrt_ieee_partial`, `C74_sqrt_ieee_wrong` (too large by more than 1e-4 on all of `[1/2, 1]`),
  `C74_recip_ieee_partial` (`|x| <= 12`), `C74_cbrt_ieee` (nine rounding errors, all normal arguments up to `2^(bias-1)`).
  `sqrt` of the largest floats is minus infinity (`C74_sqrt_max_wrong`): the pattern, made a float, is rounded up to that of infinity.
  `sqrt(0)` is about `-0.04` in float arithmetic (`C74_sqrt_zero_wrong`, `Props/IeeeSqrtZero.lean`): the estimate is `-0.08` and the step halves it.
  It is negative at every normal float up to `1/256` (`C74_sqrt_small_wrong`).
  `recip(0)` is NaN (`C74_recip_zero_wrong`, `Props/IeeeRecipZero.lean`): the first step overflows and the second multiplies zero by infinity.
  From 64 to `2^(bias-2)` it is below `-1/16`, possibly minus infinity (`C74_recip_large_wrong`, `Props/IeeeRecipLarge.lean`).
* **C58** `powi` is `exp2(log2(x) * n)`, NaN for every negative base: `C58_powi_negative`.
* **C60** `negate_on_odd` takes every number past the integer range as odd: `C60_large_wrong`.
* **C75** the polynomial of `qnorm` is fitted on `[-0.4999, 0.4999]`, but `rnorm` calls it on `[1e-6 - 1/2, 1/2 - 1e-6)`: at index 23752 the
  argument is below the fitted interval (`C75_rnorm_outside`).
* **C86** `get_functions_and_deps` announces excluded names with `println!`, so `-f cos -x round` puts `ignoring round` in front of the library on
  standard output (`C86_exclude_on_stdout`).  Without `-x` the exclusion list is `[""]`, so `-f cos,` does it too (`C86_comma_on_stdout`).
  Exact condition: `C86_stdout_iff`.  A file given with `-o` is right (`C86_file`).  `--function-prefix` has no effect (`C86_unused_prefix`),
  `--language help` alone does not list the languages (`C86_language_help`).
* **C76** `log2` of plus infinity is finite, about the exponent bias plus one (`C76_log2_inf`); so is every logarithm built on it.
* **C76** `exp` gives infinity for arguments whose exponential still fits the format (`C76_exp_early`).
* **C76** `tanh` is NaN for large arguments and at plus infinity, where the value is one (`C76_tanh_wrong`).
* **C76** `asinh` is minus infinity for moderately large negative arguments (`C76_asinh_wrong`); once the square overflows it is one fixed positive number for either sign (`C76_asinh_overflow`). `acosh` does the same (`C76_acosh_overflow`), and near one its error is that of a square root of the rounding error (`C76_acosh_partial`).
* **C76** `atanh` of a small number is exactly zero (`C76_atanh_small`): the absolute error is small, the relative error is not.
* **C88** NaN is lost by `round` (`C88_round_wrong`), by the logarithms, which read its bit pattern (`C88_log2_nan_wrong`, `C88_ln_wrong`,
  `C88_log_wrong`: the logarithm of NaN to the base NaN is 1), hence by `powf` (`C88_powf_wrong`), `asinh`, `acosh` (finite) and `atanh` (zero), and by
  `hypot(NaN, 0)` (`C88_hypot_wrong`).  Infinities: `exp_m1` is NaN at both (`C88_exp_m1_inf_wrong`), `asinh` and `acosh` are finite, `atan2` is NaN
  whenever an argument is infinite (`C88_atan2_wrong`), `sqrt(inf)` is NaN and `sqrt(-inf)` is `-inf` (`C88_sqrt_wrong`), `cbrt` is NaN
  (`C88_cbrt_wrong`), `recip` of an infinity is the opposite infinity (`C88_recip_wrong`), `hypot` of two infinities is NaN.  For `tanh` see C76.
* **C85** the C file compiles for `asin` and `acos` only (`C85_compiles_iff_partial`, `C85_all_wrong`).  `NAN` and `INFINITY` are macros of
  `<math.h>` and cannot be declared; `f32::MIN_POSITIVE` becomes the undeclared `f32_MIN_POSITIVE`; `abs`, `to_bits`, `recip`, `ln` and `wrapping_mul` become
  calls of functions that nothing declares; `let` without a type declares nothing; `sin_cos` returns a pair.  A constant without `fty` in the request
  has an undeclared type (`C85_constant_wrong`).  With `--number-type hex` nothing compiles: `f32::from_bits` becomes `ds32_f32_from_bits`
  (`C85_hex_wrong`).
* **C89** the first guess is 0 whatever the mean.  For a mean ten standard deviations away the computed density is 0 and `qnorm` panics on the quotient
  (`C89_mean_panics`); the loop is shown to end for mean 0 and standard deviation 1, which is what the library's own tests use.
* **C91** the histogram test of `rnorm` calls `dnorm(x, 0.0, 1.0)` with `x` an `f64`: with `-f rnorm` the name is undefined (`C91_rnorm_wrong`), at 32 bits the
  types differ (`C91_rnorm32_wrong`).  All other tests type-check for every request: exact condition `C91_types_iff_partial`.
* **C92** a passing accuracy test says nothing about samples where the function returns NaN: `e > max` is false for NaN, so the assertion against NaN never sees one, and a function that
  is NaN everywhere passes every accuracy test (`C92_nan_passes`).  The exact verdict, with NaN allowed, is `C92_verdict`.
* **C93** `runif(index, min, max) < max` is false in float arithmetic: `runif(1702374924257397, 2.0, 3.0) = 3.0` (`C93_max_reached`).  `min ≤ y ≤ max` holds for all floats up to 2^1022
  (`C93_range`), and `y < max` holds for `min = 0` (`C93_from_zero`).  When `max - min` overflows the result is infinite, or NaN where the fraction is 0 (`C93_overflow`).
* **C94** the histogram test of `runif` passes (it reports 31/31250 < 1/1000, `C94_passes`) but 26 of the 32 buckets are further off than the limit, bucket 13 by 173/15625 ≈ 0.011
  (`C94_not_the_maximum`): the code assigns the error of each bucket to `max_err` in place of taking the maximum, so only the last bucket counts.
* **C95** with an accurate `qnorm` (the generated one is not, see C97) the histogram test of `rnorm` passes (`C95_rnorm_passes`), again because only the last bucket counts: bucket 11 is off by more than 1/500, twice the limit, for every accurate `qnorm`
  and density (`C95_not_the_maximum`).
* **C96** the generated 64-bit `qnorm` is the quotient of a known polynomial by `x² - 1/4` up to `5e-8/(p(1-p))` (`C96_value`).  That polynomial is not accurate: near `p = 0.0043`, the second
  sample of `test_qnorm_1`, the result is off by more than 0.01 where the test allows less than 1.2e-10.  The test fails (`C96_test_fails`).
* **C97** the histogram test of `rnorm` fails on the generated 64-bit library: at least 7779 samples fall into the last bucket, 7633 ± 125 are allowed (`C97_rnorm_fails`).  `C95_rnorm_passes` has an
  accurate `qnorm` as hypothesis, which the generated one is not.
* **C100** `test_acos2` fails at 64 bits (`C100_acos2_fails`): the sample x = -227/512 is a float; the generated `acos` returns 4571467534434522 / 2^51 there, more than
  5.5 * 2^-53 below arccos x, and the test allows 3 * 2^-53. The polynomial of `acos` has 34 terms, that of `asin` 36. This assumes that `round_ieee` leaves the sample as it is and that
  literals are rounded correctly (`KeepsNumber`, `v ≤ 1e-18`). The sample has nine digits, so floats written exactly or with 16 digits both keep it.
* **C101** `test_log_1` fails at 64 bits (`C101_log_1_fails`): `log(0.1, 10.0)` is -1 - 2^-52 at the first sample and the test allows 1.5 * 2^-53. `log2(10.0)` is rounded correctly; the last sum of
  `log2(0.1)` lies half way between two floats and goes the wrong way (`tenth_tie`). The conversions enter only near 0.1 and -1 (`KeepsNumber`), where both exact and 16-digit ones qualify.
* **C103** `test_acos` fails at 64 bits too (`C103_acos_fails`): at x = -315/512 the generated `acos` returns 5029348855142896 / 2^51, more than 6.4 * 2^-53 below arccos x, and the test allows
  6 * 2^-53. Assumed of the conversions: the sample stays as it is, and the reference value becomes a decimal within 0.45 * 2^-53 of a float (0 if floats are written exactly, 0.4 if with 16 digits).
  A conversion to `f64` that does not return the nearest float may behave differently; the decimal library is not part of the model.
* **C102** is about conversions that keep the samples (`KeepsGrid`), e.g. exact ones. A decimal library that prints an `f32` with 7 significant digits, as versions 0.2 of `bigdecimal` are believed
  to do (its source is not part of the repository), turns 511/512 = .998046875 into .9980469 and does not satisfy `KeepsGrid`. C102 says nothing about it; C99, whose `RoundsNear` asks only for a
  relative 1e-6, does cover 7 digits.
* **C104** `test_log2_1` fails at 64 bits (`C104_log2_1_fails`): at sample 71 the generated `log2` returns -3065209571897633 / 2^53, more than 1.67 * 2^-53 below the logarithm, and the test allows
  1.5 * 2^-53. Assumed of the conversions: the sample becomes a decimal within 2.23e-17 above its float and the reference value one within 0.12 * 2^-53 of a float, as with exact or 16-digit ones.
* **C109** `hypot(MIN_POSITIVE, -MIN_POSITIVE)` is the negative argument and `hypot(-MIN_POSITIVE, MIN_POSITIVE)` the positive one (`C109_hypot_swap_wrong`); above `MIN_POSITIVE` the order of the arguments does not matter (`C109_hypot_swap_partial`).
* **C52** `atan2(0, 0)` is NaN (`C52_atan2_origin`), so the origin is excluded.
* **C62** `gen_histogram` overwrites `max_err` in its loop, so only the error of the last bucket is checked (`C62_reports_last`): a generator
  that never leaves two buckets passes (`C62_not_the_maximum`).  NaN samples are counted in bucket 0 (`C62_nan_counted`).
* **C70** `err > max_err` is false for NaN, so a function that returns only NaN passes every accuracy test: `C70_nan_passes`.
* **C71** for 32 bits the unit is `2^-23`, twice the documented one (`C71_unit32_wrong`); for 64 bits it is right.
* **C73** `ONE_BITS` and `ONE_MASK` are declared `fty` with integer values (`C73_bit_constants_wrong`), so `log2` and `runif` do not
  type-check either; everything else does (`C73_types_iff_partial`).  With the two declared `uty`, only `runif` at 32 bits is left
  (`C73_repaired`).  With `--number-type hex` at 64 bits, or an unknown number type, no polynomial type-checks (`C73_hex64_untyped`,
  `C73_other_number_types_untyped`).
* **C40** unparsed tokens (`Expr::Verbatim`) push nothing, so the generator pops an empty stack or another text
  (`C40_verbatim_panics`, `C40_verbatim_history`); `mul_add` with one argument panics (`C40_mul_add_panics`).
* **C16** `parenthesise` wraps operands of operators but not receivers of methods, so the tree of `(a + b).sin()` prints as `a + b.sin()`
  (`C16_receiver_wrong`); literals with a sign print as two tokens (`C16_sign_wrong`).
* **C41** C's `&`, `^`, `|` bind looser than comparisons, Rust's tighter, and the generator adds no parentheses: `a & b == c` regroups
  (`C41_bits_wrong`).  `- -x` becomes `--x` (`C41_minus_wrong`, `C41_minus_literal_wrong`).  `if` becomes a bare `?:`, which swallows
  what is before it (`C41_if_wrong`).  The library escapes all three (`C41_library`); only the pair in `sin_cos` has no reading (`C41_sin_cos`).
* **C42** `bool` becomes `int`, ten scalar types (`usize`, `u8`, …) are left untranslated (`C42_types_iff_partial`); method calls never get
  the prefix, so they do not resolve to the functions generated beside them (`C42_methods`).
* **C77** nothing is written between a literal and the next token: `1 as f32` becomes `1as f32` (`C77_literal_joins`).
* **C78** `let x = e;` is printed as the assignment `x = e` and no declaration (`C78_untyped_let`); this hits `round`, `atan2`, `exp2`,
  `qnorm`, and `cbrt` declares `r` five times in one block (`C78_generated_iff_partial`).
* **C45** Each lane of a vectorised method computes the scalar function for the 26 functions of `vectorEntries` (`C45_generated_partial`).
  It is false in general: `-x as uty` regroups to `-x.cast::<u32>()` (`C45_cast_wrong`), functions other than seven stay free calls
  (`C45_free_call_wrong`), and a constant defined from another constant is copied without it (`C45_const_chain_wrong`).
* **C80** The other twelve functions (`sin`, `cos`, `tan`, `sin_cos`, `exp2`, `exp_m1`, `sqrt`, `recip`, `negate_on_odd`, `nextafter`,
  `runif`, `rnorm`) have type errors as methods, for every polynomial (`C80_others_wrong`): unresolved free calls such as `round(..)`,
  integers splatted into float vectors, tuples, and a local `const` of type `Self`.
* **C108** `tanh` and `asinh` are not odd: `tanh` is NaN at infinity but -1 at minus infinity (`C108_tanh_wrong`), and `asinh(-2^30)` is
  minus infinity while `asinh(2^30)` is finite (`C108_asinh_wrong`).
