{"id": "C01", "title": "Decimal rounding is nearest, ties away from zero", "statement": "Rounding a decimal number to n >= 0 fractional digits returns the multiple of 10^-n that is nearest to it; an exact tie goes to the neighbour further from zero; the result never carries more than n fractional digits. With n < 0 the number comes back unchanged.", "quantifier": "every decimal number (any integer mantissa, any scale) and every digit count", "why_tests_cant": "The tie and sign cases occur at infinitely many mantissas and scales; the test suite checks four numbers.", "anchors": ["doctor-syn/src/bdmath.rs: round"]}
{"id": "C02", "title": "Decimal rounding is idempotent, monotone and sign-symmetric", "statement": "round(round(x,n),n) = round(x,n); x <= y implies round(x,n) <= round(y,n); round(-x,n) = -round(x,n).", "quantifier": "every pair of decimals and every digit count", "why_tests_cant": "Order preservation relates every pair of inputs; tests see isolated points.", "anchors": ["doctor-syn/src/bdmath.rs: round"]}
{"id": "C03", "title": "Numbers survive the trip through an expression", "statement": "Turning a decimal number into an expression and reading the expression back as a decimal succeeds and gives the same numeric value; if the number had a non-negative scale even its digits (trailing zeros) are unchanged.", "quantifier": "every decimal number, of any sign, size and scale", "why_tests_cant": "The conversion goes through text with four different layouts (all fraction, split, integer, padded integer); only a proof covers all mantissa-length/scale combinations.", "anchors": ["doctor-syn/src/expression.rs: impl From<BigDecimal> for Expression", "doctor-syn/src/expression.rs: expr_to"]}
{"id": "C04", "title": "eval is exact on sums and differences", "statement": "Evaluating an expression built from numeric literals with +, binary -, unary - and parentheses succeeds and returns a literal whose value is exactly the rational value of the expression, whatever digit count is requested.", "quantifier": "every such expression tree of any depth, every digit count", "why_tests_cant": "Induction over unboundedly deep trees.", "anchors": ["doctor-syn/src/transformation/eval.rs: visit_binary, visit_unary, visit_paren", "doctor-syn/src/expression.rs: Expression::eval"]}
{"id": "C05", "title": "eval of products and quotients is correctly rounded and errors accumulate predictably", "statement": "For n >= 0 each * in an evaluated expression returns the exact product of its evaluated operands rounded to n fractional digits, and each / the quotient rounded likewise up to the 100-significant-digit division of the decimal library; hence for a tree of literals with + - * the result differs from the exact rational value by at most a bound computed from the tree.", "quantifier": "every arithmetic expression tree and every n >= 0", "why_tests_cant": "Error accumulation over arbitrary trees cannot be sampled.", "anchors": ["doctor-syn/src/transformation/eval.rs: visit_binary"]}
{"id": "C06", "title": "eval decides comparisons exactly", "statement": "Evaluating l < r, l > r, l <= r, l >= r, l == r, l != r whose operands evaluate to numbers returns the literal true exactly when the evaluated rational values stand in that relation, independent of how the numbers are written (1.0 == 1.00, 1e1 == 10).", "quantifier": "all operand pairs and all six operators", "why_tests_cant": "Infinitely many representations of the same value.", "anchors": ["doctor-syn/src/transformation/eval.rs: visit_binary"]}
{"id": "C07", "title": "eval never invents a value for a variable or an unknown operation", "statement": "If eval returns Ok, every name in the expression is PI, every method is one of the supported methods with the right number of arguments, and no unsupported construct, non-arithmetic operator, ! or * prefix occurs; otherwise eval returns an error (or panics), never a number.", "quantifier": "every expression", "why_tests_cant": "Quantifies over all positions of a bad node in all trees.", "anchors": ["doctor-syn/src/transformation/eval.rs: impl Visitor for Eval", "doctor-syn/src/visitor.rs: visit_expr_core"]}
{"id": "C08", "title": "eval returns a literal and evaluating again changes nothing", "statement": "When eval succeeds on an expression without field access, the result is a literal, and eval of the result is the result itself.", "quantifier": "every expression and digit count", "why_tests_cant": "Needs a case analysis over all trees.", "anchors": ["doctor-syn/src/transformation/eval.rs: impl Visitor for Eval", "doctor-syn/src/expression.rs: Expression::eval"]}
{"id": "C09", "title": "eval ignores parentheses", "statement": "Adding or removing redundant parentheses anywhere in an expression tree never changes the value eval returns, nor whether it succeeds.", "quantifier": "every pair of expressions that differ only in parentheses", "why_tests_cant": "All placements of parentheses in all trees.", "anchors": ["doctor-syn/src/transformation/eval.rs: visit_paren"]}
{"id": "C10", "title": "Substitution followed by evaluation is evaluation in an updated environment", "statement": "For every interpretation of the operators and names, the meaning of e.subst(vars) is the meaning of e in the environment where each listed name stands for the meaning of its replacement.", "quantifier": "every expression, variable list and interpretation", "why_tests_cant": "Compositionality over all trees and all environments.", "anchors": ["doctor-syn/src/transformation/subst.rs: Subst", "doctor-syn/src/expression.rs: Expression::subst"]}
{"id": "C11", "title": "Substitution is simultaneous, and untouched without a matching name", "statement": "Replacement text is inserted as is: names inside a replacement are not replaced again (so swapping x and y works), and an expression none of whose names are listed is returned unchanged.", "quantifier": "every expression and variable list", "why_tests_cant": "Capture and recursion errors only show on particular name patterns.", "anchors": ["doctor-syn/src/transformation/subst.rs: Subst"]}
{"id": "C12", "title": "Variable lists: earliest binding wins, positions are stable", "statement": "add_var returns the position at which the binding was stored (0,1,2,...); find returns the value of the earliest binding of the name, and nothing if the name was never added; adding a binding never changes what find returns for a name already bound.", "quantifier": "every sequence of add_var calls and every name", "why_tests_cant": "Histories of any length.", "anchors": ["doctor-syn/src/variablelist.rs: VariableList::new, add_var, find"]}
{"id": "C13", "title": "Transformations refuse exactly the expressions they do not understand", "statement": "subst, collect_terms, paren and use_number_type return UnsupportedExpr if and only if the expression contains a node outside unary, binary, method call, parenthesis, literal, path and field; they never drop or alter part of an unsupported expression silently.", "quantifier": "every expression", "why_tests_cant": "All positions of an unsupported node in all trees.", "anchors": ["doctor-syn/src/visitor.rs: Visitor"]}
{"id": "C14", "title": "collect_terms leaves expressions alone", "statement": "collect_terms returns its input unchanged on every supported expression, for every variable.", "quantifier": "every expression and variable", "why_tests_cant": "Universal over trees.", "anchors": ["doctor-syn/src/transformation/collect.rs: Collect", "doctor-syn/src/visitor.rs: Visitor"]}
{"id": "C15", "title": "paren only adds parentheses, and adding them twice changes nothing", "statement": "After paren() every operand of a binary or unary operator is not itself a bare operator; stripping parentheses gives back the stripped original; paren() of the result is the result.", "quantifier": "every supported expression", "why_tests_cant": "Universal over trees.", "anchors": ["doctor-syn/src/transformation/paren.rs: Paren"]}
{"id": "C16", "title": "A parenthesised expression prints as text that reads back as itself", "statement": "Printing e.paren() and parsing the printed tokens with Rust's precedence rules gives back e.paren() itself.", "quantifier": "every supported expression", "why_tests_cant": "Operator precedence interactions over all trees; only a proof about the printer and the grammar covers them.", "anchors": ["doctor-syn/src/transformation/paren.rs: Paren", "doctor-syn/src/expression.rs: impl Display for Expression"]}
{"id": "C17", "title": "expand preserves the value of the expression", "statement": "In every commutative ring and for every meaning of the names, methods and remaining operators, e.expand() has the same value as e.", "quantifier": "every expression, every commutative ring, every assignment", "why_tests_cant": "Sign bookkeeping in nested subtractions and products of sums has unboundedly many shapes.", "anchors": ["doctor-syn/src/transformation/expand.rs: match_sum, Expand", "doctor-syn/src/transformation/tools.rs: make_sum, negate, deparen"]}
{"id": "C18", "title": "expand multiplies out", "statement": "For an expression made of atoms, +, binary -, * and single parentheses, e.expand() is a left-nested sum/difference of products of atoms, whose signed terms in order are exactly those of the distributive law; the number of terms of a product is the product of the numbers of terms.", "quantifier": "every such expression", "why_tests_cant": "Order and count of terms for arbitrary nesting.", "anchors": ["doctor-syn/src/transformation/expand.rs: match_sum", "doctor-syn/src/transformation/tools.rs: make_sum"]}
{"id": "C19", "title": "expand never panics and fails only on ! and * prefixes or unsupported nodes outside operators", "statement": "expand() always returns; it returns an error exactly when, descending from the root through method calls, parentheses and fields, it meets a ! or * prefix operator or an unsupported node.", "quantifier": "every expression", "why_tests_cant": "Absence of an out-of-bounds access for every tree.", "anchors": ["doctor-syn/src/transformation/expand.rs: Expand", "doctor-syn/src/transformation/tools.rs: make_sum"]}
{"id": "C20", "title": "use_number_type touches only numeric literals", "statement": "Every node of the result other than the numeric literals is the corresponding node of the input; with a number type other than decimal/hex or a width other than 32/64 the expression is returned unchanged.", "quantifier": "every expression, number type string and width", "why_tests_cant": "Universal over trees and strings.", "anchors": ["doctor-syn/src/transformation/use_number_type.rs: UseNumberType"]}
{"id": "C21", "title": "Hexadecimal literals have the requested width", "statement": "With number type hex and width w in {32,64} each numeric literal becomes fw::from_bits(b) with b the w-bit pattern of the literal rounded to a w-bit float.", "quantifier": "every numeric literal, both widths", "why_tests_cant": "Universal over literals.", "anchors": ["doctor-syn/src/transformation/use_number_type.rs: visit_lit"]}
{"id": "C22", "title": "Operators on expressions mean what they say", "statement": "lhs op rhs for op in + - * / folds two numeric literals to the decimal result (exact for + - *), and for any other operands returns an expression whose value is the op of the operands' values.", "quantifier": "every pair of expressions and all four operators", "why_tests_cant": "Universal over operands.", "anchors": ["doctor-syn/src/expression.rs: make_op!, impl Add/Sub/Mul/Div for Expression"]}
{"id": "C23", "title": "Exponential is accurate to the requested digits", "statement": "exp(x) at n digits differs from the real exponential of x by less than 10^-n.", "quantifier": "every decimal x in a stated range and every n in a stated range", "why_tests_cant": "Continuum of inputs, transcendental reference value.", "anchors": ["doctor-syn/src/bdmath.rs: exp, maclaurin"]}
{"id": "C24", "title": "Sine and cosine are accurate to the requested digits", "statement": "sin(x) and cos(x) at n digits differ from the real sine/cosine by less than 10^-n.", "quantifier": "every decimal x in a stated range and every n in a stated range", "why_tests_cant": "Continuum of inputs.", "anchors": ["doctor-syn/src/bdmath.rs: sin, cos, maclaurin"]}
{"id": "C25", "title": "Arctangent is accurate for every argument", "statement": "atan(x) at n digits differs from the real arctangent by at most a small multiple of 10^-n, for arguments of any size.", "quantifier": "every decimal x", "why_tests_cant": "Recursive argument halving with unbounded arguments.", "anchors": ["doctor-syn/src/bdmath.rs: atan"]}
{"id": "C26", "title": "Arcsine and arccosine are accurate on [-1,1] and panic outside", "statement": "For |x| <= 1 asin and acos differ from the real functions by at most a small multiple of 10^-n; for |x| > 1 they panic rather than return a number.", "quantifier": "every decimal x", "why_tests_cant": "Continuum of inputs with a branch at 1/2.", "anchors": ["doctor-syn/src/bdmath.rs: asin, acos"]}
{"id": "C27", "title": "Natural logarithm: domain, termination and accuracy", "statement": "ln(x) returns no value exactly when x <= 0; for x > 0 it terminates and differs from the real logarithm by at most a bound proportional to 10^-n times the number of range reductions.", "quantifier": "every decimal x", "why_tests_cant": "Unbounded loop whose iteration count depends on the input.", "anchors": ["doctor-syn/src/bdmath.rs: ln"]}
{"id": "C28", "title": "log and pow are defined exactly on positive bases", "statement": "pow(x,y) and log(x,b) return no value when x <= 0 (or b <= 0), and otherwise are computed from ln and exp of the same digits as exp(y ln x) and ln x / ln b.", "quantifier": "all decimals", "why_tests_cant": "Universal.", "anchors": ["doctor-syn/src/bdmath.rs: pow, log", "doctor-syn/src/transformation/eval.rs: visit_method_call"]}
{"id": "C29", "title": "pi is correct to the requested digits", "statement": "For 0 <= n < 100, PI evaluated at n digits is within 0.5 * 10^-n (plus 10^-150) of the real number pi.", "quantifier": "every n in 0..99", "why_tests_cant": "Reference value is a real number, not a table.", "anchors": ["doctor-syn/src/bdmath.rs: pi", "doctor-syn/src/transformation/eval.rs: visit_path"]}
{"id": "C30", "title": "The series loop always stops", "statement": "Every series evaluation (sin, cos, exp, atan, ln, asin, erf) either returns or panics with a non-convergence message after at most 30002 counted steps; it never loops forever.", "quantifier": "every argument and digit count", "why_tests_cant": "Termination for all inputs.", "anchors": ["doctor-syn/src/bdmath.rs: maclaurin"]}
{"id": "C31", "title": "Odd functions are exactly odd, even functions exactly even", "statement": "sin, tan, atan, asin and erf satisfy f(-x) = -f(x) and cos satisfies f(-x) = f(x) exactly, digit for digit.", "quantifier": "every decimal x and digit count", "why_tests_cant": "Every input; relies on symmetric rounding everywhere.", "anchors": ["doctor-syn/src/bdmath.rs: sin, cos, tan, atan, asin, erf"]}
{"id": "C32", "title": "Normal density and error function follow their formulas", "statement": "erfc(x) = 1 - erf(x), pnorm(x) + pnorm(-x) = 1 for mean 0, erf is within a small multiple of 10^-n of the Gaussian integral.", "quantifier": "every decimal x in a stated range", "why_tests_cant": "Continuum of inputs.", "anchors": ["doctor-syn/src/bdmath.rs: erf, erfc, dnorm, pnorm"]}
{"id": "C33", "title": "A quantile that is returned really is a quantile", "statement": "When qnorm(p, mean, sd) returns q, pnorm at the value it converged to is within half a unit of the last requested digit of p and q is that value rounded; it returns no value exactly when p/(1-p) <= 0.", "quantifier": "every p, mean, sd and iteration count", "why_tests_cant": "Partial correctness of an unbounded Newton iteration.", "anchors": ["doctor-syn/src/bdmath.rs: qnorm"]}
{"id": "C34", "title": "round_ieee accepts only 32 and 64 bits", "statement": "round_ieee(x, bits) converts x to the nearest float of that width when bits is 32 or 64 and otherwise returns Expected32or64bits; values too large for the format give Overflow.", "quantifier": "every x and every bits value", "why_tests_cant": "Universal.", "anchors": ["doctor-syn/src/bdmath.rs: round_ieee"]}
{"id": "C35", "title": "Interpolation passes through every sample", "statement": "Polynomial::from_points followed by eval returns y_i at x_i when no division or rounding loses digits; in general the polynomial built is Newton's interpolant of the points.", "quantifier": "every number of points k >= 1, all pairwise distinct x", "why_tests_cant": "Any degree, any points.", "anchors": ["doctor-syn/src/polynomial.rs: divided_differences, from_points, eval"]}
{"id": "C36", "title": "Polynomial evaluation is the sum of its terms", "statement": "Polynomial::eval(x) equals t0 + t1 x + ... + t_{k-1} x^{k-1} exactly.", "quantifier": "every non-empty term list and every x", "why_tests_cant": "Any degree.", "anchors": ["doctor-syn/src/polynomial.rs: Polynomial::eval"]}
{"id": "C37", "title": "The emitted mul_add chain is the polynomial of the requested parity", "statement": "The expression emitted for terms t0..t_{k-1} has, under exact arithmetic, the value of the sum of t_i x^i over odd i, even i, or all i according to parity; the chain is an odd (even) function of x for odd (even) parity.", "quantifier": "every k, all coefficients, every x", "why_tests_cant": "Off-by-one in the strided index ranges depends on k.", "anchors": ["doctor-syn/src/transformation/approx.rs: mul_add_polynomial"]}
{"id": "C38", "title": "Term count must match parity", "statement": "Approximation returns WrongNumberOfTerms exactly when parity is odd and the number of terms is odd, or parity is even and the number of terms is even.", "quantifier": "every number of terms and parity", "why_tests_cant": "Universal over k.", "anchors": ["doctor-syn/src/transformation/approx.rs: mul_add_polynomial"]}
{"id": "C39", "title": "approx samples inside the interval starting exactly at its lower end and mentions only its variable", "statement": "approx evaluates the expression at exactly num_terms points, the first of which is xmin itself; the returned expression mentions no name other than the variable; it fails with the sample's error if any sample fails; fewer than two terms panics.", "quantifier": "every expression, interval, term count and parity", "why_tests_cant": "Universal over expressions and intervals.", "anchors": ["doctor-syn/src/transformation/approx.rs: approx"]}
{"id": "C40", "title": "The C generator's stack never under-runs and each construct yields its own text", "statement": "Translating any program made of the constructs to C never pops an empty stack, and the text produced for a construct is determined by the construct alone, not by what was translated before.", "quantifier": "every program tree", "why_tests_cant": "All nestings and all previous histories of the generator.", "anchors": ["doctor-syn/src/codegen/c.rs: CVisitor"]}
{"id": "C41", "title": "C output groups operators as the source did", "statement": "Reading the emitted C expression with C's precedence rules gives the operator tree of the source expression.", "quantifier": "every expression parsed from source text", "why_tests_cant": "Precedence interactions over all trees.", "anchors": ["doctor-syn/src/codegen/c.rs: visit_expr_binary, visit_expr_unary, visit_expr_cast, visit_bin_op"]}
{"id": "C42", "title": "C type names and prefixes are translated consistently", "statement": "Each Rust scalar type is printed as the C type of the same width; every called function name gets the configured prefix and so does every function definition, so that calls resolve.", "quantifier": "every type name, prefix and function", "why_tests_cant": "Universal over names.", "anchors": ["doctor-syn/src/codegen/c.rs: translate_basic_types, visit_expr_call, visit_signature"]}
{"id": "C43", "title": "The Rust formatter changes only white space", "statement": "The text returned by the formatter, with white space removed, is the concatenation of the input tokens with white space removed.", "quantifier": "every token stream", "why_tests_cant": "All token trees.", "anchors": ["doctor-syn/src/codegen/rust.rs: format_token_stream, append_token"]}
{"id": "C44", "title": "The Rust formatter fails only on braces nested more than 30 deep", "statement": "Formatting panics if and only if some brace group is nested inside 30 others (not counting braces inside parentheses or brackets).", "quantifier": "every token stream", "why_tests_cant": "Unbounded nesting.", "anchors": ["doctor-syn/src/codegen/rust.rs: indent, append_token"]}
{"id": "C45", "title": "Vectorised code computes the scalar function in every lane", "statement": "For a function body of lets and expressions, evaluating the vectorised body on vectors gives in each lane the scalar body evaluated on that lane.", "quantifier": "every body, every vector width, every input", "why_tests_cant": "All programs and widths.", "anchors": ["doctor-syn/src/codegen/portable_simd.rs: SimdVisitor"]}
{"id": "C46", "title": "Requested functions come with all their dependencies", "statement": "The generator's function list is exactly the set of table entries reachable from the requested names through dependency links without passing through an excluded name.", "quantifier": "every list of requested names, exclude list and dependency table", "why_tests_cant": "All graphs, including cyclic ones.", "anchors": ["libmgen/src/functions.rs: get_functions_and_deps"]}
{"id": "C47", "title": "The function list has no duplicates and follows table order", "statement": "No function appears twice, and functions appear in the order of the function table regardless of the order of the request; the computation terminates on every table.", "quantifier": "every request and table", "why_tests_cant": "All graphs.", "anchors": ["libmgen/src/functions.rs: get_functions_and_deps"]}
{"id": "C48", "title": "The request order does not matter", "statement": "Two requests naming the same set of functions (in any order, with repetitions) and the same exclusions produce the same list.", "quantifier": "every pair of equivalent requests", "why_tests_cant": "All permutations.", "anchors": ["libmgen/src/functions.rs: get_functions_and_deps"]}
{"id": "C49", "title": "Each generated function is self-contained", "statement": "For every function in the table, the code generated for it together with its listed dependencies defines every identifier the code uses.", "quantifier": "every entry of the function table", "why_tests_cant": "Finite but the suite never generates functions one at a time; a theorem over the whole table settles it.", "anchors": ["libmgen/src/functions.rs: FUNCTIONS"]}
{"id": "C50", "title": "Configured term counts never trip the parity check", "statement": "For every generator that approximates with a parity, the configured 32- and 64-bit term counts have the parity required, so generation never fails with WrongNumberOfTerms.", "quantifier": "every table entry and both widths", "why_tests_cant": "Couples a table with the approximation code.", "anchors": ["libmgen/src/functions.rs: FUNCTIONS", "libmgen/src/trig.rs", "libmgen/src/inv_trig.rs", "libmgen/src/stats_norm.rs"]}
{"id": "C51", "title": "Generated sine and cosine reduce their argument correctly", "statement": "With exact arithmetic and exact polynomials, the emitted sin/cos/tan code computes the sine/cosine/tangent of every real argument.", "quantifier": "every real argument", "why_tests_cant": "Continuum.", "anchors": ["libmgen/src/trig.rs: gen_sin, gen_cos, gen_tan"]}
{"id": "C52", "title": "Generated inverse trigonometric functions choose the right branch everywhere", "statement": "With exact arithmetic and exact inner polynomials, the emitted asin, acos, atan and atan2 compute the mathematical functions on their whole domains, atan2 in all four quadrants.", "quantifier": "every real argument (pair)", "why_tests_cant": "Continuum with branch boundaries.", "anchors": ["libmgen/src/inv_trig.rs: gen_asin, gen_acos, gen_atan, gen_atan2"]}
{"id": "C53", "title": "Generated exp2 scales by an exact power of two", "statement": "For every integer exponent in the normal range the bit pattern built by exp2 is the float 2^r; exp2 is finite for every argument whose true result is finite.", "quantifier": "every exponent, both widths", "why_tests_cant": "All exponents and widths at once.", "anchors": ["libmgen/src/log_exp.rs: gen_exp2", "libmgen/src/auxfuncs.rs: gen_EXP2_SCALE, gen_EXP2_ONE"]}
{"id": "C54", "title": "Generated log2 splits exponent and mantissa exactly", "statement": "For every positive normal float the emitted log2 separates it into exponent e and mantissa m in [1,2) with value m * 2^e, so that with an exact polynomial the result is log2 of the argument.", "quantifier": "every positive normal float of both widths", "why_tests_cant": "2^63 inputs.", "anchors": ["libmgen/src/log_exp.rs: gen_log2"]}
{"id": "C55", "title": "Newton refinements converge with the stated order", "statement": "The emitted recip, sqrt and cbrt refinement steps leave an error that is the stated power of the initial estimate's error.", "quantifier": "every positive argument and every initial estimate", "why_tests_cant": "Continuum.", "anchors": ["libmgen/src/recip_sqrt.rs: gen_recip, gen_sqrt, gen_cbrt"]}
{"id": "C56", "title": "hypot is non-negative and equals the Euclidean norm", "statement": "With exact arithmetic the emitted hypot(x,y) is sqrt(x^2+y^2) and never negative.", "quantifier": "every pair of reals", "why_tests_cant": "Continuum.", "anchors": ["libmgen/src/recip_sqrt.rs: gen_hypot"]}
{"id": "C57", "title": "Generated hyperbolic functions satisfy their definitions", "statement": "With exact exp2/ln the emitted sinh, cosh, tanh, asinh, acosh and atanh are the mathematical functions on their domains.", "quantifier": "every real argument in the domain", "why_tests_cant": "Continuum.", "anchors": ["libmgen/src/hyperbolic.rs"]}
{"id": "C58", "title": "Generated exponential and logarithm family is consistent", "statement": "With exact exp2/log2 the emitted exp, ln, log10, log, powf and powi are the mathematical functions.", "quantifier": "every real argument in the domain", "why_tests_cant": "Continuum.", "anchors": ["libmgen/src/log_exp.rs: gen_exp, gen_ln, gen_log10, gen_log, gen_powf, gen_powi"]}
{"id": "C59", "title": "Uniform random numbers stay in range", "statement": "runif(index,min,max) for 64-bit floats lies in [min,max) for every index.", "quantifier": "every 64-bit index", "why_tests_cant": "2^64 indices.", "anchors": ["libmgen/src/stats_random.rs: gen_runif"]}
{"id": "C60", "title": "negate_on_odd flips the sign exactly on odd integers", "statement": "negate_on_odd(x,y) returns -y if the integer part of x is odd and y otherwise.", "quantifier": "every integer-valued x in range and every float y", "why_tests_cant": "All bit patterns.", "anchors": ["libmgen/src/auxfuncs.rs: gen_negate_on_odd"]}
{"id": "C61", "title": "nextafter returns the adjacent float", "statement": "For a non-negative finite float, nextafter returns the least float greater than it.", "quantifier": "every non-negative finite bit pattern", "why_tests_cant": "2^63 inputs.", "anchors": ["libmgen/src/auxfuncs.rs: gen_nextafter"]}
{"id": "C62", "title": "The reported maximum error is the maximum", "statement": "The worst-case error reported by the generated histogram test is the largest error over the samples.", "quantifier": "every sequence of sampled errors", "why_tests_cant": "All sequences.", "anchors": ["libmgen/src/test.rs: gen_histogram"]}
{"id": "C63", "title": "pi beyond 100 digits uses Machin's formula correctly", "statement": "PI evaluated at n >= 100 digits is 4*(4*atan(1/5) - atan(1/239)) computed with the same series, and differs from the real pi by at most 20 times the series error.", "quantifier": "every n >= 100", "why_tests_cant": "Real reference value.", "anchors": ["doctor-syn/src/bdmath.rs: pi"]}
{"id": "C68", "title": "Generated bit constants fit the float format", "statement": "Each of the constants EXP2_ONE, EXP2_SCALE, EXP2_MIN, EXP2_MAX, LOG2_SHIFT, LOG2_OFFSET, ONE_BITS and ONE_MASK emitted for a bit width has the value its users need for that IEEE format (for example EXP2_ONE is bias * 2^mantissa bits).", "quantifier": "both bit widths, every environment the constants are used in", "why_tests_cant": "The literals are only ever used through bit tricks whose correctness depends on all inputs.", "anchors": ["libmgen/src/auxfuncs.rs: gen_bit_constants"]}
{"id": "C64", "title": "Tangent is accurate away from its poles", "statement": "tan(x) at n digits differs from the real tangent by at most 5/cos(x)^2 units of the n-th digit, whenever |cos x| is at least two such units.", "quantifier": "every decimal x with |x| <= B, every n with B+2 <= n <= 98-B", "why_tests_cant": "Real reference value, error amplified without bound near poles.", "anchors": ["doctor-syn/src/bdmath.rs: tan"]}
{"id": "C65", "title": "Logarithm to any base is accurate", "statement": "log(x, b) at n digits differs from the real logarithm of x to base b by at most 4*((1+5|ln x|) + |log_b x| (1+5|ln b|))/|ln b| units of the n-th digit.", "quantifier": "every x > 0, every base b > 0 other than 1 and not too close to it, 3 <= n <= 97", "why_tests_cant": "Real reference value, every base.", "anchors": ["doctor-syn/src/bdmath.rs: log"]}
{"id": "C66", "title": "Power is accurate", "statement": "pow(x, y) at n digits differs from the real power x^y by at most 1 + e^B |y| (1 + 5|ln x|) units of the n-th digit, where B bounds |y ln x|.", "quantifier": "every x > 0, every y, B+2 <= n <= 97-B", "why_tests_cant": "Real reference value, two unbounded arguments.", "anchors": ["doctor-syn/src/bdmath.rs: pow"]}
{"id": "C67", "title": "Evaluating a nested expression gives its real value within a computable error", "statement": "For every operator and method eval knows, if evaluating the operands gives numbers within known errors of real values, then evaluating the compound gives a number within a stated error of the real function of those values.", "quantifier": "every expression tree of numeric literals, arithmetic, parentheses, PI and the known methods, every digit count in range", "why_tests_cant": "Unbounded nesting; each method could be wired to the wrong function and most samples would not show it.", "anchors": ["doctor-syn/src/eval.rs", "doctor-syn/src/expression.rs: eval"]}
{"id": "C69", "title": "The generated numeric constants are the numbers they name", "statement": "PI, PI_BY_2, PI_BY_8, TAN_PI_BY_8, LOG2_E, RECIP_LOG2_E, RECIP_LOG2_10, RECIP_PI, RECIP_2PI and SQRT_RECIP_2PI in the generated code are literals within 60 units of the configured last digit (20 digits for 32 bits, 40 for 64) of the real numbers they name.", "quantifier": "both bit widths, every digit count from 10 to 90, every square root within its contract", "why_tests_cant": "Real reference values at 40 digits.", "anchors": ["libmgen/src/auxfuncs.rs: gen_PI .. gen_SQRT_RECIP_2PI"]}
{"id": "C70", "title": "The emitted accuracy test accepts exactly the functions within the limit", "statement": "The test generated for a function passes exactly when at every sample the absolute error against the reference (with its correction term) is at most the limit, and the row it reports has the largest error.", "quantifier": "every table of rows, every function under test (including ones returning infinities and NaN), every limit", "why_tests_cant": "It is a claim about the test harness itself: a harness that accepts wrong functions shows green.", "anchors": ["libmgen/src/auxfuncs.rs: test_function"]}
{"id": "C71", "title": "The accuracy unit is one last bit of 0.5..1", "statement": "As gen_max_abs documents, a limit of 1.0 corresponds to the distance between neighbouring floats in 0.5..1.", "quantifier": "both bit widths, every pair of neighbouring floats in [0.5, 1)", "why_tests_cant": "A too generous unit only makes tests pass.", "anchors": ["libmgen/src/test.rs: gen_max_abs"]}
{"id": "C72", "title": "The reference tables are right", "statement": "Sample i is min + i (max - min) / n up to a stated error; in every row (x, y, ye) the sum y + ye is exactly the value of the reference expression at the emitted x.", "quantifier": "every reference expression, range, number of samples, digit count and width", "why_tests_cant": "The tables are what the tests compare against.", "anchors": ["libmgen/src/test.rs: gen_max_abs"]}
{"id": "C73", "title": "The generated code type-checks", "statement": "Every item generated for the whole library satisfies Rust's typing rules: no mixing of number types without a cast, declared types match, no method call on a literal of undetermined type.", "quantifier": "every table entry, both widths, every number type, every polynomial and constant inserted", "why_tests_cant": "The repository's tests never compile the generated library; the inserted polynomials vary.", "anchors": ["libmgen/src/auxfuncs.rs", "libmgen/src/log_exp.rs: gen_log2", "libmgen/src/stats_random.rs: gen_runif", "doctor-syn/src/transformation/use_number_type.rs"]}
{"id": "C77", "title": "Formatted text reads back as the same tokens", "statement": "In the text returned by the formatter no two adjacent tokens run together into one.", "quantifier": "every token stream", "why_tests_cant": "All pairs of neighbouring tokens in all streams.", "anchors": ["doctor-syn/src/codegen/rust.rs: append_token"]}
{"id": "C78", "title": "Local variables are declared in the C output", "statement": "Every let of a function body becomes a C declaration of its variable, and no variable is declared twice in the same C block.", "quantifier": "every let statement; every function of the library", "why_tests_cant": "The C output is never compiled by the repository's tests.", "anchors": ["doctor-syn/src/codegen/c.rs: visit_local, visit_pat_type", "libmgen/src/recip_sqrt.rs: gen_cbrt", "libmgen/src/inv_trig.rs: gen_atan2"]}
{"id": "C79", "title": "When the vectoriser panics", "statement": "to_simd returns for a file unless a function has no parameters or an expression contains a call without arguments, a then-branch that is not one expression, or a cast to fty/ity/uty directly after a cast to another type; it always returns for the generated library.", "quantifier": "every file of items; every request list and polynomial", "why_tests_cant": "Unbounded expressions; the repository has no test of the vectoriser.", "anchors": ["doctor-syn/src/codegen/portable_simd.rs: to_simd, convert_call, deblock1, convert_cast"]}
{"id": "C80", "title": "The vectorised library type-checks", "statement": "Every method emitted for a library function is well typed over vectors: operators on equal vector types, masks only under select, splat of a literal of the element type, no free functions, result Self.", "quantifier": "every library function, both widths, every polynomial and set of constants (for failures)", "why_tests_cant": "The vectorised output is never compiled by the repository's tests.", "anchors": ["doctor-syn/src/codegen/portable_simd.rs", "libmgen/src/trig.rs: gen_sin", "libmgen/src/log_exp.rs: gen_exp2", "libmgen/src/stats_random.rs: gen_runif"]}
{"id": "C81", "title": "approx is close to its target on the whole interval", "statement": "When every sample can be evaluated to within eta and the target has num_terms derivatives on the interval (or is given by a power series that converges beyond it), approx returns, and the returned expression differs from the target at every point of the interval, not only at the samples, by at most an explicit bound: the interpolation error at Chebyshev points plus the effect of the decimals. For the polynomials the shipped program asks for: sin 2e-6 / 4e-19, cos 3e-7 / 5e-20, exp2 and exp_m1 2e-10 / 1e-17, log2 6e-7 / 3e-13, atan 4e-6 / 2e-12, asin 2e-4 / 6e-12, acos 2e-4 / 4e-11, tan 2e-6 / 6e-15, atan2 4e-12 / 5e-26 (32 / 64 bits).", "quantifier": "every target, interval no wider than 2, term count, digits 6..94 and parity; every point of the interval", "why_tests_cant": "The repository's tests compare at finitely many points of one function and one interval.", "anchors": ["doctor-syn/src/transformation/approx.rs: approx", "doctor-syn/src/polynomial.rs: from_points", "libmgen/src/trig.rs: gen_sin, gen_cos, gen_tan", "libmgen/src/log_exp.rs: gen_exp2, gen_exp_m1, gen_log2", "libmgen/src/inv_trig.rs: gen_asin, gen_acos, gen_atan, gen_atan2"]}
{"id": "C82", "title": "Accuracy of the generated functions from the expression to the result", "statement": "Take the polynomial that a generator splices into its function at the term count and digits of the shipped program, with coefficients rounded to float literals (relative error u, absolute error w), and the constants the program declares. Then the generated function, run in exact arithmetic, returns a number within an explicit bound of the true function: sin and cos for every argument whose turns the integer type counts, tan away from the poles, atan everywhere, asin and acos on [-1,1], atan2 at every point but the origin, exp2 and exp_m1 relative to the result, log2 of every positive normal float.", "quantifier": "both widths, every rounding of the coefficients with bounds u and w, every real argument in the stated range", "why_tests_cant": "The repository's tests sample the generated functions at finitely many points; the bound must hold at all of them, and it must not depend on luck in how coefficients round.", "anchors": ["doctor-syn/src/transformation/approx.rs: approx", "doctor-syn/src/transformation/use_number_type.rs", "libmgen/src/trig.rs", "libmgen/src/inv_trig.rs", "libmgen/src/log_exp.rs", "libmgen/src/functions.rs: FUNCTIONS", "libmgen/src/main.rs: main"]}
{"id": "C83", "title": "Accuracy of the generated functions in IEEE 754 arithmetic", "statement": "Run the generated functions with every operation rounded to the nearest float of the width, ties to even, with subnormals, infinities and NaN: literals, constants, the polynomial, casts and bit patterns. Then round returns a nearest integer for every float below 2^mant (up to half a unit in the last place just below one half), and the functions return a float within an explicit bound of the true function: the bound of the method (C82) plus a number of units in the last place fixed by the length of the polynomial, plus the rounding of the argument reduction, which grows with the argument.", "quantifier": "both widths, every rounding of the coefficients with bounds u and w, every argument in the stated range", "why_tests_cant": "The repository's tests run the generated functions at 256 points of one interval; the error of argument reduction and the rounding of each step must be bounded at all floats.", "anchors": ["libmgen/src/trig.rs", "libmgen/src/inv_trig.rs", "libmgen/src/log_exp.rs", "libmgen/src/auxfuncs.rs", "libmgen/src/main.rs: main"]}
{"id": "C74", "title": "The generated sqrt, recip and cbrt compute the root or the reciprocal", "statement": "With the generated starting estimate, the emitted sqrt(x), recip(x) and cbrt(x) are within a relative error of 1e-6 of the true function for every positive normal float x (either sign for recip and cbrt) when the steps are computed exactly, and within that plus a few units in the last place when every operation rounds to the nearest float.", "quantifier": "both widths, every normal float", "why_tests_cant": "The function table gives these three functions no accuracy tests, and the starting estimate is a map of bit patterns whose worst case lies inside each binade.", "anchors": ["libmgen/src/recip_sqrt.rs: gen_sqrt, gen_recip, gen_cbrt", "libmgen/src/auxfuncs.rs: gen_power_scale, gen_sqrt_approx, gen_recip_approx, gen_cbrt_approx"]}
{"id": "C75", "title": "The generated normal density, quantile and random numbers", "statement": "Given exact exp2 and constants, the emitted dnorm(x, mean, sigma) is the density of the normal distribution. With a polynomial within eps of q(x + 1/2)(x^2 - 1/4), the emitted qnorm(p, mean, sigma) is within eps |sigma| / (p (1 - p)) of mean + sigma q(p) for 0 < p < 1. rnorm(index, mean, sigma) is the quantile at a point of the interval on which the polynomial of qnorm is fitted.", "quantifier": "every argument, mean, nonzero sigma, every index, every quantile function q and polynomial", "why_tests_cant": "The table has no tests for these functions; the random numbers would have to be checked for all 2^64 indices.", "anchors": ["libmgen/src/stats_norm.rs: gen_dnorm, gen_qnorm, gen_rnorm", "libmgen/src/stats_random.rs: gen_runif"]}
{"id": "C84", "title": "The emitted Rust text is read as the program that was built", "statement": "Every expression of the generated library, scalar and vectorised, is read by Rust's grammar as the tree it was printed from (a literal with a sign as minus and a literal). The vectoriser keeps this for any file. What it makes of #expr.cast::<T>() is what that text is read as, and it panics only where the text is no expression. Polynomials are inserted without parentheses and nothing regroups, for all coefficients.", "quantifier": "every file that is itself read correctly, every request, width, polynomial and constant", "why_tests_cant": "A missing parenthesis changes the value only for some arguments, and the vectorised output is never compiled by the tests.", "anchors": ["libmgen/src: all quote! blocks", "doctor-syn/src/codegen/portable_simd.rs", "doctor-syn/src/polynomial.rs"]}
{"id": "C86", "title": "A run of libmgen writes the library asked for and nothing else", "statement": "For a request in a language with a back end, libmgen writes the text of the chosen functions in table order (then the tests, if asked for), and nothing else, to the file given with -o or to standard output. Everything else it has to say goes to standard error. Unknown names, repetitions and the order of names change nothing; every option has an effect.", "quantifier": "every function table, all options, all generators and back ends", "why_tests_cant": "No test runs the program; which messages mix with the output depends on the request, the exclusions and the dependency table.", "anchors": ["libmgen/src/main.rs:348-440", "libmgen/src/config.rs", "libmgen/src/functions.rs:25-50"]}
{"id": "C87", "title": "The generated library has exactly one meaning", "statement": "The functions of a complete generated library (for instance for the request `all`) call each other without recursion and only functions of the library, so exactly one assignment of meanings makes every function compute what its body says. At most four functions are active at a time. The inserted polynomials call nothing and use no identifier but their variable.", "quantifier": "both widths, every request whose output defines what it uses, all polynomials and constants made by the generators, exact and IEEE arithmetic", "why_tests_cant": "A missing or recursive call shows only when the generated text is compiled or run for the right arguments; no test compiles the library for every request.", "anchors": ["libmgen/src/functions.rs:25-50", "libmgen/src/log_exp.rs", "libmgen/src/hyperbolic.rs", "libmgen/src/trig.rs", "libmgen/src/stats_norm.rs", "doctor-syn/src/approx.rs:14-69", "doctor-syn/src/transformation/use_number_type.rs"]}
{"id": "C76", "title": "exp, log and the functions built on them, for every float", "statement": "As shipped, compiled and run in IEEE arithmetic, exp2, exp, log2, ln, log10, log, powf, powi, sinh, cosh, tanh, asinh, acosh and atanh return for every float argument, infinities included, a value within a stated small error of the mathematical one, and an infinity or NaN only where the mathematical value is infinite, too large, or undefined.", "quantifier": "both widths, every float argument, every inserted polynomial the generators can produce within the stated accuracy of the conversion", "why_tests_cant": "The tests sample a few hundred arguments in a small interval; overflow, subnormals, infinities and cancellation at negative arguments lie outside it.", "anchors": ["libmgen/src/log_exp.rs", "libmgen/src/hyperbolic.rs", "doctor-syn/src/approx.rs:14-69"]}
{"id": "C88", "title": "NaN and the infinities as arguments", "statement": "In the generated library, run in IEEE arithmetic, a NaN in any argument of a function gives a NaN. An infinite argument gives the limit of the function there, or a NaN where there is none.", "quantifier": "both widths, every function of the library except ln_1p, qnorm, pnorm, runif and rnorm, every inserted polynomial the generators can produce", "why_tests_cant": "The emitted tests compare finite arguments only, and a NaN error passes them (C70). Which comparison or bit operation loses a NaN depends on the body of each function.", "anchors": ["libmgen/src/log_exp.rs", "libmgen/src/trig.rs", "libmgen/src/inv_trig.rs", "libmgen/src/hyperbolic.rs", "libmgen/src/recip_sqrt.rs", "libmgen/src/stats_norm.rs: gen_dnorm", "libmgen/src/auxfuncs.rs:340-420"]}
{"id": "C85", "title": "The C file compiles", "statement": "The C file that libmgen writes for a request is accepted by a C compiler: every type, constant, function and variable is declared, once and before its use, by the file or by <math.h>; operators get operands of types they allow; functions get as many arguments as they take; constants at file level have constant initialisers.", "quantifier": "every request, both widths, every polynomial and constant value inserted, decimal and hexadecimal numbers", "why_tests_cant": "The repository has no test of the C back end; each of the about 2^60 sets of functions gives another file, with any coefficients in it.", "anchors": ["doctor-syn/src/codegen/c.rs: to_c, visit_local, visit_expr_method_call, visit_expr_call", "libmgen/src/functions.rs: FUNCTIONS", "libmgen/src/auxfuncs.rs", "libmgen/src/config.rs: prefix, float_suffix"]}
{"id": "C89", "title": "The quantile iteration ends", "statement": "qnorm(p, mean, sd) returns, and its result is the quantile: the normal distribution function takes it back to p up to one unit of the last requested digit, and it is within 5200 units of the last digit of the true quantile.", "quantifier": "every p between 0.00006 and 0.99994, every requested number of digits from 20 to 80, mean 0 and standard deviation 1, every square root function of 98 correct digits", "why_tests_cant": "The Newton loop has no bound on its passes and leaves only when a computed value agrees to the last digit; whether rounding can make it run for ever cannot be seen from finitely many probabilities.", "anchors": ["doctor-syn/src/bdmath.rs:367-395 qnorm", "doctor-syn/src/bdmath.rs:338-360 dnorm, pnorm", "doctor-syn/src/transformation/eval.rs:146-149"]}
{"id": "C90", "title": "The reference tables of the accuracy tests are right", "statement": "For every accuracy test of the library, at 32 and at 64 bits, every row of its reference table can be computed (the generator does not stop), its sample lies within 2e-5 of the equidistant point of the intended interval, and reference value plus correction term equal the intended function at the written sample up to 5200 units of the last of 20 (64 bits: 40) digits, which is less than a millionth of the limit the test applies. All three numbers are written as float literals with a decimal point.", "quantifier": "all 32 accuracy tests with all their 237 or 1024 samples, both widths, every conversion between decimals and floats that loses at most a millionth of a value and something below 1e-37, every square root function of 98 correct digits", "why_tests_cant": "The tables are what the library's own tests trust: a wrong reference row makes a correct function fail or a wrong one pass, and nothing checks the tables. Whether a row can be made at all depends on unbounded loops and on conversions the generator does not control.", "anchors": ["libmgen/src/test.rs:12-84 gen_max_abs", "libmgen/src/functions.rs:52-824 test_specs", "doctor-syn/src/transformation/eval.rs", "doctor-syn/src/bdmath.rs"]}
{"id": "C91", "title": "The generated tests type-check", "statement": "In every output with tests, the part of each test function that comes from its specification (the closure of an accuracy test; the sample and the density of a histogram test) type-checks against the functions of the same output. Test functions have distinct names, different from every generated function, and each belongs to a function of the table.", "quantifier": "all requests, both widths, all polynomials and constants inserted by the generators", "why_tests_cant": "Which functions are present depends on the request; a test that names an absent function or mixes widths only shows when that request is compiled.", "anchors": ["libmgen/src/test.rs:68-131", "libmgen/src/main.rs:378-385", "libmgen/src/functions.rs:25-50 get_functions_and_deps", "libmgen/src/functions.rs:52-824 test_specs"]}
{"id": "C92", "title": "What a passing accuracy test says in float arithmetic", "statement": "For every accuracy test of the library, at both widths and with every operation of the test rounded: a function that passes is, at every sample, within the limit of the true value of the intended function, up to half a unit in the last place of that value plus a hundredth of a unit; and a function that is within the limit by that margin at every sample passes.", "quantifier": "all 32 accuracy tests with all their samples, both widths, every function under test (any float result at any sample, including infinities), every conversion and square root allowed in C90", "why_tests_cant": "It is a statement about the tests themselves: how far the rounding in the test harness and in its reference tables can move the verdict, for every possible function under test.", "anchors": ["libmgen/src/auxfuncs.rs:445-477 test_function", "libmgen/src/test.rs:12-84 gen_max_abs", "libmgen/src/functions.rs:52-824 test_specs"]}
{"id": "C93", "title": "runif stays in its range in float arithmetic", "statement": "With 64-bit floats and every operation rounded, runif(index, min, max) is u*(max-min)+min for the exact 52-bit fraction u of the hashed index, and lies in min <= y < max.", "quantifier": "all indices 0..2^64-1, all float bounds min <= max whose magnitude is at most 2^1022", "why_tests_cant": "The range depends on how three roundings fall for 2^64 indices and every pair of floats; the histogram test draws 10^6 samples at min = 0, max = 1.", "anchors": ["libmgen/src/stats_random.rs:5-24 gen_runif"]}
{"id": "C94", "title": "The histogram test of runif", "statement": "The histogram test generated for runif passes on the generated runif, and passing means that every one of the 32 bucket densities is within 1/1000 of the density.", "quantifier": "the one million samples of the test, all 32 buckets; each sample is the value of the generated function in float arithmetic for every library it is linked with", "why_tests_cant": "It is about what the test itself looks at: running it shows only that it passes.", "anchors": ["libmgen/src/test.rs:86-130 gen_histogram", "libmgen/src/stats_random.rs:5-24 gen_runif", "libmgen/src/functions.rs:595-608 test_runif"]}
{"id": "C95", "title": "The histogram test of rnorm", "statement": "The histogram test generated for rnorm passes on the generated rnorm when the qnorm it calls is accurate, and passing means that every one of the 32 bucket densities is within 1/1000 of the normal density.", "quantifier": "the one million samples of the test, every qnorm that is within 1e-4 of the quantile between 0.001 and 0.999 and beyond +-2 outside, every density right to 1e-5 at the middles of two buckets, all roundings of rnorm and runif", "why_tests_cant": "It is about what the test itself looks at, and for every implementation of qnorm that meets the bound.", "anchors": ["libmgen/src/test.rs:86-130 gen_histogram", "libmgen/src/stats_norm.rs:28-38 gen_rnorm", "libmgen/src/functions.rs:656-669 test_rnorm"]}
{"id": "C96", "title": "The generated 64-bit qnorm meets the limit of its test", "statement": "In 64-bit float arithmetic the generated qnorm(p, 0, 1) is the normal quantile up to the limit that test_qnorm_1 sets (1e6 units of 2^-53), so the test passes on it.", "quantifier": "all p in the 237 samples of the test; every library that converts literals with relative error at most 1e-15 and computes the samples of the polynomial with the given digits", "why_tests_cant": "The value depends on an interpolation in 32 points of a function with a logarithmic singularity, computed by big decimals, then on every rounding of the generated code.", "anchors": ["libmgen/src/stats_norm.rs:39-75 gen_qnorm", "libmgen/src/functions.rs:633-655 test_qnorm_1", "doctor-syn/src/transformation/approx.rs"]}
{"id": "C97", "title": "The histogram test of rnorm on the whole generated library", "statement": "The histogram test of rnorm passes when rnorm calls the generated 64-bit runif and qnorm.", "quantifier": "the one million samples of the test, every density right to 1e-5, all roundings of the three functions, every library with literals converted to 1e-15", "why_tests_cant": "It is about all libraries that the generator may emit for these settings, and the size of the margin.", "anchors": ["libmgen/src/stats_norm.rs:28-75", "libmgen/src/test.rs:86-130 gen_histogram", "libmgen/src/functions.rs:656-669 test_rnorm"]}
{"id": "C98", "title": "The distance of the polynomials from their targets is known to a fifth", "statement": "For the polynomials that the shipped program asks for, the largest distance between the returned expression and its target on the interval lies between these bounds (32 bits; 64 bits): sin 188e-9..194e-9; 187e-22..189e-22, cos 210e-10..219e-10; 112e-23..115e-23, tan 397e-12..419e-12; 261e-21..270e-21, log2 130e-10..152e-10; 144e-18..169e-18, atan 747e-10..867e-10; 760e-18..889e-18, asin 122e-10..143e-10; 846e-19..986e-19, acos 122e-10..143e-10; 536e-18..625e-18.", "quantifier": "every point of the interval for the upper bounds, one point of the interval for the lower bounds; every library whose sqrt has the asked digits", "why_tests_cant": "A test sees the distance at its samples only, and mixes it with the roundings of the float arithmetic.", "anchors": ["doctor-syn/src/transformation/approx.rs: approx", "libmgen/src/trig.rs: gen_sin, gen_cos, gen_tan", "libmgen/src/log_exp.rs: gen_log2", "libmgen/src/inv_trig.rs: gen_asin, gen_acos, gen_atan"]}
{"id": "C99", "title": "Accuracy tests that the generated 32-bit library passes", "statement": "Generate the library for 32 bits with all functions. The generated accuracy tests test_asin, test_log2_1, test_log2_2, test_ln_1, test_ln_2, test_log10_2, test_log_2, test_exp2_1, test_exp2_2, test_exp_1, test_exp_3, test_exp_m1_1, test_exp_m1_2 and test_dnorm_1 pass: at every sample the absolute difference, as computed in float arithmetic, between the reference value and the generated function is at most the limit of the test.", "quantifier": "every sample of the tests, all roundings of the generated code and of the test, every library whose literals are the floats next to decimals within 1e-12 of the exact ones, every decimal arithmetic whose square roots and conversions are right", "why_tests_cant": "Running the tests shows the result for one compiler and one version of the decimal library; most limits are 1 to 2 times 2^-23, so a small change of a literal may break them.", "anchors": ["libmgen/src/functions.rs:345-560 (the listed tests)", "libmgen/src/test.rs:12-85 gen_max_abs", "libmgen/src/log_exp.rs: gen_log2, gen_ln, gen_log10, gen_log, gen_exp2, gen_exp, gen_exp_m1", "libmgen/src/inv_trig.rs: gen_asin", "libmgen/src/stats_norm.rs: gen_dnorm"]}
{"id": "C100", "title": "The generated 64-bit acos passes its accuracy test test_acos2", "statement": "Generate the library for 64 bits with all functions. The generated accuracy test test_acos2, which compares acos with the reference value at 1024 samples of [-0.5, 0.5] and allows an absolute error of 3 * 2^-53, passes.", "quantifier": "all samples of the test, all roundings of the generated code and of the test, every library whose literals are the floats next to decimals within 1e-18 of the exact ones, every decimal arithmetic whose square roots and conversions are right", "why_tests_cant": "Running the test shows one result for one compiler and one version of the decimal library. Whether the polynomial itself, the literals or the roundings are to blame cannot be seen from it.", "anchors": ["libmgen/src/functions.rs: test_acos2", "libmgen/src/test.rs:12-85 gen_max_abs", "libmgen/src/inv_trig.rs: gen_acos"]}
{"id": "C101", "title": "The generated 64-bit log passes its accuracy test test_log_1", "statement": "Generate the library for 64 bits with all functions. The generated accuracy test test_log_1, which compares log(x, 10.0) with the common logarithm at 237 samples of [0.1, 1.0] and allows an absolute error of 1.5 * 2^-53, passes.", "quantifier": "all samples of the test, all roundings of the generated code and of the test, every library whose literals are the floats next to decimals within 1e-18 of the exact ones, every decimal arithmetic whose square roots are right and whose conversions of numbers near 0.1 and -1 are exact or go through 16 digits", "why_tests_cant": "The test is this claim at 237 points for one compiler. It does not tell whether another rounding of a literal, another decimal library or a fused step changes the verdict; here the verdict is the same for all of them.", "anchors": ["libmgen/src/functions.rs: test_log_1", "libmgen/src/test.rs:12-85 gen_max_abs", "libmgen/src/log_exp.rs: gen_log, gen_log2"]}
{"id": "C102", "title": "The generated 32-bit asin and acos pass their accuracy tests on [-1, 1]", "statement": "Generate the library for 32 bits with all functions. The generated accuracy tests test_asin2 and test_acos, which compare asin and acos with the reference value at 1024 samples of [-1, 1] and allow an absolute error of 6 * 2^-23, both pass.", "quantifier": "all samples of the tests, all roundings of the generated code and of the tests, every library whose literals are the floats next to decimals within 1e-12 of the exact ones, every decimal arithmetic whose square roots and conversions are right and whose conversion to 32 bits keeps the multiples of 1/512 up to 2e-19", "why_tests_cant": "Running the tests shows one result for one compiler and one version of the decimal library. Near -1 the arc sine is so steep that a sample off by a few units in the last place would make the test fail, which no single run reveals.", "anchors": ["libmgen/src/functions.rs: test_asin2, test_acos", "libmgen/src/test.rs:12-85 gen_max_abs", "libmgen/src/inv_trig.rs:85-145 gen_asin, gen_acos"]}
{"id": "C103", "title": "The generated 64-bit acos fails its accuracy test on [-1, 1]", "statement": "Generate the library for 64 bits with all functions. The generated accuracy test test_acos, which compares acos with the reference value at 1024 samples of [-1, 1] and allows an absolute error of 6 * 2^-53, fails: at x = -315/512 the result is off by more than 6.4 * 2^-53.", "quantifier": "every library whose literals are the floats next to decimals within 1e-18 of the exact ones, every decimal arithmetic whose square roots are right and whose conversion to 64 bits keeps -315/512 and writes the float next to arccos(-315/512) with an error of at most 0.45 * 2^-53", "why_tests_cant": "A run of the test reports a failure for one version of the decimal library and one compiler. That the polynomial of acos itself is too short for the limit, so that the test fails for every such library, does not follow from it.", "anchors": ["libmgen/src/functions.rs: test_acos", "libmgen/src/test.rs:12-85 gen_max_abs", "libmgen/src/inv_trig.rs:114-141 gen_acos"]}
{"id": "C104", "title": "The generated 64-bit log2 fails its first accuracy test", "statement": "Generate the library for 64 bits with all functions. The generated accuracy test test_log2_1, which compares log2 with the reference value at 237 samples of [0.7, 1] and allows an absolute error of 1.5 * 2^-53, fails: at sample 71, next to 0.78987, the result is off by more than 1.67 * 2^-53.", "quantifier": "every library whose literals are the floats next to decimals within 1e-18 of the exact ones, every decimal arithmetic whose square roots are right and whose conversion to 64 bits moves the sample by at most 2.23e-17 and writes the float next to its logarithm with an error of at most 0.12 * 2^-53", "why_tests_cant": "A run of the test reports a failure for one version of the decimal library and one compiler. That the rounding of the generated code itself exceeds the limit, so that the test fails for all of them, does not follow from it.", "anchors": ["libmgen/src/functions.rs: test_log2_1", "libmgen/src/test.rs:12-85 gen_max_abs", "libmgen/src/log_exp.rs:112-148 gen_log2"]}
{"id": "C105", "title": "The generated 64-bit asin passes its accuracy test on [-1, 1]", "statement": "Generate the library for 64 bits with all functions. The generated accuracy test test_asin2, which compares asin with the reference value at 1024 samples of [-1, 1] and allows an absolute error of 6 * 2^-53, passes.", "quantifier": "all samples of the test, all roundings of the generated code and of the test, every library whose literals are the floats next to decimals within 1e-18 of the exact ones, every decimal arithmetic whose square roots and conversions are right and whose conversion to 64 bits keeps the multiples of 1/1024 up to 1e-39", "why_tests_cant": "The test itself is one run with one decimal library. That it passes for all correct ones needs bounds of every rounding error; they add up to 5.97 of the 6 units allowed.", "anchors": ["libmgen/src/functions.rs: test_asin2", "libmgen/src/test.rs:12-85 gen_max_abs", "libmgen/src/inv_trig.rs:81-112 gen_asin"]}
{"id": "C106", "title": "Over all indices runif takes every value equally often", "statement": "Call the generated 64-bit runif(i, 0.0, 1.0) once for each of the 2^64 indices i. The results are numbers k / 2^52 with k < 2^52, and every such number is the result for exactly 2^12 indices.", "quantifier": "all 2^64 indices, all 2^52 results, in float arithmetic", "why_tests_cant": "The statement counts over 2^64 calls, which no run can make; it rests on every step of the mixing function being invertible.", "anchors": ["libmgen/src/stats_random.rs:5-18 gen_runif"]}
{"id": "C107", "title": "The emitted code of an odd (even) polynomial is exactly odd (even) in float arithmetic", "statement": "Let e be the code emitted for a coefficient list with odd (even) parity and then converted to f32 or f64. Evaluated in IEEE 754 arithmetic, with every operation rounded, e at -x is exactly the negative of (exactly equal to) e at x, for every float x, also when x is infinite or NaN and when a step overflows.", "quantifier": "every coefficient list with coefficients of size at most 10^30, both widths, every float x", "why_tests_cant": "Rounding could break the symmetry at single arguments only, and the coefficient list is arbitrary.", "anchors": ["doctor-syn/src/transformation/approx.rs: mul_add_polynomial", "doctor-syn/src/transformation/use_number_type.rs"]}
{"id": "C108", "title": "The generated functions have the symmetries of the functions they approximate, exactly", "statement": "In IEEE 754 arithmetic the generated round, sin, tan, asin, atan, sinh and atanh satisfy f(-x) = -f(x) and the generated cos and cosh satisfy f(-x) = f(x), exactly and for every float x, including floats too large for an accurate reduction, the infinities and NaN. The same is expected of tanh and asinh.", "quantifier": "both widths, every rounding of the coefficients with bounds u and w, every float x", "why_tests_cant": "A rounding or saturation that treats the two signs differently can show at single floats only; the integer type used by round has one more negative value than positive ones.", "anchors": ["libmgen/src/auxfuncs.rs: gen_round", "libmgen/src/trig.rs: gen_sin, gen_cos, gen_tan", "libmgen/src/inv_trig.rs: gen_asin, gen_atan", "libmgen/src/hyperbolic.rs: gen_sinh, gen_cosh, gen_tanh, gen_asinh, gen_atanh"]}
{"id": "C109", "title": "The generated hypot is accurate in float arithmetic and does not depend on the order of its arguments", "statement": "In IEEE 754 arithmetic the generated hypot(x, y) is a positive float within 5*2^-p relative of sqrt(x^2 + y^2), where p is the precision, for all finite x and y, one of which exceeds the smallest normal number in size, whose norm is at most a half of the largest power of two: no square overflows or vanishes on the way. hypot(x, y) = hypot(y, x) exactly for all finite x and y.", "quantifier": "both widths, all finite x and y in the stated range", "why_tests_cant": "There are 2^64 or 2^128 pairs; an overflow or underflow of a square shows only at extreme ratios.", "anchors": ["libmgen/src/recip_sqrt.rs:78-89 gen_hypot"]}
{"id": "C110", "title": "The generated recip and cbrt are exactly odd", "statement": "In IEEE 754 arithmetic the generated recip and cbrt satisfy f(-x) = -f(x) exactly for every float x other than zero, including subnormal numbers, for which the result is inaccurate, the infinities and NaN.", "quantifier": "both widths, every float x other than zero", "why_tests_cant": "The seed is computed from the bit pattern, in which the sign is one bit of 32 or 64; a leak of the sign into the seed may show at some floats only.", "anchors": ["libmgen/src/recip_sqrt.rs:28-76 gen_cbrt, gen_recip", "libmgen/src/auxfuncs.rs:355-378 gen_power_scale, gen_recip_approx"]}
