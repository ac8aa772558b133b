import Verif.Model.Round
import Verif.Model.DecText

/-!
# `doctor-syn/src/bdmath.rs`

Operations of the `bigdecimal` crate that are not modelled concretely are fields of `BdExt`; `fuel` says how many
turns of an unbounded Rust loop (or levels of an unbounded recursion) are followed before the model answers
`diverge`.
-/

namespace Verif

/-- Unmodelled external operations. -/
structure BdExt where
  /-- `BigDecimal::sqrt`. -/
  sqrt : Dec → Option Dec
  /-- `BigDecimal::inverse`. -/
  inverse : Dec → Dec
  /-- `to_f32` / `from_f32`, floats as bit patterns. -/
  toF32 : Dec → Option Nat
  fromF32 : Nat → Option Dec
  /-- `to_f64` / `from_f64`. -/
  toF64 : Dec → Option Nat
  fromF64 : Nat → Option Dec
  /-- Bound on unbounded loops. -/
  fuel : Nat

namespace Bd

/-- The closure passed to `maclaurin`, with its captured state: `f(i, &tot, &power, &factorial)`. -/
abbrev Closure (σ : Type) := σ → Nat → Dec → Dec → Dec → Res (Option Dec × σ)

/-- The loop of `maclaurin`, `bdmath.rs:136-157`.  `fuel` counts loop turns. -/
def maclaurinLoop {σ : Type} (x : Dec) (n : Int) (f : Closure σ) :
    Nat → σ → Nat → Dec → Dec → Dec → Res Dec
  | 0, _, _, _, _, _ => .diverge
  | fuel + 1, s, i, tot, power, factorial => do
    let r ← f s i tot power factorial
    match r.1 with
    | some newTot =>
      let newTot := round newTot (n * 2)
      if Dec.beq newTot tot then pure tot
      else if 30000 < i then .panic
      else maclaurinLoop x n f fuel r.2 (i + 1) newTot (round (power * x) (n * 2)) (factorial * Dec.ofInt ((i : Int) + 1))
    | none => maclaurinLoop x n f fuel r.2 (i + 1) tot (round (power * x) (n * 2)) (factorial * Dec.ofInt ((i : Int) + 1))

/-- Loop turns the model follows; enough because of the guard `i > imax` (see `C30`). -/
def loopTurns : Nat := 30003

/-- `maclaurin`, `bdmath.rs:124-160`. -/
def maclaurin {σ : Type} (x : Dec) (n : Int) (f : Closure σ) (s : σ) : Res Dec := do
  let tot ← maclaurinLoop x n f loopTurns s 0 Dec.zero Dec.one Dec.one
  pure (round tot (n + 1)).normalized

/-- Closure of `sin`, `bdmath.rs:163-167`. -/
def sinTerm : Closure Unit := fun s i tot power factorial =>
  match i % 4 with
  | 1 => do let q ← Dec.div power factorial; pure (some (tot + q), s)
  | 3 => do let q ← Dec.div power factorial; pure (some (tot - q), s)
  | _ => pure (none, s)

/-- `sin`, `bdmath.rs:162-168`. -/
def sin (x : Dec) (n : Int) : Res Dec := maclaurin x n sinTerm ()

/-- Closure of `cos`, `bdmath.rs:171-175`. -/
def cosTerm : Closure Unit := fun s i tot power factorial =>
  match i % 4 with
  | 0 => do let q ← Dec.div power factorial; pure (some (tot + q), s)
  | 2 => do let q ← Dec.div power factorial; pure (some (tot - q), s)
  | _ => pure (none, s)

/-- `cos`, `bdmath.rs:170-176`. -/
def cos (x : Dec) (n : Int) : Res Dec := maclaurin x n cosTerm ()

/-- Closure of `exp`, `bdmath.rs:179-181`. -/
def expTerm : Closure Unit := fun s _ tot power factorial => do
  let q ← Dec.div power factorial
  pure (some (tot + q), s)

/-- `exp`, `bdmath.rs:178-182`. -/
def exp (x : Dec) (n : Int) : Res Dec := maclaurin x n expTerm ()

/-- `tan`, `bdmath.rs:184-186`. -/
def tan (x : Dec) (n : Int) : Res Dec := do
  let s ← sin x n
  let c ← cos x n
  Dec.div s c

/-- Closure of `atan`, `bdmath.rs:225-232`. -/
def atanTerm : Closure Unit := fun s i tot power _ =>
  if i % 2 ≠ 0 then do
    let z := Dec.ofInt (if i / 2 % 2 ≠ 0 then -(i : Int) else i)
    let q ← Dec.div power z
    pure (some (tot + q), s)
  else pure (none, s)

/-- `atan`, `bdmath.rs:215-234`; the argument `fuel` bounds the recursion. -/
def atanRec (ext : BdExt) (n : Int) : Nat → Dec → Res Dec
  | 0, _ => .diverge
  | fuel + 1, x =>
    if Dec.lt Dec.half x.abs then do
      let r ← Res.unwrapOpt (ext.sqrt (Dec.one + x * x))
      let y ← Dec.div x (Dec.one + r)
      let a ← atanRec ext n fuel y
      pure (a * Dec.two)
    else maclaurin x n atanTerm ()

/-- `atan`, `bdmath.rs:215-234`. -/
def atan (ext : BdExt) (x : Dec) (n : Int) : Res Dec := atanRec ext n ext.fuel x

/-- The decimal expansion on `bdmath.rs:56`. -/
def piText : List Char :=
  "3.141592653589793238462643383279502884197169399375105820974944592307816406286208998628034825342117067982148086513282306647093844609550582231725359408128481".toList

/-- `pi`, `bdmath.rs:54-63`. -/
def pi (ext : BdExt) (n : Int) : Res Dec :=
  if n < 100 then do
    let x ← Res.unwrapOpt (parseDec piText)
    pure (round x n)
  else do
    let q5 ← Dec.div Dec.one (Dec.ofInt 5)
    let a5 ← atan ext q5 n
    let q239 ← Dec.div Dec.one (Dec.ofInt 239)
    let a239 ← atan ext q239 n
    pure ((a5 * Dec.ofInt 4 - a239) * Dec.ofInt 4)

/-- `sqrt`, `bdmath.rs:80-83`: ignores the digit count. -/
def sqrt (ext : BdExt) (x : Dec) (_n : Int) : Option Dec := ext.sqrt x

/-- `one_over_root_two_pi`, `bdmath.rs:69-71`. -/
def oneOverRootTwoPi (ext : BdExt) (n : Int) : Res Dec := do
  let p ← pi ext n
  let q ← Dec.div Dec.one (Dec.two * p)
  Res.unwrapOpt (sqrt ext q n)

/-- Closure of `asin` with its captured `numer` and `denom`, `bdmath.rs:194-207`. -/
def asinTerm : Closure (Dec × Dec) := fun s i tot power _ =>
  if i % 2 ≠ 0 then do
    let z := Dec.ofInt i
    let q1 ← Dec.div (power * s.1) s.2
    let q2 ← Dec.div q1 z
    pure (some (tot + q2), (s.1 * z, s.2 * Dec.ofInt ((i : Int) + 1)))
  else pure (none, s)

/-- `asin`, `bdmath.rs:188-209`. -/
def asin (ext : BdExt) (x : Dec) (n : Int) : Res Dec :=
  if Dec.lt Dec.half x.abs then do
    let p ← pi ext n
    let r ← Res.unwrapOpt (ext.sqrt (Dec.one - x * x))
    let y ← Dec.div r x.abs
    let a ← atan ext y n
    pure ((p * Dec.halfF64 - a) * x.signum)
  else maclaurin x n asinTerm (Dec.one, Dec.one)

/-- `acos`, `bdmath.rs:211-213`. -/
def acos (ext : BdExt) (x : Dec) (n : Int) : Res Dec := do
  let p ← pi ext n
  let h ← Dec.div p Dec.two
  let a ← asin ext x n
  pure (h - a)

/-- The loop `while x >= lim`, `bdmath.rs:247-250`; returns `x` and `extra`. -/
def lnDown (lim scale h : Dec) : Nat → Dec → Dec → Res (Dec × Dec)
  | 0, _, _ => .diverge
  | fuel + 1, x, extra =>
    if Dec.le lim x then lnDown lim scale h fuel (x * scale) (extra + h) else pure (x, extra)

/-- The loop `while x <= lim`, `bdmath.rs:267-270`. -/
def lnUp (lim scale h : Dec) : Nat → Dec → Dec → Res (Dec × Dec)
  | 0, _, _ => .diverge
  | fuel + 1, x, extra =>
    if Dec.le x lim then lnUp lim scale h fuel (x * scale) (extra - h) else pure (x, extra)

/-- Closure for `ln(1 + x)`, `bdmath.rs:254-261`. -/
def lnPlusTerm : Closure Unit := fun s i tot power _ =>
  if i = 0 then pure (none, s)
  else do
    let z := Dec.ofInt (if i % 2 = 0 then -(i : Int) else i)
    let q ← Dec.div power z
    pure (some (tot + q), s)

/-- Closure for `ln(1 - x)`, `bdmath.rs:274-281`. -/
def lnMinusTerm : Closure Unit := fun s i tot power _ =>
  if i = 0 then pure (none, s)
  else do
    let z := Dec.ofInt (-(i : Int))
    let q ← Dec.div power z
    pure (some (tot + q), s)

/-- `ln`, `bdmath.rs:236-284`. -/
def ln (ext : BdExt) (x : Dec) (n : Int) : Res (Option Dec) :=
  if x.isZero || x.isNegative then pure none
  else if Dec.le Dec.one x then do
    let lim ← exp Dec.half n
    let scale ← exp (-Dec.half) n
    let r ← lnDown lim scale Dec.half ext.fuel x (Dec.ofInt 0)
    let m ← maclaurin (r.1 - Dec.one) n lnPlusTerm ()
    pure (some (m + r.2))
  else do
    let lim ← exp (-Dec.half) n
    let scale ← exp Dec.half n
    let r ← lnUp lim scale Dec.half ext.fuel x (Dec.ofInt 0)
    let m ← maclaurin (Dec.one - r.1) n lnMinusTerm ()
    pure (some (m + r.2))

/-- `log`, `bdmath.rs:286-292`. -/
def log (ext : BdExt) (x base : Dec) (n : Int) : Res (Option Dec) := do
  let lx ← ln ext x n
  let lb ← ln ext base n
  match lx, lb with
  | some a, some b => do
    let q ← Dec.div a b
    pure (some q)
  | _, _ => pure none

/-- `pow`, `bdmath.rs:294-300`. -/
def pow (ext : BdExt) (x y : Dec) (n : Int) : Res (Option Dec) := do
  let lx ← ln ext x n
  match lx with
  | some a => do
    let r ← exp (y * a) n
    pure (some r)
  | none => pure none

/-- Closure of `erf`, `bdmath.rs:309-315`. -/
def erfTerm : Closure Unit := fun s i tot power factorial => do
  let q ← Dec.div power (Dec.ofInt (2 * (i : Int) + 1) * factorial)
  if i % 2 = 0 then pure (some (tot + q), s) else pure (some (tot - q), s)

/-- `erf`, `bdmath.rs:306-316`. -/
def erf (ext : BdExt) (x : Dec) (n : Int) : Res Dec := do
  let p ← pi ext n
  let r ← Res.unwrapOpt (sqrt ext p n)
  let c ← Dec.div Dec.two r
  let m ← maclaurin (x * x) n erfTerm ()
  pure (c * x * m)

/-- `erfc`, `bdmath.rs:322-324`. -/
def erfc (ext : BdExt) (x : Dec) (n : Int) : Res Dec := do
  let e ← erf ext x n
  pure (Dec.one - e)

/-- `dnorm`, `bdmath.rs:329-333`. -/
def dnorm (ext : BdExt) (x mean sd : Dec) (n : Int) : Res Dec := do
  let y ← Dec.div (x - mean) sd
  let k1 ← oneOverRootTwoPi ext n
  let e ← exp (-y * y * Dec.half) n
  Dec.div (k1 * e) sd

/-- `bits.to_i32()` as far as `round_ieee` looks at it: the integer part toward zero. -/
def toI32 (b : Dec) : Int := (b.withScale 0).int

/-- `Option::ok_or(Error::Overflow)?`. -/
def orOverflow {α : Type} (o : Option α) : Res α := Res.okOr .overflow o

/-- `round_ieee`, `bdmath.rs:336-346`. -/
def roundIeee (ext : BdExt) (x bits : Dec) (_n : Int) : Res Dec :=
  if toI32 bits = 32 then do
    let f ← orOverflow (ext.toF32 x)
    orOverflow (ext.fromF32 f)
  else if toI32 bits = 64 then do
    let f ← orOverflow (ext.toF64 x)
    orOverflow (ext.fromF64 f)
  else .err .expected32or64bits

/-- `pnorm`, `bdmath.rs:356-359`. -/
def pnorm (ext : BdExt) (x mean sd : Dec) (n : Int) : Res Dec := do
  let y ← Dec.div (x - mean) sd
  let r ← Res.unwrapOpt (ext.sqrt Dec.two)
  let z ← Dec.div y r
  let e ← erf ext z n
  pure ((e + Dec.one) * Dec.half)

/-- The Newton loop of `qnorm`, `bdmath.rs:381-390`; returns the last guess. -/
def qnormLoop (ext : BdExt) (x mean sd : Dec) (n : Int) : Nat → Dec → Res Dec
  | 0, _ => .diverge
  | fuel + 1, guess => do
    let p ← pnorm ext guess mean sd n
    let err := p - x
    if (round err.abs n).isZero then pure guess
    else do
      let d ← dnorm ext guess mean sd n
      let q ← Dec.div err d
      qnormLoop ext x mean sd n fuel (guess - q)

/-- `qnorm`, `bdmath.rs:367-395`. -/
def qnorm (ext : BdExt) (x mean sd : Dec) (n : Int) : Res (Option Dec) := do
  let q ← Dec.div x (Dec.one - x)
  let l ← ln ext q n
  match l with
  | some _ => do
    let guess ← qnormLoop ext x mean sd n ext.fuel Dec.zeroF64
    pure (some (round guess n))
  | none => pure none

end Bd
end Verif
