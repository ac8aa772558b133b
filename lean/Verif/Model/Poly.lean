import Verif.Model.Eval

/-!
# Polynomials and approximation

`doctor-syn/src/polynomial.rs` and `doctor-syn/src/transformation/approx.rs`.
Vectors are lists; an index out of bounds panics.  The loops update their vectors in place, as in the source.
-/

namespace Verif

/-- `v[i]`. -/
def vget {α : Type} (v : List α) (i : Nat) : Res α := Res.unwrapOpt v[i]?

/-- `v[i] = a`. -/
def vset {α : Type} (v : List α) (i : Nat) (a : α) : Res (List α) := if i < v.length then .ok (v.set i a) else .panic

/-- `for i in lo..lo+count { s = body(i, s) }`. -/
def loopUp {σ : Type} (body : Nat → σ → Res σ) : Nat → Nat → σ → Res σ
  | 0, _, s => .ok s
  | count + 1, lo, s => do
    let s ← body lo s
    loopUp body count (lo + 1) s

/-- `for i in (lo..lo+count).rev() { s = body(i, s) }`. -/
def loopDown {σ : Type} (body : Nat → σ → Res σ) (lo : Nat) : Nat → σ → Res σ
  | 0, s => .ok s
  | count + 1, s => do
    let s ← body (lo + count) s
    loopDown body lo count s

/-- Body of the inner loop of `divided_differences`, `polynomial.rs:15`. -/
def ddBody (x : List Dec) (n : Int) (i j : Nat) (y : List Dec) : Res (List Dec) := do
  let y1 ← vget y (j + 1)
  let y0 ← vget y j
  let x1 ← vget x (j + 1)
  let x0 ← vget x (j - i)
  let q ← Dec.div (y1 - y0) (x1 - x0)
  vset y (j + 1) (round q n)

/-- `divided_differences`, `polynomial.rs:11-18`.  For an empty `y` the subtraction `k - 1` overflows. -/
def dividedDifferences (x y : List Dec) (n : Int) : Res (List Dec) :=
  if y.length = 0 then .panic
  else loopUp (fun i y => loopDown (ddBody x n i) i (y.length - 1 - i) y) (y.length - 1) 0 y

/-- `terms[j] += round(&newton[j] * &dd[i], num_digits)`, `polynomial.rs:36`. -/
def termsBody (newton dd : List Dec) (n : Int) (i j : Nat) (terms : List Dec) : Res (List Dec) := do
  let t ← vget terms j
  let w ← vget newton j
  let d ← vget dd i
  vset terms j (t + round (w * d) n)

/-- `newton[i] = round(&newton[i] * &c + &newton[i - 1], num_digits)`, `polynomial.rs:42`. -/
def newtonBody (c : Dec) (n : Int) (i : Nat) (newton : List Dec) : Res (List Dec) := do
  let w1 ← vget newton i
  let w0 ← vget newton (i - 1)
  vset newton i (round (w1 * c + w0) n)

/-- Body of the outer loop of `from_points`, `polynomial.rs:34-45`; the state is `(newton, terms)`. -/
def pointsBody (x dd : List Dec) (n : Int) (k i : Nat) (s : List Dec × List Dec) : Res (List Dec × List Dec) := do
  let terms ← loopUp (termsBody s.1 dd n i) k 0 s.2
  let xi ← vget x i
  let c := -xi
  let newton ← loopDown (newtonBody c n) 1 (k - 1) s.1
  let w0 ← vget newton 0
  let newton ← vset newton 0 (w0 * c)
  pure (newton, terms)

/-- `Polynomial::from_points`, `polynomial.rs:22-47`; returns the terms. -/
def fromPoints (x y : List Dec) (n : Int) : Res (List Dec) := do
  let k := y.length
  let newton ← vset (List.replicate k Dec.zero) 0 Dec.one
  let dd ← dividedDifferences x y n
  let s ← loopUp (pointsBody x dd n k) k 0 (newton, List.replicate k Dec.zero)
  pure s.2

/-- `Polynomial::eval`, `polynomial.rs:49-56`; `terms[l - 1]` panics on an empty polynomial. -/
def polyEval (terms : List Dec) (x : Dec) : Res Dec := do
  if terms.length = 0 then .panic
  else do
    let y ← vget terms (terms.length - 1)
    loopDown (fun i y => do
      let t ← vget terms i
      pure (y * x + t)) 0 (terms.length - 1) y

/-- `Parity`, `expression.rs:15-19`. -/
inductive Parity where
  | odd | even | neither
  deriving DecidableEq, Repr

/-- The literal that `mkexpr(t)` becomes after being quoted and parsed again by `parse_quote!`: `syn` reads a number
without a decimal point as an integer literal. -/
def quotedDec (d : Dec) : Expr :=
  if '.' ∈ displayDec d then .lit (.float (displayDec d) "") else .lit (.int (displayDec d) "")

/-- `(#highest) #(.mul_add(#v, #ti))*` with the coefficients in the order they are applied. -/
def mulAddChain (v : Expr) (highest : Dec) (coeffs : List Dec) : Expr :=
  coeffs.foldl (fun acc t => .methodCall acc "mul_add" [v, quotedDec t]) (.paren (quotedDec highest))

/-- The indices `(start..stop).step_by(2)`. -/
def stepTwo (start stop : Nat) : List Nat := (List.range ((stop - start + 1) / 2)).map (fun j => start + 2 * j)

/-- `terms[i]` for a list of indices. -/
def vgets (terms : List Dec) : List Nat → Res (List Dec)
  | [] => pure []
  | i :: is => do
    let t ← vget terms i
    let ts ← vgets terms is
    pure (t :: ts)

/-- `mul_add_polynomial`, `approx.rs:14-69`. -/
def mulAddPolynomial (terms : List Dec) (var : Name) (parity : Parity) : Res Expr :=
  if terms.length = 0 then .panic
  else do
    let k := terms.length
    let highest ← vget terms (k - 1)
    let x : Expr := .path var
    match parity with
    | .odd =>
      if k % 2 ≠ 0 then .err .wrongNumberOfTerms
      else do
        let cs ← vgets terms (stepTwo 1 (k - 1)).reverse
        pure (.binary (mulAddChain (.binary x .mul x) highest cs) .mul x)
    | .even =>
      if k % 2 = 0 then .err .wrongNumberOfTerms
      else do
        let cs ← vgets terms (stepTwo 0 (k - 1)).reverse
        pure (mulAddChain (.binary x .mul x) highest cs)
    | .neither => do
      let cs ← vgets terms (List.range (k - 1)).reverse
      pure (mulAddChain x highest cs)

/-- Evaluate the expression at one sample, `approx.rs:92-95`. -/
def sampleAt (ext : BdExt) (e : Expr) (var : Name) (n : Int) (x : Dec) : Res Dec := do
  let s ← subst e (VariableList.new.addVar var (exprOfDec x)).1
  let v ← eval ext n s
  exprToDec v

/-- The sampling loop, `approx.rs:89-99`. -/
def sampleLoop (ext : BdExt) (e : Expr) (var : Name) (n : Int) (a b c : Dec) (i : Nat) (s : List Dec × List Dec) :
    Res (List Dec × List Dec) := do
  let t ← Bd.cos (Dec.ofInt i * b) n
  let x := a - c * t
  let y ← sampleAt ext e var n x
  pure (s.1 ++ [x], s.2 ++ [y])

/-- `approx`, `approx.rs:71-104`.  `xmin` and `xmax` are the decimals `bigdf` makes of the two floats.  For zero terms
`num_terms - 1` overflows. -/
def approx (ext : BdExt) (e : Expr) (numTerms : Nat) (xmin xmax : Dec) (var : Name) (parity : Parity) (n : Int) :
    Res Expr :=
  if numTerms = 0 then .panic
  else do
    let a := (xmax + xmin) * Dec.half
    let p ← Bd.pi ext n
    let b ← Dec.div p (Dec.ofInt ((numTerms - 1 : Nat) : Int))
    let c := (xmax - xmin) * Dec.half
    let s ← loopUp (sampleLoop ext e var n a b c) numTerms 0 ([], [])
    let terms ← fromPoints s.1 s.2 n
    mulAddPolynomial terms var parity

end Verif
