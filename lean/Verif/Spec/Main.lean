import Verif.Model.Main
import Verif.Spec.Reach

/-!
# What a run of `libmgen` should write
-/

namespace Verif

/-- All text on standard output. -/
def stdoutOf (es : List Eff) : String := es.foldr (fun e s => match e with | .out t => t ++ s | _ => s) ""

/-- All text on standard error. -/
def stderrOf (es : List Eff) : String := es.foldr (fun e s => match e with | .err t => t ++ s | _ => s) ""

/-- The files written, in order. -/
def filesOf (es : List Eff) : List (String × String) := es.filterMap (fun e => match e with | .file p t => some (p, t) | _ => none)

/-- The table entries that belong to a request, in the order of the table. -/
def Selected (tbl : List FnDef) (names exclude : List String) (l : List FnDef) : Prop :=
  ∃ ps : List (Nat × FnDef), l = ps.map (·.2) ∧ (ps.map (·.1)).Pairwise (· < ·) ∧
    ∀ p, p ∈ ps ↔ IsEntry tbl p.1 p.2 ∧ Needed tbl names exclude p.2.name

/-- What the back end of a language makes of the tokens; other languages have none. -/
def backEnd {τ : Type} (P : Pieces τ) (bits : Nat) (language : String) (toks : List τ) : Option (Res String) :=
  if language = "rust" then some (P.rust toks)
  else if language = "c" then some (P.c (if bits = 32 then "ds32_" else "ds64_") (if bits = 32 then "f" else "") toks)
  else if language = "portable-simd" then some (P.simd bits toks)
  else none

/-- `toks` are the tokens for a request: those of the chosen functions one after the other in the order of the table, then, if tests
are asked for, the test function and the tests of the chosen functions. -/
def TokensFor {τ : Type} (P : Pieces τ) (o : Opt) (l : List FnDef) (toks : List τ) : Prop :=
  ∃ g t : FnDef → List τ, ∃ tf : List τ,
    (∀ f ∈ l, f.hasGen = true → P.gen o.numBits o.numberType f (if o.numBits = 32 then f.terms.1 else f.terms.2) = .ok (g f)) ∧
    (∀ f ∈ l, f.hasGen = false → g f = []) ∧
    (o.generateTests = true → P.testFunction o.numBits o.generatePlots = .ok tf ∧
      ∀ f ∈ l, P.tests o.numBits o.generatePlots f = .ok (t f)) ∧
    toks = l.flatMap g ++ if o.generateTests then tf ++ l.flatMap t else []

/-- `text` is the library for the options: selection, tokens, back end. -/
def TextFor {τ : Type} (P : Pieces τ) (tbl : List FnDef) (o : Opt) (text : String) : Prop :=
  ∃ l toks, Selected tbl (splitNames o.functions) (splitNames o.exclude) l ∧ TokensFor P o l toks ∧
    backEnd P o.numBits o.language toks = some (.ok text)

/-- The names a selection looks at: the requested ones and the dependencies of the chosen entries. -/
def Met (tbl : List FnDef) (names exclude : List String) (s : String) : Prop :=
  s ∈ names ∨ ∃ i f, IsEntry tbl i f ∧ Needed tbl names exclude f.name ∧ s ∈ f.deps

/-- What is said about a name that is looked at. -/
def noteOn (tbl : List FnDef) (exclude : List String) (s : String) : Option Eff :=
  if s ∈ exclude then some (.out ("ignoring " ++ s ++ "\n"))
  else if ∀ f ∈ tbl, f.name ≠ s then some (.err ("function " ++ s ++ " not found\n"))
  else none

/-- The languages that have a back end. -/
def languages : List String := ["rust", "c", "portable-simd"]

/-- A request that is neither empty nor `help`. -/
def Opt.Proper (o : Opt) : Prop := o.functions ≠ "" ∧ o.functions ≠ "help"

end Verif
