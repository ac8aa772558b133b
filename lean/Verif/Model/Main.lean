import Verif.Model.Functions

/-!
# The program `libmgen`

`libmgen/src/main.rs:348-440`, `libmgen/src/config.rs` and the messages of `functions.rs:25-50`.  `Opt::from_args` (the command line
parser of `structopt`) is not modelled: a run starts from the options.  The generators, the test generators and the back ends are
parameters (`Pieces`); what they compute is the subject of the other files.  They get only what the code reads from the
configuration: the number of bits and the number type, for the tests the number of bits and `generate_plots`.
-/

namespace Verif

/-- `Opt`, `main.rs:49-99`.  Paths are strings. -/
structure Opt where
  debug : Bool := false
  generateTests : Bool := false
  generatePlots : Bool := false
  output : Option String := none
  functions : String := ""
  exclude : String := ""
  numBits : Nat := 64
  numberType : String := "decimal"
  language : String := "rust"
  functionPrefix : String := ""

/-- What a run does to the outside: text on standard output, text on standard error, a file. -/
inductive Eff where
  | out (s : String)
  | err (s : String)
  | file (path text : String)
  deriving DecidableEq, Repr

/-- A computation that leaves effects behind, whatever its outcome is. -/
structure Act (α : Type) where
  effs : List Eff
  res : Res α

namespace Act

/-- Effects are kept, a panic stops what follows. -/
def bind {α β : Type} (x : Act α) (f : α → Act β) : Act β :=
  match x.res with
  | .ok a => ⟨x.effs ++ (f a).effs, (f a).res⟩
  | .err e => ⟨x.effs, .err e⟩
  | .panic => ⟨x.effs, .panic⟩
  | .diverge => ⟨x.effs, .diverge⟩

instance : Monad Act where
  pure a := ⟨[], .ok a⟩
  bind := bind

/-- Leave one effect. -/
def say (e : Eff) : Act Unit := ⟨[e], .ok ()⟩

/-- A computation without effects. -/
def lift {α : Type} (r : Res α) : Act α := ⟨[], r⟩

end Act

/-- `println!`. -/
def println (s : String) : Act Unit := .say (.out (s ++ "\n"))

/-- `eprintln!`. -/
def eprintln (s : String) : Act Unit := .say (.err (s ++ "\n"))

/-- `str::split(',')`, on characters: at least one word, empty words are kept. -/
def splitComma : List Char → List (List Char)
  | [] => [[]]
  | c :: cs =>
    if c = ',' then [] :: splitComma cs
    else match splitComma cs with
      | [] => [[c]]
      | w :: ws => (c :: w) :: ws

/-- `opt.functions.split(',').map(str::to_string)`, `main.rs:366-375`. -/
def splitNames (s : String) : List String := (splitComma s.toList).map String.ofList

/-- The `while` loop of `functions.rs:28-47` with its messages. -/
def collectAct (tbl : List FnDef) (exclude : List String) :
    Nat → List String → List (Nat × FnDef) → Act (List (Nat × FnDef))
  | _, [], res => pure res
  | 0, _ :: _, _ => .lift .diverge
  | fuel + 1, name :: stack, res =>
    if exclude.contains name then do
      println ("ignoring " ++ name)
      collectAct tbl exclude fuel stack res
    else match findFn tbl name with
      | none => do
        eprintln ("function " ++ name ++ " not found")
        collectAct tbl exclude fuel stack res
      | some f =>
        if res.any (fun g => g.2.name == name) then collectAct tbl exclude fuel stack res
        else collectAct tbl exclude fuel (f.2.deps.reverse ++ stack) (res ++ [f])

/-- `get_functions_and_deps`, `functions.rs:25-50`, with its messages. -/
def getFunctionsAct (tbl : List FnDef) (fuel : Nat) (names exclude : List String) : Act (List FnDef) := do
  let res ← collectAct tbl exclude fuel names.reverse []
  pure ((res.insertionSort (fun a b => a.1 ≤ b.1)).map (·.2))

/-- `Config::prefix`, `config.rs:47-57`. -/
def Opt.prefix (o : Opt) : String := if o.language = "c" then (if o.numBits = 32 then "ds32_" else "ds64_") else ""

/-- `Config::float_suffix`, `config.rs:59-69`. -/
def Opt.floatSuffix (o : Opt) : String := if o.language = "c" then (if o.numBits = 32 then "f" else "") else ""

/-- The parts of the program that `main` calls.  `τ` is the type of tokens. -/
structure Pieces (τ : Type) where
  /-- `{:?}` of the options -/
  showOpt : Opt → String
  /-- `(f.gen)(num_terms, &config)` -/
  gen : Nat → String → FnDef → Nat → Res (List τ)
  /-- `auxfuncs::gen_test_function(0, &config)` -/
  testFunction : Nat → Bool → Res (List τ)
  /-- `test::gen_test(t, &config)` for all test specifications of a function, in order -/
  tests : Nat → Bool → FnDef → Res (List τ)
  /-- `codegen::rust::format_token_stream` -/
  rust : List τ → Res String
  /-- `syn::parse2(tokens).unwrap()`, then `codegen::c::to_c` with the two options -/
  c : String → String → List τ → Res String
  /-- `syn::parse2(tokens).unwrap()`, then `codegen::portable_simd::to_simd` and the formatter -/
  simd : Nat → List τ → Res String
  /-- whether a file can be written -/
  canWrite : String → Bool

/-- `main.rs:384-389`: the body of the loop, with the tokens it adds. -/
def genOne {τ : Type} (P : Pieces τ) (bits : Nat) (ty : String) (f : FnDef) : Res (List τ) :=
  if f.hasGen then P.gen bits ty f (if bits = 32 then f.terms.1 else f.terms.2) else .ok []

/-- `main.rs:382-391`: the loop over the chosen functions. -/
def genAll {τ : Type} (P : Pieces τ) (bits : Nat) (ty : String) : List FnDef → Res (List τ)
  | [] => .ok []
  | f :: fs => do
    let now ← genOne P bits ty f
    let rest ← genAll P bits ty fs
    pure (now ++ rest)

/-- `main.rs:393-400`: the loop over the tests. -/
def testAll {τ : Type} (P : Pieces τ) (bits : Nat) (plots : Bool) : List FnDef → Res (List τ)
  | [] => .ok []
  | f :: fs => do
    let now ← P.tests bits plots f
    let rest ← testAll P bits plots fs
    pure (now ++ rest)

/-- `main.rs:381-400`. -/
def allTokens {τ : Type} (P : Pieces τ) (o : Opt) (funcs : List FnDef) : Res (List τ) := do
  let ts ← genAll P o.numBits o.numberType funcs
  if o.generateTests then do
    let tf ← P.testFunction o.numBits o.generatePlots
    let tt ← testAll P o.numBits o.generatePlots funcs
    pure (ts ++ tf ++ tt)
  else pure ts

/-- `main.rs:435-439`. -/
def writeText {τ : Type} (P : Pieces τ) (o : Opt) (text : String) : Act Unit :=
  match o.output with
  | some path => if P.canWrite path then .say (.file path text) else .lift .panic
  | none => .say (.out text)

/-- `main.rs:350-352`. -/
def debugNote {τ : Type} (P : Pieces τ) (o : Opt) : Act Unit := if o.debug then println ("opt=" ++ P.showOpt o) else pure ()

/-- `main`, `main.rs:348-440`, after the options are read. -/
def libmgen {τ : Type} (P : Pieces τ) (tbl : List FnDef) (fuel : Nat) (o : Opt) : Act Unit := do
  debugNote P o
  if o.functions = "" then eprintln "re-run with -f or -h"
  else if o.functions = "help" then tbl.forM (fun f => println f.name)
  else do
    let funcs ← getFunctionsAct tbl fuel (splitNames o.functions) (splitNames o.exclude)
    let tokens ← Act.lift (allTokens P o funcs)
    if o.language = "rust" then do
      let text ← Act.lift (P.rust tokens)
      writeText P o text
    else if o.language = "c" then do
      let text ← Act.lift (P.c o.prefix o.floatSuffix tokens)
      writeText P o text
    else if o.language = "portable-simd" then do
      let text ← Act.lift (P.simd o.numBits tokens)
      writeText P o text
    else if o.language = "help" then do
      eprintln "Available languages:"
      eprintln "    rust"
      eprintln "    c"
      eprintln "    portable-simd"
    else eprintln ("invalid language " ++ o.language ++ " use \"help\" to list valid options.")

end Verif
