import Verif.Model.Res
import Mathlib.Data.List.Sort

/-!
# Choosing the functions to generate

`libmgen/src/functions.rs:25-50`.  The dependency table is a parameter here; the table of the program is in
`Model/FunctionTable.lean`.  The messages printed on the way are in `Model/Main.lean`.
-/

namespace Verif

/-- `Function`, `functions.rs:17-23`, without the test specifications. -/
structure FnDef where
  name : String
  deps : List String
  /-- term counts for 32 and 64 bits -/
  terms : Nat × Nat
  /-- whether there is a generator (`gen` is `Some`) -/
  hasGen : Bool
  deriving DecidableEq, Repr

/-- `FUNCTIONS.iter().find(|f| f.name == name)`.  The table position stands for the address of the entry. -/
def findFn (tbl : List FnDef) (name : String) : Option (Nat × FnDef) :=
  (tbl.zipIdx.find? (fun p => p.1.name == name)).map (fun p => (p.2, p.1))

/-- The `while` loop, `functions.rs:28-47`.  The top of the stack is the head of the list. -/
def collectFns (tbl : List FnDef) (exclude : List String) : Nat → List String → List (Nat × FnDef) → Res (List (Nat × FnDef))
  | _, [], res => .ok res
  | 0, _ :: _, _ => .diverge
  | fuel + 1, name :: stack, res =>
    if exclude.contains name then collectFns tbl exclude fuel stack res
    else match findFn tbl name with
      | none => collectFns tbl exclude fuel stack res
      | some f =>
        if res.any (fun g => g.2.name == name) then collectFns tbl exclude fuel stack res
        else collectFns tbl exclude fuel (f.2.deps.reverse ++ stack) (res ++ [f])

/-- `get_functions_and_deps`, `functions.rs:25-50`.  `sort_by` is a stable sort by address. -/
def getFunctionsAndDeps (tbl : List FnDef) (fuel : Nat) (names exclude : List String) : Res (List FnDef) := do
  let res ← collectFns tbl exclude fuel names.reverse []
  pure ((res.insertionSort (fun a b => a.1 ≤ b.1)).map (·.2))

end Verif
