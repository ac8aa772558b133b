import Verif.Model.Functions

/-!
# Reachability in a dependency table
-/

namespace Verif

/-- `f` is the entry at position `i`, and the first one with its name. -/
def IsEntry (tbl : List FnDef) (i : Nat) (f : FnDef) : Prop :=
  tbl[i]? = some f ∧ ∀ j g, j < i → tbl[j]? = some g → g.name ≠ f.name

/-- Names that can be reached from the requested ones through dependencies, never through an excluded name. -/
inductive Needed (tbl : List FnDef) (names exclude : List String) : String → Prop
  | root {n : String} : n ∈ names → n ∉ exclude → Needed tbl names exclude n
  | dep {f : FnDef} {i : Nat} {d : String} : Needed tbl names exclude f.name → IsEntry tbl i f → d ∈ f.deps → d ∉ exclude →
      Needed tbl names exclude d

end Verif
