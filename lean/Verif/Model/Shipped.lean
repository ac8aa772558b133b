import Verif.Model.Approximants
import Verif.Model.Constants
import Verif.Model.FunctionTable
import Verif.Model.Poly

/-!
# What the generators ask for

Every generator with a polynomial starts with `expr!(…).approx(num_terms, …, config.num_digits()).unwrap().use_number_type(config.number_type(),
config.num_bits()).unwrap().into_inner()` (for example `trig.rs:111-123`).  `num_terms` is the entry of the function table for the width
(`main.rs:384-389`), `num_digits` is `config.rs:23-29`, the number type is the default `decimal` (`main.rs:89-90`).
-/

namespace Verif

/-- The number of terms that the table has for a function. -/
def shippedTerms (name : String) (b32 : Bool) : ℕ :=
  match functionTable.find? (fun d => d.name == name) with
  | some d => if b32 then d.terms.1 else d.terms.2
  | none => 0

/-- The width asked for. -/
def widthOf (b32 : Bool) : ℕ := if b32 then 32 else 64

/-- The polynomial that a generator splices into its function. -/
def polynomialCode (ext : BdExt) (fx : FloatExt) (b32 : Bool) (s : ApproxSpec) (lo hi : Dec) : Res Expr := do
  let r ← approx ext s.target (shippedTerms s.name b32) lo hi [s.var] s.parity (configDigits b32)
  useNumberType fx r "decimal" (widthOf b32)

end Verif
