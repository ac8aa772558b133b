import Verif.Model.DecText
import Verif.Model.Syntax
import Verif.Spec.DecVal

/-! # The value of a numeric literal -/

namespace Verif

/-- The rational value of a numeric literal. -/
def litValue : Lit → Option ℚ
  | .int ds _ => (parseDec ds).map Dec.val
  | .float ds _ => (parseDec ds).map Dec.val
  | _ => none

end Verif
