import Verif.Model.Eval
import Verif.Lemmas.Expr
import Verif.Lemmas.DecText
import Verif.Lemmas.Round
import Verif.Lemmas.Div

/-! # Helper lemmas about `eval` -/

namespace Verif

/-- The number stored by an expression made from a number. -/
def canon (d : Dec) : Dec := if 0 ≤ d.scale then d else ⟨d.int * Dec.tenPow (-d.scale), 0⟩

theorem val_canon (d : Dec) : (canon d).val = d.val := by
  unfold canon
  split
  · rfl
  · rename_i h
    have := Dec.rescale d.int d.scale 0 (by omega)
    simpa [Dec.val] using this

theorem exprToDec_exprOfDec (d : Dec) : exprToDec (exprOfDec d) = .ok (canon d) := by
  simp only [exprToDec, exprOfDec, parseDec_displayDec]
  rfl

theorem isNumeric_exprOfDec (d : Dec) : isNumeric (exprOfDec d) = true := rfl

theorem exprToDec_numeric {e : Expr} {d : Dec} (h : exprToDec e = .ok d) : isNumeric e = true := by
  cases e with
  | lit l => cases l <;> first | rfl | cases h
  | _ => cases h

theorem unwrap_ok {α : Type} {r : Res α} {a : α} (h : r = .ok a) : r.unwrap = .ok a := by
  subst h; rfl

theorem eval_binary {ext : BdExt} {n : Int} {l r l' r' : Expr} {op : BinOp} {a b : Dec}
    (hl : eval ext n l = .ok l') (hr : eval ext n r = .ok r') (ha : exprToDec l' = .ok a) (hb : exprToDec r' = .ok b) :
    eval ext n (.binary l op r) = evalBinop n op a b := by
  rw [eval, hl, hr]
  simp only [Res.ok_bind, exprToDec_numeric ha, exprToDec_numeric hb, Bool.and_self, if_true,
    unwrap_ok ha, unwrap_ok hb]

theorem eval_neg {ext : BdExt} {n : Int} {e e' : Expr} {d : Dec}
    (he : eval ext n e = .ok e') (hd : exprToDec e' = .ok d) :
    eval ext n (.unary .neg e) = .ok (exprOfDec (-d)) := by
  rw [eval, he]
  simp only [Res.ok_bind, exprToDec_numeric hd, if_true, unwrap_ok hd]
  rfl

end Verif
