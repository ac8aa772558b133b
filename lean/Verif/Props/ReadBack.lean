import Verif.Spec.RustTokens
import Verif.Lemmas.Grammar
import Verif.Lemmas.Paren
import Verif.Props.Paren

/-!
# C16: a parenthesised expression reads back as itself
-/

namespace Verif

theorem BinOp.sym_inj (a b : BinOp) (h : a.sym = b.sym) : a = b := by
  revert h; cases a <;> cases b <;> decide

theorem UnOp.sym_inj (a b : UnOp) (h : a.sym = b.sym) : a = b := by
  revert h; cases a <;> cases b <;> decide

mutual
/-- Different expressions have different trees. -/
theorem tree_inj (e e' : Expr) (h : e.tree = e'.tree) : e = e' := by
  match e, e' with
  | .unary op e, .unary op' e' =>
    simp only [Expr.tree, PExpr.unary.injEq] at h
    rw [UnOp.sym_inj _ _ h.1, tree_inj e e' h.2]
  | .binary l op r, .binary l' op' r' =>
    simp only [Expr.tree, PExpr.binary.injEq] at h
    rw [tree_inj l l' h.1, BinOp.sym_inj _ _ h.2.1, tree_inj r r' h.2.2]
  | .methodCall r m as, .methodCall r' m' as' =>
    simp only [Expr.tree, PExpr.method.injEq, Word.path.injEq, List.cons.injEq, and_true] at h
    rw [tree_inj r r' h.1, h.2.1, trees_inj as as' h.2.2]
  | .paren e, .paren e' =>
    simp only [Expr.tree, PExpr.paren.injEq] at h
    rw [tree_inj e e' h]
  | .lit l, e' => cases e' <;> simp_all [Expr.tree]
  | .path p, e' => cases e' <;> simp_all [Expr.tree]
  | .field b m, .field b' m' =>
    simp only [Expr.tree, PExpr.field.injEq, Word.path.injEq, List.cons.injEq, and_true] at h
    rw [tree_inj b b' h.1, h.2]
  | .call f as, .call f' as' =>
    simp only [Expr.tree, PExpr.call.injEq] at h
    rw [tree_inj f f' h.1, trees_inj as as' h.2]
  | .other k, e' => cases e' <;> simp_all [Expr.tree]
  | .unary .., .binary .. | .unary .., .methodCall .. | .unary .., .paren .. | .unary .., .lit .. | .unary .., .path .. | .unary .., .field ..
  | .unary .., .call .. | .unary .., .other .. => simp [Expr.tree] at h
  | .binary .., .unary .. | .binary .., .methodCall .. | .binary .., .paren .. | .binary .., .lit .. | .binary .., .path .. | .binary .., .field ..
  | .binary .., .call .. | .binary .., .other .. => simp [Expr.tree] at h
  | .methodCall .., .unary .. | .methodCall .., .binary .. | .methodCall .., .paren .. | .methodCall .., .lit .. | .methodCall .., .path ..
  | .methodCall .., .field .. | .methodCall .., .call .. | .methodCall .., .other .. => simp [Expr.tree] at h
  | .paren .., .unary .. | .paren .., .binary .. | .paren .., .methodCall .. | .paren .., .lit .. | .paren .., .path .. | .paren .., .field ..
  | .paren .., .call .. | .paren .., .other .. => simp [Expr.tree] at h
  | .field .., .unary .. | .field .., .binary .. | .field .., .methodCall .. | .field .., .paren .. | .field .., .lit .. | .field .., .path ..
  | .field .., .call .. | .field .., .other .. => simp [Expr.tree] at h
  | .call .., .unary .. | .call .., .binary .. | .call .., .methodCall .. | .call .., .paren .. | .call .., .lit .. | .call .., .path ..
  | .call .., .field .. | .call .., .other .. => simp [Expr.tree] at h

theorem trees_inj (as as' : List Expr) (h : Expr.trees as = Expr.trees as') : as = as' := by
  match as, as' with
  | [], [] => rfl
  | a :: as, a' :: as' =>
    simp only [Expr.trees, List.cons.injEq] at h
    rw [tree_inj a a' h.1, trees_inj as as' h.2]
  | [], _ :: _ => simp [Expr.trees] at h
  | _ :: _, [] => simp [Expr.trees] at h
end

theorem lit_toks_length (l : Lit) : l.toks.length = 1 + if l.signed then 1 else 0 := by
  cases l with
  | int ds s => unfold Lit.toks Lit.signed; split <;> simp_all
  | float ds s => unfold Lit.toks Lit.signed; split <;> simp_all
  | bool b => rfl
  | other t => rfl

theorem lit_toks (l : Lit) (h : l.signed = false) : l.toks = [.word (.lit l)] := by
  unfold Lit.toks
  split
  · simp [Lit.signed] at h
  · simp [Lit.signed] at h
  · rfl

mutual
/-- A sign in a literal is one more token than the tree has. -/
theorem toks_length (e : Expr) : e.toks.length = (e.tree.print rustLang).length + e.signs := by
  match e with
  | .unary op e => simp only [Expr.toks, Expr.tree, PExpr.print, Expr.signs, List.length_cons, toks_length e]; omega
  | .binary l op r => simp only [Expr.toks, Expr.tree, PExpr.print, Expr.signs, List.length_cons, List.length_append, toks_length l, toks_length r]; omega
  | .methodCall r m as =>
    simp only [Expr.toks, Expr.tree, PExpr.print, Expr.signs, List.length_cons, List.length_append, toks_length r, toksArgs_length as]; omega
  | .paren e => simp only [Expr.toks, Expr.tree, PExpr.print, Expr.signs, List.length_cons, List.length_append, toks_length e]; omega
  | .lit l => simp only [Expr.toks, Expr.tree, PExpr.print, Expr.signs, lit_toks_length, List.length_cons, List.length_nil]
  | .path p => rfl
  | .field b m => simp only [Expr.toks, Expr.tree, PExpr.print, Expr.signs, List.length_cons, List.length_append, toks_length b]; omega
  | .call f as =>
    simp only [Expr.toks, Expr.tree, PExpr.print, Expr.signs, List.length_cons, List.length_append, toks_length f, toksArgs_length as]; omega
  | .other k => rfl

theorem toksArgs_length (as : List Expr) : (Expr.toksArgs as).length = (PExpr.printArgs rustLang (Expr.trees as)).length + Expr.signsArgs as := by
  match as with
  | [] => rfl
  | a :: as =>
    simp only [Expr.toksArgs, Expr.trees, PExpr.printArgs, Expr.signsArgs, List.length_append, toks_length a, toksRest_length as]; omega

theorem toksRest_length (as : List Expr) : (Expr.toksRest as).length = (PExpr.printRest rustLang (Expr.trees as)).length + Expr.signsArgs as := by
  match as with
  | [] => rfl
  | a :: as =>
    simp only [Expr.toksRest, Expr.trees, PExpr.printRest, Expr.signsArgs, List.length_append, List.length_cons, toks_length a, toksRest_length as]; omega
end

mutual
/-- Without signs in literals the tokens are those of the tree. -/
theorem toks_eq_print (e : Expr) (h : e.signs = 0) : e.toks = e.tree.print rustLang := by
  match e with
  | .unary op e => simp only [Expr.signs] at h; simp only [Expr.toks, Expr.tree, PExpr.print, toks_eq_print e h]
  | .binary l op r =>
    simp only [Expr.signs] at h
    simp only [Expr.toks, Expr.tree, PExpr.print, toks_eq_print l (by omega), toks_eq_print r (by omega)]
  | .methodCall r m as =>
    simp only [Expr.signs] at h
    simp only [Expr.toks, Expr.tree, PExpr.print, toks_eq_print r (by omega), toksArgs_eq_print as (by omega)]
  | .paren e => simp only [Expr.signs] at h; simp only [Expr.toks, Expr.tree, PExpr.print, toks_eq_print e h]
  | .lit l =>
    have : l.signed = false := by simp only [Expr.signs] at h; split at h <;> simp_all
    simp only [Expr.toks, Expr.tree, PExpr.print, lit_toks l this]
  | .path p => rfl
  | .field b m => simp only [Expr.signs] at h; simp only [Expr.toks, Expr.tree, PExpr.print, toks_eq_print b h]
  | .call f as =>
    simp only [Expr.signs] at h
    simp only [Expr.toks, Expr.tree, PExpr.print, toks_eq_print f (by omega), toksArgs_eq_print as (by omega)]
  | .other k => rfl

theorem toksArgs_eq_print (as : List Expr) (h : Expr.signsArgs as = 0) : Expr.toksArgs as = PExpr.printArgs rustLang (Expr.trees as) := by
  match as with
  | [] => rfl
  | a :: as =>
    simp only [Expr.signsArgs] at h
    simp only [Expr.toksArgs, Expr.trees, PExpr.printArgs, toks_eq_print a (by omega), toksRest_eq_print as (by omega)]

theorem toksRest_eq_print (as : List Expr) (h : Expr.signsArgs as = 0) : Expr.toksRest as = PExpr.printRest rustLang (Expr.trees as) := by
  match as with
  | [] => rfl
  | a :: as =>
    simp only [Expr.signsArgs] at h
    simp only [Expr.toksRest, Expr.trees, PExpr.printRest, toks_eq_print a (by omega), toksRest_eq_print as (by omega)]
end

/-- The level of an operator in Rust, and what its operands must be. -/
theorem rust_level (op : BinOp) (h : op.assigns = false) :
    ∃ j, rustLang.level op.sym = some j ∧ j < 10 ∧ (rustLang.kind j = .left ∨ rustLang.kind j = .non) := by
  cases op <;> first | (cases h; done) | exact ⟨_, rfl, by decide, by decide⟩

theorem rust_prefix (op : UnOp) : rustLang.isPrefix op.sym = true := by cases op <;> decide

mutual
/-- With closed operands and receivers an expression fits anywhere, unless it is an operator itself. -/
theorem tree_fits (e : Expr) (hs : e.supported = true) (ho : e.operandsClosed = true) (hr : e.receiversClosed = true) (hp : e.pureOps = true) :
    e.tree.fits rustLang 0 ∧ (e.isOp = false → e.tree.fits rustLang (rustLang.height + 1)) := by
  match e with
  | .unary op e =>
    simp only [Expr.supported] at hs
    simp only [Expr.operandsClosed, Bool.and_eq_true, Bool.not_eq_true'] at ho
    simp only [Expr.receiversClosed] at hr
    simp only [Expr.pureOps] at hp
    have ih := tree_fits e hs ho.2 hr hp
    refine ⟨?_, by simp [Expr.isOp]⟩
    simp only [Expr.tree, PExpr.fits]
    exact ⟨by omega, rust_prefix op, Lang.fits_mono rustLang (by omega) _ (ih.2 ho.1)⟩
  | .binary l op r =>
    simp only [Expr.supported, Bool.and_eq_true] at hs
    simp only [Expr.operandsClosed, Bool.and_eq_true, Bool.not_eq_true'] at ho
    simp only [Expr.receiversClosed, Bool.and_eq_true] at hr
    simp only [Expr.pureOps, Bool.and_eq_true, Bool.not_eq_true'] at hp
    have ihl := (tree_fits l hs.1 (by simp_all) hr.1 hp.1.2).2 (by simp_all)
    have ihr := (tree_fits r hs.2 (by simp_all) hr.2 hp.2).2 (by simp_all)
    refine ⟨?_, by simp [Expr.isOp]⟩
    obtain ⟨j, h1, h2, h3⟩ := rust_level op hp.1.1
    have hH : rustLang.height = 11 := rfl
    simp only [Expr.tree, PExpr.fits]
    refine ⟨j, h1, by omega, ?_⟩
    rcases h3 with h3 | h3 <;> simp only [h3]
    · exact ⟨Lang.fits_mono rustLang (by omega) _ ihl, Lang.fits_mono rustLang (by omega) _ ihr⟩
    · exact ⟨Lang.fits_mono rustLang (by omega) _ ihl, Lang.fits_mono rustLang (by omega) _ ihr⟩
  | .methodCall r m as =>
    simp only [Expr.supported, Bool.and_eq_true] at hs
    simp only [Expr.operandsClosed, Bool.and_eq_true] at ho
    simp only [Expr.receiversClosed, Bool.and_eq_true, Bool.not_eq_true'] at hr
    simp only [Expr.pureOps, Bool.and_eq_true] at hp
    have ihr := (tree_fits r hs.1 ho.1 hr.1.2 hp.1).2 hr.1.1
    have iha := trees_fit as hs.2 ho.2 hr.2 hp.2
    simp only [Expr.tree, PExpr.fits]
    exact ⟨⟨ihr, iha⟩, fun _ => ⟨ihr, iha⟩⟩
  | .paren e =>
    simp only [Expr.supported] at hs
    simp only [Expr.operandsClosed] at ho
    simp only [Expr.receiversClosed] at hr
    simp only [Expr.pureOps] at hp
    have ih := tree_fits e hs ho hr hp
    simp only [Expr.tree, PExpr.fits]
    exact ⟨ih.1, fun _ => ih.1⟩
  | .lit l => simp [Expr.tree, PExpr.fits]
  | .path p => simp [Expr.tree, PExpr.fits]
  | .field b m =>
    simp only [Expr.supported] at hs
    simp only [Expr.operandsClosed] at ho
    simp only [Expr.receiversClosed, Bool.and_eq_true, Bool.not_eq_true'] at hr
    simp only [Expr.pureOps] at hp
    have ih := (tree_fits b hs ho hr.2 hp).2 hr.1
    simp only [Expr.tree, PExpr.fits]
    exact ⟨ih, fun _ => ih⟩
  | .call f as => simp [Expr.supported] at hs
  | .other k => simp [Expr.supported] at hs

theorem trees_fit (as : List Expr) (hs : Expr.supportedArgs as = true) (ho : Expr.operandsClosedArgs as = true) (hr : Expr.receiversClosedArgs as = true)
    (hp : Expr.pureOpsArgs as = true) : PExpr.fitsAll rustLang (Expr.trees as) := by
  match as with
  | [] => simp [Expr.trees, PExpr.fitsAll]
  | a :: as =>
    simp only [Expr.supportedArgs, Bool.and_eq_true] at hs
    simp only [Expr.operandsClosedArgs, Bool.and_eq_true] at ho
    simp only [Expr.receiversClosedArgs, Bool.and_eq_true] at hr
    simp only [Expr.pureOpsArgs, Bool.and_eq_true] at hp
    simp only [Expr.trees, PExpr.fitsAll]
    exact ⟨(tree_fits a hs.1 ho.1 hr.1 hp.1).1, trees_fit as hs.2 ho.2 hr.2 hp.2⟩
end

theorem isOp_not_postfix (e : Expr) (h : e.isOp = true) : ¬ e.tree.fits rustLang (rustLang.height + 1) := by
  cases e with
  | unary op e => simp only [Expr.tree, PExpr.fits]; omega
  | binary l op r =>
    simp only [Expr.tree, PExpr.fits]
    rintro ⟨j, h1, h2, _⟩
    have := (rustLang_sound.level _ j h1).1
    omega
  | _ => simp [Expr.isOp] at h

mutual
/-- A tree that fits has closed receivers. -/
theorem receiversClosed_of_fits (e : Expr) (k : ℕ) (h : e.tree.fits rustLang k) : e.receiversClosed = true := by
  match e with
  | .unary op e => simp only [Expr.tree, PExpr.fits] at h; exact receiversClosed_of_fits e _ h.2.2
  | .binary l op r =>
    simp only [Expr.tree, PExpr.fits] at h
    obtain ⟨j, _, _, h3⟩ := h
    simp only [Expr.receiversClosed, Bool.and_eq_true]
    split at h3
    · exact ⟨receiversClosed_of_fits l _ h3.1, receiversClosed_of_fits r _ h3.2⟩
    · exact ⟨receiversClosed_of_fits l _ h3.1, receiversClosed_of_fits r _ h3.2⟩
    · exact ⟨receiversClosed_of_fits l _ h3.1, receiversClosed_of_fits r _ h3.2⟩
    · exact h3.elim
  | .methodCall r m as =>
    simp only [Expr.tree, PExpr.fits] at h
    simp only [Expr.receiversClosed, Bool.and_eq_true, Bool.not_eq_true']
    refine ⟨⟨?_, receiversClosed_of_fits r _ h.1⟩, receiversClosedArgs_of_fits as h.2⟩
    cases ho : r.isOp with
    | false => rfl
    | true => exact absurd h.1 (isOp_not_postfix r ho)
  | .paren e => simp only [Expr.tree, PExpr.fits] at h; exact receiversClosed_of_fits e _ h
  | .lit l => rfl
  | .path p => rfl
  | .field b m =>
    simp only [Expr.tree, PExpr.fits] at h
    simp only [Expr.receiversClosed, Bool.and_eq_true, Bool.not_eq_true']
    refine ⟨?_, receiversClosed_of_fits b _ h⟩
    cases ho : b.isOp with
    | false => rfl
    | true => exact absurd h (isOp_not_postfix b ho)
  | .call f as =>
    simp only [Expr.tree, PExpr.fits] at h
    simp only [Expr.receiversClosed, Bool.and_eq_true]
    exact ⟨receiversClosed_of_fits f _ h.1, receiversClosedArgs_of_fits as h.2.2⟩
  | .other k => rfl

theorem receiversClosedArgs_of_fits (as : List Expr) (h : PExpr.fitsAll rustLang (Expr.trees as)) : Expr.receiversClosedArgs as = true := by
  match as with
  | [] => rfl
  | a :: as =>
    simp only [Expr.trees, PExpr.fitsAll] at h
    simp only [Expr.receiversClosedArgs, Bool.and_eq_true]
    exact ⟨receiversClosed_of_fits a _ h.1, receiversClosedArgs_of_fits as h.2⟩
end

/-- **C16** What `paren` returns reads back as itself exactly if no method receiver or field base is a bare operator and no literal has a sign.
Full claim: it always reads back as itself; false, see `C16_receiver_wrong` and `C16_sign_wrong`. -/
theorem C16_reads_iff_partial (e e' : Expr) (h : paren e = .ok e') (hp : e'.pureOps = true) :
    rustLang.Reads e'.toks e'.tree ↔ e'.receiversClosed = true ∧ e'.signs = 0 := by
  have hs' := Visitor.supported_of_ok parenVisitor rfl rfl e e' h
  have hs : e'.supported = true := by
    have h' := h
    rw [paren_eq e hs'] at h'
    cases h'
    rw [parenE_supported, hs']
  have ho := C15_paren_operands e e' h
  rw [Lang.reads_iff rustLang rustLang_sound]
  constructor
  · rintro ⟨h1, h2⟩
    refine ⟨receiversClosed_of_fits e' 0 h1, ?_⟩
    have := toks_length e'
    rw [h2] at this
    omega
  · rintro ⟨h1, h2⟩
    exact ⟨(tree_fits e' hs ho h1 hp).1, toks_eq_print e' h2⟩

/-- **C16** … and then as nothing else. -/
theorem C16_reads_only (e e' e'' : Expr) (h : paren e = .ok e') (hp : e'.pureOps = true) (hr : e'.receiversClosed = true) (hn : e'.signs = 0)
    (h'' : rustLang.Reads e'.toks e''.tree) : e'' = e' :=
  tree_inj _ _ (h''.unique ((C16_reads_iff_partial e e' h hp).mpr ⟨hr, hn⟩))

/-- The hypotheses are met: `-(a + b).sin() * (2.0 - x)`. -/
example : ∃ e', paren (.binary (.unary .neg (.methodCall (.paren (.binary (.path ["a"]) .add (.path ["b"]))) "sin" [])) .mul
      (.paren (.binary (.lit (.float "2.0".toList "")) .sub (.path ["x"])))) = .ok e' ∧ e'.pureOps = true ∧ e'.receiversClosed = true ∧ e'.signs = 0 := ⟨_, rfl, by decide, by decide, by decide⟩

/-- **C16** is false for method receivers: the tree `(a + b).sin()`, without parentheses, comes out of `paren` as it is, and its text `a + b.sin()` reads as
`a + (b.sin())`. -/
theorem C16_receiver_wrong :
    ∃ e : Expr, paren e = .ok e ∧ ¬ rustLang.Reads e.toks e.tree ∧
      rustLang.Reads e.toks (Expr.binary (.path ["a"]) .add (.methodCall (.path ["b"]) "sin" [])).tree := by
  have h : paren (.methodCall (.binary (.path ["a"]) .add (.path ["b"])) "sin" []) =
      .ok (.methodCall (.binary (.path ["a"]) .add (.path ["b"])) "sin" []) := rfl
  refine ⟨_, h, ?_, ?_⟩
  · rw [C16_reads_iff_partial _ _ h rfl]; decide
  · rw [show (Expr.methodCall (.binary (.path ["a"]) .add (.path ["b"])) "sin" []).toks =
      (Expr.binary (.path ["a"]) .add (.methodCall (.path ["b"]) "sin" [])).tree.print rustLang from rfl]
    refine Lang.reads_print _ rustLang_sound _ ?_
    exact (tree_fits _ (by decide) (by decide) (by decide) (by decide)).1

/-- **C16** is false for literals with a sign, as evaluation makes them: `-0.5` reads as minus applied to `0.5`. -/
theorem C16_sign_wrong :
    ∃ e : Expr, paren e = .ok e ∧ ¬ rustLang.Reads e.toks e.tree ∧ rustLang.Reads e.toks (Expr.unary .neg (.lit (.float "0.5".toList ""))).tree := by
  have h : paren (.lit (.float "-0.5".toList "")) = .ok (.lit (.float "-0.5".toList "")) := rfl
  refine ⟨_, h, ?_, ?_⟩
  · rw [C16_reads_iff_partial _ _ h rfl]; decide
  · rw [show (Expr.lit (.float "-0.5".toList "")).toks = (Expr.unary .neg (.lit (.float "0.5".toList ""))).tree.print rustLang from rfl]
    refine Lang.reads_print _ rustLang_sound _ ?_
    exact (tree_fits _ (by decide) (by decide) (by decide) (by decide)).1

/-- Without `paren` nothing of the kind holds: `(a + b) * c` built by hand has the text `a + b * c`. -/
theorem C16_without_paren :
    ∃ e : Expr, e.receiversClosed = true ∧ e.signs = 0 ∧ ¬ rustLang.Reads e.toks e.tree := by
  refine ⟨.binary (.binary (.path ["a"]) .add (.path ["b"])) .mul (.path ["c"]), by decide, by decide, fun h => ?_⟩
  have h2 : rustLang.Reads (Expr.binary (.binary (.path ["a"]) .add (.path ["b"])) .mul (.path ["c"])).toks
      (Expr.binary (.path ["a"]) .add (.binary (.path ["b"]) .mul (.path ["c"]))).tree := by
    rw [Lang.reads_iff _ rustLang_sound]
    refine ⟨?_, rfl⟩
    simp only [Expr.tree, PExpr.fits]
    refine ⟨8, rfl, by omega, ?_⟩
    simp only [rustLang]
    refine ⟨trivial, 9, rfl, by omega, ?_⟩
    exact ⟨trivial, trivial⟩
  have := tree_inj _ _ (h.unique h2)
  simp at this

end Verif
