import Verif.Spec.CTypes

/-!
# The checker for C: more declarations do no harm
-/

namespace Verif

/-- All declarations of the one are among those of the other. -/
def GLe (G G' : CGlobals) : Prop := ∀ n d, G.lookup n = some d → G'.lookup n = some d

theorem GLe.cons {G G' : CGlobals} (h : GLe G G') (p : String × CDecl) : GLe (p :: G) (p :: G') := by
  intro n d
  simp only [List.lookup]
  split
  · exact id
  · exact h n d

theorem cTypeNamed_mono {G G' : CGlobals} (h : GLe G G') (L : CLocals) (s : String) (t : CTy) (ht : cTypeNamed G L s = some t) :
    cTypeNamed G' L s = some t := by
  unfold cTypeNamed at ht ⊢
  split_ifs at ht ⊢
  all_goals first | exact ht | skip
  split at ht
  · rename_i d hd; rw [h _ _ hd]; exact ht
  · cases ht

theorem cNameTy_mono {G G' : CGlobals} (h : GLe G G') (L : CLocals) (s : String) (t : CTy) (ht : cNameTy G L s = some t) : cNameTy G' L s = some t := by
  unfold cNameTy at ht ⊢
  split at ht
  · exact ht
  · split at ht
    · rename_i d hd; rw [h _ _ hd]; exact ht
    · rename_i d hd; rw [h _ _ hd]; exact ht
    · cases ht

theorem cCallTy_mono {G G' : CGlobals} (h : GLe G G') (L : CLocals) (s : String) (k : ℕ) (t : CTy) (ht : cCallTy G L s k = some t) :
    cCallTy G' L s k = some t := by
  unfold cCallTy at ht ⊢
  split_ifs at ht ⊢
  split at ht
  · rename_i d hd; rw [h _ _ hd]; exact ht
  · cases ht

mutual
theorem cTy_mono (o : COptions) {G G' : CGlobals} (h : GLe G G') (L : CLocals) (e : RExpr) (t : CTy) (ht : e.cTy o G L = some t) : e.cTy o G' L = some t := by
  match e with
  | .lit l => simpa only [RExpr.cTy] using ht
  | .path p => simp only [RExpr.cTy] at ht ⊢; exact cNameTy_mono h L _ _ ht
  | .unary .neg e => simp only [RExpr.cTy] at ht ⊢; exact cTy_mono o h L e t ht
  | .unary .not e =>
    simp only [RExpr.cTy, Option.bind_eq_some_iff] at ht ⊢
    obtain ⟨a, ha, ht⟩ := ht
    exact ⟨a, cTy_mono o h L e a ha, ht⟩
  | .unary .deref e => simp only [RExpr.cTy] at ht; cases ht
  | .binary l op r =>
    simp only [RExpr.cTy, Option.bind_eq_some_iff] at ht ⊢
    obtain ⟨a, ha, b, hb, ht⟩ := ht
    exact ⟨a, cTy_mono o h L l a ha, b, cTy_mono o h L r b hb, ht⟩
  | .method r m args =>
    simp only [RExpr.cTy, Option.bind_eq_some_iff] at ht ⊢
    obtain ⟨a, ha, bs, hb, ht⟩ := ht
    refine ⟨a, cTy_mono o h L r a ha, bs, cTysE_mono o h L args bs hb, ?_⟩
    split_ifs at ht ⊢
    · exact ht
    · exact cCallTy_mono h L _ _ _ ht
    · exact cCallTy_mono h L _ _ _ ht
  | .call (.path p) args =>
    simp only [RExpr.cTy] at ht ⊢
    split_ifs at ht ⊢
    · simp only [Option.bind_eq_some_iff] at ht ⊢
      obtain ⟨a, ha, b, hb, bs, hbs, ht⟩ := ht
      exact ⟨a, cTypeNamed_mono h L _ _ ha, b, cTypeNamed_mono h L _ _ hb, bs, cTysE_mono o h _ args bs hbs, ht⟩
    · simp only [Option.bind_eq_some_iff] at ht ⊢
      obtain ⟨bs, hbs, ht⟩ := ht
      exact ⟨bs, cTysE_mono o h L args bs hbs, cCallTy_mono h L _ _ _ ht⟩
  | .paren e => simp only [RExpr.cTy] at ht ⊢; exact cTy_mono o h L e t ht
  | .cast e ty =>
    simp only [RExpr.cTy, Option.bind_eq_some_iff] at ht ⊢
    obtain ⟨a, ha, b, hb, ht⟩ := ht
    exact ⟨a, cTypeNamed_mono h L _ _ ha, b, cTy_mono o h L e b hb, ht⟩
  | .ifElse c b f =>
    simp only [RExpr.cTy, Option.bind_eq_some_iff] at ht ⊢
    obtain ⟨a, ha, x, hx, y, hy, ht⟩ := ht
    exact ⟨a, cTy_mono o h L c a ha, x, cTysS_mono o h L [] b x hx, y, cTy_mono o h L f y hy, ht⟩
  | .block b => simp only [RExpr.cTy] at ht ⊢; exact cTysS_mono o h L [] b t ht
  | .assign (.path p) r | .assignOp (.path p) _ r =>
    simp only [RExpr.cTy, Option.bind_eq_some_iff] at ht ⊢
    obtain ⟨a, ha, ht⟩ := ht
    exact ⟨a, cTy_mono o h L r a ha, ht⟩
  | .ifThen _ _ | .array _ | .tuple _ | .verbatim | .other _ => simp [RExpr.cTy] at ht
  | .call (.lit _) _ | .call (.unary _ _) _ | .call (.binary _ _ _) _ | .call (.method _ _ _) _ | .call (.call _ _) _ | .call (.paren _) _ | .call (.cast _ _) _
  | .call (.ifThen _ _) _ | .call (.ifElse _ _ _) _ | .call (.block _) _ | .call (.assign _ _) _ | .call (.assignOp _ _ _) _ | .call (.array _) _
  | .call (.tuple _) _ | .call .verbatim _ | .call (.other _) _ => simp [RExpr.cTy] at ht
  | .assign (.lit _) _ | .assign (.unary _ _) _ | .assign (.binary _ _ _) _ | .assign (.method _ _ _) _ | .assign (.call _ _) _ | .assign (.paren _) _
  | .assign (.cast _ _) _ | .assign (.ifThen _ _) _ | .assign (.ifElse _ _ _) _ | .assign (.block _) _ | .assign (.assign _ _) _ | .assign (.assignOp _ _ _) _
  | .assign (.array _) _ | .assign (.tuple _) _ | .assign .verbatim _ | .assign (.other _) _ => simp [RExpr.cTy] at ht
  | .assignOp (.lit _) _ _ | .assignOp (.unary _ _) _ _ | .assignOp (.binary _ _ _) _ _ | .assignOp (.method _ _ _) _ _ | .assignOp (.call _ _) _ _
  | .assignOp (.paren _) _ _ | .assignOp (.cast _ _) _ _ | .assignOp (.ifThen _ _) _ _ | .assignOp (.ifElse _ _ _) _ _ | .assignOp (.block _) _ _
  | .assignOp (.assign _ _) _ _ | .assignOp (.assignOp _ _ _) _ _ | .assignOp (.array _) _ _ | .assignOp (.tuple _) _ _ | .assignOp .verbatim _ _
  | .assignOp (.other _) _ _ => simp [RExpr.cTy] at ht

theorem cTysE_mono (o : COptions) {G G' : CGlobals} (h : GLe G G') (L : CLocals) (es : List RExpr) (ts : List CTy) (ht : RExpr.cTys o G L es = some ts) :
    RExpr.cTys o G' L es = some ts := by
  match es with
  | [] => simpa only [RExpr.cTys] using ht
  | e :: es =>
    simp only [RExpr.cTys, Option.bind_eq_some_iff] at ht ⊢
    obtain ⟨a, ha, bs, hb, ht⟩ := ht
    exact ⟨a, cTy_mono o h L e a ha, bs, cTysE_mono o h L es bs hb, ht⟩

theorem cTysS_mono (o : COptions) {G G' : CGlobals} (h : GLe G G') (L : CLocals) (cur : List String) (ss : List RStmt) (t : CTy)
    (ht : RStmt.cTys o G L cur ss = some t) : RStmt.cTys o G' L cur ss = some t := by
  match ss with
  | [] => simp [RStmt.cTys] at ht
  | [.expr e] => simp only [RStmt.cTys] at ht ⊢; exact cTy_mono o h L e t ht
  | .expr e :: s :: ss =>
    simp only [RStmt.cTys, Option.bind_eq_some_iff] at ht ⊢
    obtain ⟨a, ha, ht⟩ := ht
    exact ⟨a, cTy_mono o h L e a ha, cTysS_mono o h L cur (s :: ss) t ht⟩
  | .semi e :: ss =>
    simp only [RStmt.cTys, Option.bind_eq_some_iff] at ht ⊢
    obtain ⟨a, ha, ht⟩ := ht
    exact ⟨a, cTy_mono o h L e a ha, cTysS_mono o h L cur ss t ht⟩
  | .decl n none :: ss =>
    simp only [RStmt.cTys, Option.bind_eq_some_iff] at ht ⊢
    obtain ⟨a, ha, ht⟩ := ht
    exact ⟨a, cNameTy_mono h L n a ha, cTysS_mono o h L cur ss t ht⟩
  | .letInit n none e :: ss =>
    simp only [RStmt.cTys, Option.bind_eq_some_iff] at ht ⊢
    obtain ⟨a, ha, b, hb, ht⟩ := ht
    exact ⟨a, cTy_mono o h L e a ha, b, hb, cTysS_mono o h L cur ss t ht⟩
  | .decl n (some ty) :: ss =>
    simp only [RStmt.cTys, Option.bind_eq_some_iff] at ht ⊢
    obtain ⟨a, ha, ht⟩ := ht
    refine ⟨a, cTypeNamed_mono h L _ _ ha, ?_⟩
    split_ifs at ht ⊢
    exact cTysS_mono o h _ _ ss t ht
  | .letInit n (some ty) e :: ss =>
    simp only [RStmt.cTys, Option.bind_eq_some_iff] at ht ⊢
    obtain ⟨a, ha, ht⟩ := ht
    refine ⟨a, cTypeNamed_mono h L _ _ ha, ?_⟩
    split_ifs at ht ⊢
    simp only [Option.bind_eq_some_iff] at ht ⊢
    obtain ⟨b, hb, ht⟩ := ht
    exact ⟨b, cTy_mono o h _ e b hb, cTysS_mono o h _ _ ss t ht⟩
  | .const n ty e :: ss =>
    simp only [RStmt.cTys, Option.bind_eq_some_iff] at ht ⊢
    obtain ⟨a, ha, ht⟩ := ht
    refine ⟨a, cTypeNamed_mono h L _ _ ha, ?_⟩
    split_ifs at ht ⊢
    simp only [Option.bind_eq_some_iff] at ht ⊢
    obtain ⟨b, hb, ht⟩ := ht
    exact ⟨b, cTy_mono o h _ e b hb, cTysS_mono o h _ _ ss t ht⟩
end

theorem cParams_mono {G G' : CGlobals} (h : GLe G G') (ps : List (String × Name)) (L : CLocals) (hL : cParams G ps = some L) : cParams G' ps = some L := by
  induction ps generalizing L with
  | nil => exact hL
  | cons p ps ih =>
    simp only [cParams, Option.bind_eq_some_iff] at hL ⊢
    obtain ⟨a, ha, L', hL', hL⟩ := hL
    exact ⟨a, cTypeNamed_mono h _ _ _ ha, L', ih L' hL', hL⟩

theorem cDecl_mono (o : COptions) {G G' : CGlobals} (h : GLe G G') (it : RItem) (d : String × CDecl) (hd : it.cDecl o G = some d) :
    it.cDecl o G' = some d := by
  match it with
  | .const n t e =>
    simp only [RItem.cDecl, Option.bind_eq_some_iff] at hd ⊢
    obtain ⟨a, ha, hd⟩ := hd
    refine ⟨a, cTypeNamed_mono h _ _ _ ha, ?_⟩
    split_ifs at hd ⊢
    simp only [Option.bind_eq_some_iff] at hd ⊢
    obtain ⟨b, hb, hd⟩ := hd
    exact ⟨b, cTy_mono o h _ e b hb, hd⟩
  | .type n t =>
    simp only [RItem.cDecl, Option.bind_eq_some_iff] at hd ⊢
    obtain ⟨a, ha, hd⟩ := hd
    exact ⟨a, cTypeNamed_mono h _ _ _ ha, hd⟩
  | .fn ⟨n, ps, some (.path r), b⟩ =>
    simp only [RItem.cDecl, Option.bind_eq_some_iff] at hd ⊢
    obtain ⟨a, ha, L, hL, hd⟩ := hd
    refine ⟨a, cTypeNamed_mono h _ _ _ ha, L, cParams_mono h ps L hL, ?_⟩
    split_ifs at hd ⊢
    simp only [Option.bind_eq_some_iff] at hd ⊢
    obtain ⟨b', hb, hd⟩ := hd
    exact ⟨b', cTysS_mono o (h.cons _) _ _ b b' hb, hd⟩
  | .fn ⟨n, ps, some (.tuple _), b⟩ | .fn ⟨n, ps, none, b⟩ | .other _ => simp [RItem.cDecl] at hd

end Verif
