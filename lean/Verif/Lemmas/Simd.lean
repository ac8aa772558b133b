import Verif.Spec.Lanes

/-!
# Vectorised expressions, lane by lane
-/

namespace Verif

variable {α : Type}

/-- Is the result of the translation something that `.m()` is simply appended to? -/
def RExpr.closedHere : RExpr → Bool
  | .unary _ _ | .binary _ _ _ | .assign _ _ | .assignOp _ _ _ | .cast _ _ => false
  | _ => true

theorem attach_closed (m : String) (e : RExpr) (h : e.closedHere = true) : attachMethod m e = .ok (.method e m []) := by
  cases e <;> simp_all [RExpr.closedHere, attachMethod]

theorem simdIdent_of_ne {s : String} (h : s ≠ "fty") : simdIdent s = s := by simp [simdIdent, h]

theorem map_simdIdent {p : Name} (h : "fty" ∉ p) : p.map simdIdent = p := by
  induction p with
  | nil => rfl
  | cons a p ih =>
    simp only [List.mem_cons, not_or] at h
    simp [simdIdent_of_ne (Ne.symm h.1), ih h.2]

theorem convertLit_closed (l : Lit) : (convertLit l).closedHere = true := by
  unfold convertLit
  split <;> (try split) <;> (try split) <;> rfl

theorem convertPath_closed (p : Name) : (convertPath p).closedHere = true := by
  unfold convertPath; split <;> rfl

theorem convertCall_closed (f : RExpr) (args : List RExpr) (e : RExpr) (h : convertCall f args = .ok e) : e.closedHere = true := by
  unfold convertCall at h
  split at h
  · cases h
  · split at h
    · split at h <;> (cases h; rfl)
    · cases h; rfl

/-- The cast names of a width. -/
def castName (b32 : Bool) (ty : Name) : String :=
  if ty = ["uty"] then (if b32 then "cast::<u32>" else "cast::<u64>")
  else if ty = ["ity"] then (if b32 then "cast::<i32>" else "cast::<i64>") else (if b32 then "cast::<f32>" else "cast::<f64>")

theorem convertCast_name (b32 : Bool) (e : RExpr) (ty : Name) (h : ty = ["fty"] ∨ ty = ["ity"] ∨ ty = ["uty"]) :
    convertCast b32 e (simdType ty) = attachMethod (castName b32 ty) e := by
  rcases h with rfl | rfl | rfl <;> simp [convertCast, simdType, castName]

theorem simd_closed (b32 : Bool) (e e' : RExpr) (h : e.takesMethod = true) (hv : e.vectorisable = true) (he : simdExpr b32 e = .ok e') :
    e'.closedHere = true := by
  induction e using RExpr.rec (motive_2 := fun _ => True) (motive_3 := fun _ => True) (motive_4 := fun _ => True) generalizing e' with
  | lit l => simp only [simdExpr, Res.pure_eq, Res.ok.injEq] at he; exact he ▸ convertLit_closed l
  | path p => simp only [simdExpr, Res.pure_eq, Res.ok.injEq] at he; exact he ▸ convertPath_closed _
  | method r m args => 
    simp only [simdExpr, Res.bind_eq_ok, Res.pure_eq, Res.ok.injEq] at he
    obtain ⟨_, _, _, _, rfl⟩ := he; rfl
  | call f args =>
    simp only [simdExpr, Res.bind_eq_ok] at he
    obtain ⟨_, _, _, _, h⟩ := he
    exact convertCall_closed _ _ _ h
  | paren e =>
    simp only [simdExpr, Res.bind_eq_ok, Res.pure_eq, Res.ok.injEq] at he
    obtain ⟨_, _, rfl⟩ := he; rfl
  | ifElse c t f =>
    simp only [simdExpr, Res.bind_eq_ok, Res.pure_eq, Res.ok.injEq] at he
    obtain ⟨_, _, _, _, _, _, _, _, rfl⟩ := he; rfl
  | block b =>
    simp only [simdExpr, Res.bind_eq_ok, Res.pure_eq, Res.ok.injEq] at he
    obtain ⟨_, _, rfl⟩ := he; rfl
  | cast e ty ih =>
    simp only [RExpr.vectorisable, Bool.and_eq_true, Bool.or_eq_true, decide_eq_true_eq] at hv
    simp only [simdExpr, Res.bind_eq_ok] at he
    obtain ⟨e1, he1, he2⟩ := he
    rw [convertCast_name b32 e1 ty (by tauto), attach_closed _ _ (ih e1 hv.1.2 hv.2 he1)] at he2
    cases he2; rfl
  | unary | binary | ifThen | assign | assignOp | array | tuple | verbatim | other => simp [RExpr.takesMethod] at h
  | _ => trivial

theorem denote_deblock2 (I : RInterp α) (env : Name → α) (e : RExpr) : (deblock2 e).denote I env = e.denote I env := by
  unfold deblock2
  split
  · simp [RExpr.denote, RStmt.denoteBlock]
  · rfl

theorem denote_lit (I : RInterp α) (n : ℕ) (env : Name → Fin n → α) (i : Fin n) (l : Lit) (h : l.splats = true) :
    (convertLit l).denote (I.lanes n) env i = I.lit l := by
  cases l with
  | float d s =>
    simp only [Lit.splats, Bool.or_eq_true, decide_eq_true_eq] at h
    rcases h with (rfl | rfl) | rfl <;> simp [convertLit, RExpr.denote, RExpr.denoteArgs, RInterp.lanes, RInterp.laneCall]
  | int d s =>
    simp only [Lit.splats, Bool.or_eq_true, decide_eq_true_eq] at h
    rcases h with ((rfl | rfl) | rfl) | rfl <;> simp [convertLit, RExpr.denote, RExpr.denoteArgs, RInterp.lanes, RInterp.laneCall]
  | bool b => simp [Lit.splats] at h
  | other t => simp [Lit.splats] at h

theorem denote_path (I : RInterp α) (n : ℕ) (env : Name → Fin n → α) (i : Fin n) (p : Name) :
    (convertPath p).denote (I.lanes n) env i = env p i := by
  unfold convertPath
  split
  · simp [RExpr.denote, RExpr.denoteArgs, RInterp.lanes, RInterp.laneCall]
  · rfl

theorem compare_lane (I : RInterp α) (n : ℕ) (env : Name → Fin n → α) (i : Fin n) (l r : RExpr) (op : BinOp) (m : String)
    (h : laneCompare m = some op) (hm : m ≠ "select" ∧ m ∉ laneFunctions ∧ m ∉ laneMethods) :
    (RExpr.method (.paren l) m [r]).denote (I.lanes n) env i = I.bin op (l.denote (I.lanes n) env i) (r.denote (I.lanes n) env i) := by
  simp only [RExpr.denote, RExpr.denoteArgs]
  show I.laneMethod m _ [_] = _
  unfold RInterp.laneMethod
  rw [if_neg hm.1, if_neg hm.2.1, if_neg hm.2.2, h]

theorem lanes_binary (I : RInterp α) (n : ℕ) (env : Name → Fin n → α) (i : Fin n) (l r : RExpr) (op : BinOp)
    (h : (laneOp op || op = .eq || op = .lt || op = .le || op = .ne || op = .ge || op = .gt) = true) :
    (convertBinary l op r).denote (I.lanes n) env i = I.bin op (l.denote (I.lanes n) env i) (r.denote (I.lanes n) env i) := by
  cases op
  case eq => exact compare_lane I n env i l r .eq "lanes_eq" rfl (by decide)
  case lt => exact compare_lane I n env i l r .lt "lanes_lt" rfl (by decide)
  case le => exact compare_lane I n env i l r .le "lanes_le" rfl (by decide)
  case ne => exact compare_lane I n env i l r .ne "lanes_ne" rfl (by decide)
  case ge => exact compare_lane I n env i l r .ge "lanes_ge" rfl (by decide)
  case gt => exact compare_lane I n env i l r .gt "lanes_gt" rfl (by decide)
  all_goals first | (simp [laneOp] at h; done) | simp [convertBinary, RExpr.denote, RInterp.lanes, laneOp]

theorem denote_cast (I : RInterp α) (b32 : Bool) (hI : I.Fits b32) (n : ℕ) (a : Fin n → α) (i : Fin n) (ty : Name)
    (h : ty = ["fty"] ∨ ty = ["ity"] ∨ ty = ["uty"]) : (I.lanes n).meth (castName b32 ty) a [] i = I.cast ty (a i) := by
  rcases h with rfl | rfl | rfl
  · rw [hI.fty]; cases b32 <;> simp [castName, RInterp.lanes, RInterp.laneMethod, laneFunctions, laneMethods, laneCompare, laneCast]
  · rw [hI.ity]; cases b32 <;> simp [castName, RInterp.lanes, RInterp.laneMethod, laneFunctions, laneMethods, laneCompare, laneCast]
  · rw [hI.uty]; cases b32 <;> simp [castName, RInterp.lanes, RInterp.laneMethod, laneFunctions, laneMethods, laneCompare, laneCast]

theorem select_lane (I : RInterp α) (n : ℕ) (c a b : Fin n → α) (i : Fin n) :
    (I.lanes n).meth "select" c [a, b] i = if I.test (c i) then a i else b i := by
  simp [RInterp.lanes, RInterp.laneMethod]

theorem envSet_rel {n : ℕ} {senv : Name → α} {venv : Name → Fin n → α} {i : Fin n} {x : String} {a : α} {b : Fin n → α} {p : Name}
    (hab : b i = a) (h : p ≠ [x] → venv p i = senv p) : envSet venv x b p i = envSet senv x a p := by
  unfold envSet
  split
  · exact hab
  · exact h ‹_›

mutual
theorem lanes_expr (I : RInterp α) (b32 : Bool) (hI : I.Fits b32) (n : ℕ) (e : RExpr) (hv : e.vectorisable = true) :
    ∃ e', simdExpr b32 e = .ok e' ∧ ∀ (i : Fin n) (senv : Name → α) (venv : Name → Fin n → α),
      (∀ p ∈ e.freeNames, venv p i = senv p) → e'.denote (I.lanes n) venv i = e.denote I senv := by
  match e with
  | .lit l =>
    simp only [RExpr.vectorisable] at hv
    exact ⟨_, rfl, fun i senv venv _ => by rw [denote_lit _ _ _ _ _ hv]; simp [RExpr.denote]⟩
  | .path p =>
    simp only [RExpr.vectorisable, decide_eq_true_eq] at hv
    refine ⟨_, rfl, fun i senv venv h => ?_⟩
    rw [map_simdIdent hv, denote_path]
    simpa [RExpr.denote, RExpr.freeNames] using h
  | .unary op e =>
    simp only [RExpr.vectorisable, Bool.and_eq_true] at hv
    obtain ⟨e', he, hd⟩ := lanes_expr I b32 hI n e hv.2
    refine ⟨_, by simp [simdExpr, he]; rfl, fun i senv venv h => ?_⟩
    simp only [RExpr.denote, RInterp.lanes]
    exact congrArg _ (hd i senv venv (by simpa [RExpr.freeNames] using h))
  | .binary l op r =>
    simp only [RExpr.vectorisable, Bool.and_eq_true] at hv
    obtain ⟨l', hl, hdl⟩ := lanes_expr I b32 hI n l hv.1.2
    obtain ⟨r', hr, hdr⟩ := lanes_expr I b32 hI n r hv.2
    refine ⟨_, by simp [simdExpr, hl, hr]; rfl, fun i senv venv h => ?_⟩
    simp only [RExpr.freeNames, List.mem_append] at h
    rw [lanes_binary _ _ _ _ _ _ _ hv.1.1, hdl i senv venv fun p hp => h p (.inl hp), hdr i senv venv fun p hp => h p (.inr hp)]
    simp [RExpr.denote]
  | .method r m args =>
    simp only [RExpr.vectorisable, Bool.and_eq_true, Bool.or_eq_true, decide_eq_true_eq] at hv
    obtain ⟨r', hr, hdr⟩ := lanes_expr I b32 hI n r hv.1.2
    obtain ⟨args', ha, hda⟩ := lanes_args I b32 hI n args hv.2
    have hm : simdIdent m = m := by
      refine simdIdent_of_ne ?_
      rintro rfl
      revert hv; simp [laneMethods, laneFunctions]
    refine ⟨_, by simp [simdExpr, hr, ha, hm]; rfl, fun i senv venv h => ?_⟩
    simp only [RExpr.freeNames, List.mem_append] at h
    have h1 := hdr i senv venv fun p hp => h p (.inl hp)
    have h2 := hda i senv venv fun p hp => h p (.inr hp)
    simp only [RExpr.denote]
    have hms : m ≠ "select" := by rintro rfl; revert hv; simp [laneMethods, laneFunctions]
    show I.laneMethod m (r'.denote (I.lanes n) venv i) ((RExpr.denoteArgs (I.lanes n) venv args').map (· i)) = _
    rw [h1, h2]
    unfold RInterp.laneMethod
    rw [if_neg hms]
    by_cases hf : m ∈ laneFunctions
    · rw [if_pos hf, hI.method m hf]
    · rw [if_neg hf, if_pos (hv.1.1.resolve_right hf)]
  | .call f args =>
    simp only [RExpr.vectorisable, Bool.and_eq_true] at hv
    obtain ⟨args', ha, hda⟩ := lanes_args I b32 hI n args hv.1
    have hv2 := hv.2
    split at hv2
    · rename_i g a as
      simp only [decide_eq_true_eq] at hv2
      have hg : simdIdent g = g := simdIdent_of_ne (by rintro rfl; revert hv2; simp [laneFunctions])
      have hp : convertPath [g] = .path [g] := by simp [convertPath]
      have hgs : g ∈ simdCalls := hv2
      obtain ⟨a', as', rfl⟩ : ∃ a' as', args' = a' :: as' := by
        simp only [simdExprs, Res.bind_eq_ok, Res.pure_eq, Res.ok.injEq] at ha
        obtain ⟨x, _, y, _, rfl⟩ := ha
        exact ⟨x, y, rfl⟩
      refine ⟨.method (.paren a') g as', by simp [simdExpr, ha, hg, hp, convertCall, hgs], fun i senv venv h => ?_⟩
      have h2 := hda i senv venv (by simpa [RExpr.freeNames] using h)
      have hms : g ≠ "select" := by rintro rfl; revert hv2; simp [laneFunctions]
      simp only [RExpr.denote]
      show I.laneMethod g (a'.denote (I.lanes n) venv i) ((RExpr.denoteArgs (I.lanes n) venv as').map (· i)) = _
      unfold RInterp.laneMethod
      rw [if_neg hms, if_pos hv2, ← h2]
      simp [RExpr.denoteArgs]
    · rename_i t m a
      simp only [Bool.and_eq_true, decide_eq_true_eq] at hv2
      obtain ⟨rfl, rfl⟩ := hv2
      obtain ⟨a', rfl⟩ : ∃ a', args' = [a'] := by
        simp only [simdExprs, Res.bind_eq_ok, Res.pure_eq, Res.ok.injEq] at ha
        obtain ⟨x, _, y, rfl, rfl⟩ := ha
        exact ⟨x, rfl⟩
      refine ⟨.call (.path ["Self", "from_bits"]) [a'], by simp [simdExpr, ha, simdIdent, convertPath, convertCall], fun i senv venv h => ?_⟩
      have h2 := hda i senv venv (by simpa [RExpr.freeNames] using h)
      simp only [RExpr.denote]
      show I.laneCall ["Self", "from_bits"] ((RExpr.denoteArgs (I.lanes n) venv [a']).map (· i)) = _
      rw [h2]
      simp [RInterp.laneCall, RExpr.denoteArgs]
    · cases hv2
  | .paren e =>
    simp only [RExpr.vectorisable] at hv
    obtain ⟨e', he, hd⟩ := lanes_expr I b32 hI n e hv
    refine ⟨_, by simp [simdExpr, he]; rfl, fun i senv venv h => ?_⟩
    simp only [RExpr.denote]
    exact hd i senv venv (by simpa [RExpr.freeNames] using h)
  | .cast e ty =>
    simp only [RExpr.vectorisable, Bool.and_eq_true, Bool.or_eq_true, decide_eq_true_eq] at hv
    have hty : ty = ["fty"] ∨ ty = ["ity"] ∨ ty = ["uty"] := by tauto
    obtain ⟨e', he, hd⟩ := lanes_expr I b32 hI n e hv.2
    refine ⟨.method e' (castName b32 ty) [], ?_, fun i senv venv h => ?_⟩
    · simp only [simdExpr, he, Res.ok_bind, convertCast_name b32 e' ty hty]
      exact attach_closed _ _ (simd_closed b32 e e' hv.1.2 hv.2 he)
    · simp only [RExpr.denote, RExpr.denoteArgs]
      rw [denote_cast I b32 hI n _ i ty hty, hd i senv venv (by simpa [RExpr.freeNames] using h)]
  | .ifElse c t f =>
    simp only [RExpr.vectorisable, Bool.and_eq_true] at hv
    obtain ⟨⟨⟨hc, ht1⟩, ht⟩, hf⟩ := hv
    obtain ⟨c', hc', hdc⟩ := lanes_expr I b32 hI n c hc
    obtain ⟨t', ht', hdt⟩ := lanes_block I b32 hI n t ht
    obtain ⟨f', hf', hdf⟩ := lanes_expr I b32 hI n f hf
    obtain ⟨u, rfl⟩ : ∃ u, t = [.expr u] := by
      split at ht1
      · exact ⟨_, rfl⟩
      · cases ht1
    obtain ⟨u', rfl⟩ : ∃ u', t' = [.expr u'] := by
      simp only [simdStmts, simdStmt, Res.bind_eq_ok, Res.pure_eq, Res.ok.injEq] at ht'
      obtain ⟨_, ⟨x, _, rfl⟩, _, rfl, rfl⟩ := ht'
      exact ⟨x, rfl⟩
    refine ⟨.method (.paren c') "select" [u', deblock2 f'], by simp [simdExpr, hc', ht', hf', deblock1], fun i senv venv h => ?_⟩
    simp only [RExpr.freeNames, List.mem_append] at h
    have h1 := hdc i senv venv fun p hp => h p (.inl (.inl hp))
    have h2 := hdt i senv venv fun p hp => h p (.inl (.inr hp))
    have h3 := hdf i senv venv fun p hp => h p (.inr hp)
    simp only [RExpr.denote, RExpr.denoteArgs, select_lane, denote_deblock2]
    rw [h1, h3]
    simp only [RStmt.denoteBlock] at h2 ⊢
    rw [h2]
  | .block b =>
    simp only [RExpr.vectorisable] at hv
    obtain ⟨b', hb, hd⟩ := lanes_block I b32 hI n b hv
    refine ⟨_, by simp [simdExpr, hb]; rfl, fun i senv venv h => ?_⟩
    simp only [RExpr.denote]
    exact hd i senv venv (by simpa [RExpr.freeNames] using h)
  | .ifThen _ _ | .assign _ _ | .assignOp _ _ _ | .array _ | .tuple _ | .verbatim | .other _ => simp [RExpr.vectorisable] at hv

theorem lanes_args (I : RInterp α) (b32 : Bool) (hI : I.Fits b32) (n : ℕ) (es : List RExpr) (hv : RExpr.vectorisableAll es = true) :
    ∃ es', simdExprs b32 es = .ok es' ∧ ∀ (i : Fin n) (senv : Name → α) (venv : Name → Fin n → α),
      (∀ p ∈ RExpr.freeNamesAll es, venv p i = senv p) → (RExpr.denoteArgs (I.lanes n) venv es').map (· i) = RExpr.denoteArgs I senv es := by
  match es with
  | [] => exact ⟨[], rfl, fun _ _ _ _ => by simp [RExpr.denoteArgs]⟩
  | e :: es =>
    simp only [RExpr.vectorisableAll, Bool.and_eq_true] at hv
    obtain ⟨e', he, hd⟩ := lanes_expr I b32 hI n e hv.1
    obtain ⟨es', hes, hds⟩ := lanes_args I b32 hI n es hv.2
    refine ⟨e' :: es', by simp [simdExprs, he, hes], fun i senv venv h => ?_⟩
    simp only [RExpr.freeNamesAll, List.mem_append] at h
    simp only [RExpr.denoteArgs, List.map_cons]
    rw [hd i senv venv fun p hp => h p (.inl hp), hds i senv venv fun p hp => h p (.inr hp)]

theorem lanes_block (I : RInterp α) (b32 : Bool) (hI : I.Fits b32) (n : ℕ) (b : List RStmt) (hv : RStmt.vectorisableBlock b = true) :
    ∃ b', simdStmts b32 b = .ok b' ∧ ∀ (i : Fin n) (senv : Name → α) (venv : Name → Fin n → α),
      (∀ p ∈ RStmt.freeNames b, venv p i = senv p) → RStmt.denoteBlock (I.lanes n) venv b' i = RStmt.denoteBlock I senv b := by
  match b with
  | [] => simp [RStmt.vectorisableBlock] at hv
  | .expr e :: rest =>
    simp only [RStmt.vectorisableBlock, Bool.and_eq_true, List.isEmpty_iff] at hv
    obtain ⟨e', he, hd⟩ := lanes_expr I b32 hI n e hv.1
    obtain ⟨_, rfl⟩ := hv
    refine ⟨[.expr e'], by simp [simdStmts, simdStmt, he], fun i senv venv h => ?_⟩
    simp only [RStmt.denoteBlock]
    exact hd i senv venv (by simpa [RStmt.freeNames] using h)
  | .letInit x t e :: rest =>
    simp only [RStmt.vectorisableBlock, Bool.and_eq_true, decide_eq_true_eq] at hv
    obtain ⟨e', he, hd⟩ := lanes_expr I b32 hI n e hv.1.2
    obtain ⟨rest', hr, hdr⟩ := lanes_block I b32 hI n rest hv.2
    refine ⟨.letInit x none e' :: rest', by simp [simdStmts, simdStmt, he, hr, simdIdent_of_ne hv.1.1], fun i senv venv h => ?_⟩
    simp only [RStmt.freeNames, List.mem_append, List.mem_filter] at h
    simp only [RStmt.denoteBlock]
    refine hdr i _ _ fun p hp => envSet_rel (hd i senv venv fun p hp => h p (.inl hp)) fun hne => h p (.inr ⟨hp, by simpa using hne⟩)
  | .decl _ _ :: _ | .semi _ :: _ | .const _ _ _ :: _ => simp [RStmt.vectorisableBlock] at hv
end

end Verif
