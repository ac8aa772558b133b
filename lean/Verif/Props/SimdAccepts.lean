import Verif.Spec.SimdAccepts
import Verif.Props.Simd

/-!
# C79: which programs the vectoriser accepts
-/

namespace Verif

/-- A step that runs exactly under a condition, and panics otherwise. -/
def Runs {β : Type} (r : Res β) (b : Bool) : Prop := if b then ∃ x, r = .ok x else r = .panic

theorem Runs.ok {β : Type} (x : β) : Runs (Res.ok x) true := ⟨x, rfl⟩

theorem Runs.bind {β γ : Type} {r : Res β} {b : Bool} {k : β → Res γ} {c : Bool} (h : Runs r b) (hk : ∀ x, r = .ok x → Runs (k x) c) :
    Runs (r >>= k) (b && c) := by
  cases b with
  | true =>
    obtain ⟨x, rfl⟩ := h
    simpa using hk x rfl
  | false =>
    have h' : r = .panic := h
    subst h'
    exact (show Res.panic = .panic from rfl)

theorem Runs.bind_ok {β γ : Type} {r : Res β} {b : Bool} {k : β → Res γ} (h : Runs r b) (hk : ∀ x, r = .ok x → ∃ y, k x = .ok y) :
    Runs (r >>= k) b := by
  simpa using h.bind (c := true) hk

theorem Runs.iff_ok {β : Type} {r : Res β} {b : Bool} (h : Runs r b) : (∃ x, r = .ok x) ↔ b = true := by
  cases b with
  | true => simpa using (show ∃ x, r = .ok x from h)
  | false => have h' : r = .panic := h; simp [h']

theorem Runs.iff_panic {β : Type} {r : Res β} {b : Bool} (h : Runs r b) : r = .panic ↔ b = false := by
  cases b with
  | true => obtain ⟨x, rfl⟩ := h; simp
  | false => have h' : r = .panic := h; simp [h']

/-- Does a translated expression end in a conversion? -/
def RExpr.endsAs : RExpr → Bool
  | .cast _ _ => true
  | .unary _ e => e.endsAs
  | .binary _ _ r => r.endsAs
  | .assign _ r => r.endsAs
  | .assignOp _ _ r => r.endsAs
  | _ => false

theorem attach_runs (m : String) (e : RExpr) : Runs (attachMethod m e) (!e.endsAs) := by
  induction e using RExpr.rec (motive_2 := fun _ => True) (motive_3 := fun _ => True) (motive_4 := fun _ => True) with
  | unary op e ih => exact ih.bind_ok fun x _ => ⟨_, rfl⟩
  | binary l op r _ ih => exact ih.bind_ok fun x _ => ⟨_, rfl⟩
  | assign l r _ ih => exact ih.bind_ok fun x _ => ⟨_, rfl⟩
  | assignOp l op r _ ih => exact ih.bind_ok fun x _ => ⟨_, rfl⟩
  | cast e ty => exact (show Res.panic = .panic from rfl)
  | lit | path | method | call | paren | ifThen | ifElse | block | array | tuple | verbatim | other => exact Runs.ok _
  | _ => trivial

theorem attach_endsAs (m : String) (e e' : RExpr) (h : attachMethod m e = .ok e') : e'.endsAs = false := by
  induction e using RExpr.rec (motive_2 := fun _ => True) (motive_3 := fun _ => True) (motive_4 := fun _ => True) generalizing e' with
  | unary op e ih | binary l op e _ ih | assign l e _ ih | assignOp l op e _ ih =>
    simp only [attachMethod, Res.bind_eq_ok, Res.pure_eq, Res.ok.injEq] at h
    obtain ⟨x, hx, rfl⟩ := h
    simpa [RExpr.endsAs] using ih x hx
  | cast e ty => simp [attachMethod] at h
  | lit | path | method | call | paren | ifThen | ifElse | block | array | tuple | verbatim | other =>
    simp only [attachMethod, Res.pure_eq, Res.ok.injEq] at h; subst h; rfl
  | _ => trivial

theorem convertCast_vector (b32 : Bool) (e : RExpr) (ty : Name) (h : isVectorType ty = true) :
    ∃ m, convertCast b32 e (simdType ty) = attachMethod m e := by
  simp only [isVectorType, Bool.or_eq_true, decide_eq_true_eq] at h
  rcases h with ((((rfl | rfl) | rfl) | rfl) | rfl) | rfl <;> simp [convertCast, simdType] <;> exact ⟨_, rfl⟩

theorem convertCast_scalar (b32 : Bool) (e : RExpr) (ty : Name) (h : isVectorType ty = false) :
    convertCast b32 e (simdType ty) = .ok (.cast e ty) := by
  simp only [isVectorType, Bool.or_eq_false_iff, decide_eq_false_iff_not] at h
  obtain ⟨⟨⟨⟨⟨h1, h2⟩, h3⟩, h4⟩, h5⟩, h6⟩ := h
  simp [convertCast, simdType, h1, h2, h3, h4, h5, h6]

theorem simd_endsAs (b32 : Bool) (e e' : RExpr) (h : simdExpr b32 e = .ok e') : e'.endsAs = e.endsInCast := by
  induction e using RExpr.rec (motive_2 := fun _ => True) (motive_3 := fun _ => True) (motive_4 := fun _ => True) generalizing e' with
  | lit l =>
    simp only [simdExpr, Res.pure_eq, Res.ok.injEq] at h; subst h
    unfold convertLit
    split <;> (try split) <;> (try split) <;> rfl
  | path p =>
    simp only [simdExpr, Res.pure_eq, Res.ok.injEq] at h; subst h
    unfold convertPath; split <;> rfl
  | unary op e ih =>
    simp only [simdExpr, Res.bind_eq_ok, Res.pure_eq, Res.ok.injEq] at h
    obtain ⟨x, hx, rfl⟩ := h
    simpa [RExpr.endsAs, RExpr.endsInCast] using ih x hx
  | binary l op r _ ih =>
    simp only [simdExpr, Res.bind_eq_ok, Res.pure_eq, Res.ok.injEq] at h
    obtain ⟨x, hx, y, hy, rfl⟩ := h
    have := ih y hy
    cases op <;> simp_all [convertBinary, RExpr.endsAs, RExpr.endsInCast, BinOp.maskOp]
  | assign l r _ ih | assignOp l op r _ ih =>
    simp only [simdExpr, Res.bind_eq_ok, Res.pure_eq, Res.ok.injEq] at h
    obtain ⟨x, hx, y, hy, rfl⟩ := h
    simpa [RExpr.endsAs, RExpr.endsInCast] using ih y hy
  | method r m args =>
    simp only [simdExpr, Res.bind_eq_ok, Res.pure_eq, Res.ok.injEq] at h
    obtain ⟨x, hx, y, hy, rfl⟩ := h; rfl
  | call f args =>
    simp only [simdExpr, Res.bind_eq_ok] at h
    obtain ⟨x, hx, y, hy, h⟩ := h
    have := convertCall_closed _ _ _ h
    cases e' <;> simp_all [RExpr.closedHere, RExpr.endsAs, RExpr.endsInCast]
  | paren e | block b | array es | tuple es =>
    simp only [simdExpr, Res.bind_eq_ok, Res.pure_eq, Res.ok.injEq] at h
    obtain ⟨x, hx, rfl⟩ := h; rfl
  | cast e ty ih =>
    simp only [simdExpr, Res.bind_eq_ok] at h
    obtain ⟨x, hx, h⟩ := h
    by_cases hty : isVectorType ty = true
    · obtain ⟨m, hm⟩ := convertCast_vector b32 x ty hty
      rw [hm] at h
      rw [attach_endsAs m x e' h, RExpr.endsInCast, hty]; rfl
    · rw [convertCast_scalar b32 x ty (by simpa using hty)] at h
      cases h
      simp [RExpr.endsAs, RExpr.endsInCast, hty]
  | ifThen c t =>
    simp only [simdExpr, Res.bind_eq_ok, Res.pure_eq, Res.ok.injEq] at h
    obtain ⟨_, _, _, _, _, _, rfl⟩ := h; rfl
  | ifElse c t f =>
    simp only [simdExpr, Res.bind_eq_ok, Res.pure_eq, Res.ok.injEq] at h
    obtain ⟨_, _, _, _, _, _, _, _, rfl⟩ := h; rfl
  | verbatim | other =>
    simp only [simdExpr, Res.pure_eq, Res.ok.injEq] at h; subst h; rfl
  | _ => trivial

/-- A block of one expression stays one, and no other becomes one. -/
theorem deblock1_runs (b32 : Bool) (t t' : List RStmt) (h : simdStmts b32 t = .ok t') :
    Runs (deblock1 t') (isSingleExpr t) := by
  match t with
  | [] => simp only [simdStmts, Res.pure_eq, Res.ok.injEq] at h; subst h; exact (show Res.panic = .panic from rfl)
  | [s] =>
    simp only [simdStmts, Res.bind_eq_ok, Res.pure_eq, Res.ok.injEq] at h
    obtain ⟨s', hs, _, rfl, rfl⟩ := h
    cases s <;> simp only [simdStmt, Res.bind_eq_ok, Res.pure_eq, Res.ok.injEq] at hs
    · subst hs; exact (show Res.panic = .panic from rfl)
    · obtain ⟨x, _, rfl⟩ := hs; exact (show Res.panic = .panic from rfl)
    · obtain ⟨x, _, rfl⟩ := hs; exact Runs.ok x
    · obtain ⟨x, _, rfl⟩ := hs; exact (show Res.panic = .panic from rfl)
    · obtain ⟨x, _, rfl⟩ := hs; exact (show Res.panic = .panic from rfl)
  | s :: s2 :: rest =>
    simp only [simdStmts, Res.bind_eq_ok, Res.pure_eq, Res.ok.injEq] at h
    obtain ⟨a, _, _, ⟨b, _, c, _, rfl⟩, rfl⟩ := h
    have h1 : deblock1 (a :: b :: c) = .panic := by cases a <;> rfl
    have h2 : isSingleExpr (s :: s2 :: rest) = false := by cases s <;> rfl
    rw [h1, h2]
    exact (show Res.panic = .panic from rfl)

theorem convertCall_runs (f : RExpr) (args args' : List RExpr) (h : args'.isEmpty = args.isEmpty) : Runs (convertCall f args') (!args.isEmpty) := by
  rw [← h]
  cases args' with
  | nil => exact (show Res.panic = .panic from rfl)
  | cons a as =>
    simp only [convertCall]
    split
    · split <;> exact Runs.ok _
    · exact Runs.ok _

theorem simdExprs_isEmpty (b32 : Bool) (es es' : List RExpr) (h : simdExprs b32 es = .ok es') : es'.isEmpty = es.isEmpty := by
  cases es with
  | nil => simp only [simdExprs, Res.pure_eq, Res.ok.injEq] at h; subst h; rfl
  | cons e es =>
    simp only [simdExprs, Res.bind_eq_ok, Res.pure_eq, Res.ok.injEq] at h
    obtain ⟨x, _, y, _, rfl⟩ := h; rfl

mutual
theorem simdExpr_runs (b32 : Bool) (e : RExpr) : Runs (simdExpr b32 e) e.simdAccepts := by
  match e with
  | .lit l | .path p | .verbatim | .other _ => simp only [simdExpr, RExpr.simdAccepts]; exact Runs.ok _
  | .unary op e | .paren e =>
    simp only [simdExpr, RExpr.simdAccepts]
    exact (simdExpr_runs b32 e).bind_ok fun x _ => ⟨_, rfl⟩
  | .binary l op r =>
    simp only [simdExpr, RExpr.simdAccepts]
    exact (simdExpr_runs b32 l).bind fun x _ => (simdExpr_runs b32 r).bind_ok fun y _ => ⟨_, rfl⟩
  | .assign l r | .assignOp l op r =>
    simp only [simdExpr, RExpr.simdAccepts]
    exact (simdExpr_runs b32 l).bind fun x _ => (simdExpr_runs b32 r).bind_ok fun y _ => ⟨_, rfl⟩
  | .method r m args =>
    simp only [simdExpr, RExpr.simdAccepts]
    exact (simdExpr_runs b32 r).bind fun x _ => (simdExprs_runs b32 args).bind_ok fun y _ => ⟨_, rfl⟩
  | .call f args =>
    simp only [simdExpr, RExpr.simdAccepts, Bool.and_assoc]
    exact (simdExpr_runs b32 f).bind fun x _ => (simdExprs_runs b32 args).bind fun y hy => convertCall_runs x args y (simdExprs_isEmpty b32 args y hy)
  | .cast e ty =>
    simp only [simdExpr, RExpr.simdAccepts]
    refine (simdExpr_runs b32 e).bind fun x hx => ?_
    rw [← simd_endsAs b32 e x hx]
    by_cases hty : isVectorType ty = true
    · obtain ⟨m, hm⟩ := convertCast_vector b32 x ty hty
      simpa [hty, hm] using attach_runs m x
    · rw [convertCast_scalar b32 x ty (by simpa using hty)]
      simpa [hty] using Runs.ok _
  | .ifThen c t =>
    simp only [simdExpr, RExpr.simdAccepts, Bool.and_assoc]
    exact (simdExpr_runs b32 c).bind fun x _ => (simdStmts_runs b32 t).bind fun t' ht => (deblock1_runs b32 t t' ht).bind_ok fun _ _ => ⟨_, rfl⟩
  | .ifElse c t f =>
    simp only [simdExpr, RExpr.simdAccepts, Bool.and_assoc]
    exact (simdExpr_runs b32 c).bind fun x _ => (simdStmts_runs b32 t).bind fun t' ht => (simdExpr_runs b32 f).bind fun _ _ =>
      (deblock1_runs b32 t t' ht).bind_ok fun _ _ => ⟨_, rfl⟩
  | .block b =>
    simp only [simdExpr, RExpr.simdAccepts]
    exact (simdStmts_runs b32 b).bind_ok fun x _ => ⟨_, rfl⟩
  | .array es | .tuple es =>
    simp only [simdExpr, RExpr.simdAccepts]
    exact (simdExprs_runs b32 es).bind_ok fun x _ => ⟨_, rfl⟩

theorem simdExprs_runs (b32 : Bool) (es : List RExpr) : Runs (simdExprs b32 es) (RExpr.simdAcceptsAll es) := by
  match es with
  | [] => simp only [simdExprs, RExpr.simdAcceptsAll]; exact Runs.ok _
  | e :: es =>
    simp only [simdExprs, RExpr.simdAcceptsAll]
    exact (simdExpr_runs b32 e).bind fun x _ => (simdExprs_runs b32 es).bind_ok fun y _ => ⟨_, rfl⟩

theorem simdStmt_runs (b32 : Bool) (s : RStmt) : Runs (simdStmt b32 s) s.simdAccepts := by
  match s with
  | .decl _ _ => simp only [simdStmt, RStmt.simdAccepts]; exact Runs.ok _
  | .letInit _ _ e | .expr e | .semi e | .const _ _ e =>
    simp only [simdStmt, RStmt.simdAccepts]
    exact (simdExpr_runs b32 e).bind_ok fun x _ => ⟨_, rfl⟩

theorem simdStmts_runs (b32 : Bool) (ss : List RStmt) : Runs (simdStmts b32 ss) (RStmt.simdAcceptsAll ss) := by
  match ss with
  | [] => simp only [simdStmts, RStmt.simdAcceptsAll]; exact Runs.ok _
  | s :: ss =>
    simp only [simdStmts, RStmt.simdAcceptsAll]
    exact (simdStmt_runs b32 s).bind fun x _ => (simdStmts_runs b32 ss).bind_ok fun y _ => ⟨_, rfl⟩
end

/-- **C79** An expression is vectorised exactly if it has the accepted shape; otherwise the vectoriser panics. -/
theorem C79_expr_iff (b32 : Bool) (e : RExpr) :
    ((∃ e', simdExpr b32 e = .ok e') ↔ e.simdAccepts = true) ∧ (simdExpr b32 e = .panic ↔ e.simdAccepts = false) :=
  ⟨(simdExpr_runs b32 e).iff_ok, (simdExpr_runs b32 e).iff_panic⟩

theorem insertConsts_runs (b32 : Bool) (cs : List SimdConst) (hcs : ∀ c ∈ cs, c.value.simdAccepts = true) (used : List String) (body : List RStmt) :
    ∃ body', insertConsts b32 cs used body = .ok body' := by
  induction cs generalizing used body with
  | nil => exact ⟨body, rfl⟩
  | cons c cs ih =>
    unfold insertConsts
    split
    · obtain ⟨e, he⟩ := ((simdExpr_runs b32 c.value).iff_ok).mpr (hcs c List.mem_cons_self)
      rw [he, Res.ok_bind]
      exact ih (fun d hd => hcs d (List.mem_cons_of_mem _ hd)) _ _
    · exact ih (fun d hd => hcs d (List.mem_cons_of_mem _ hd)) _ _

/-- What the vectoriser asks of a function. -/
def RFn.simdAccepts (f : RFn) : Bool := !f.params.isEmpty && RStmt.simdAcceptsAll f.body

/-- What the vectoriser asks of an item. -/
def RItem.simdAccepts : RItem → Bool
  | .fn f => f.simdAccepts
  | _ => true

theorem simdFn_runs (b32 : Bool) (cs : List SimdConst) (hcs : ∀ c ∈ cs, c.value.simdAccepts = true) (f : RFn) : Runs (simdFn b32 cs f) f.simdAccepts := by
  unfold simdFn RFn.simdAccepts
  split
  · rename_i h; rw [h]; exact (show Res.panic = .panic from rfl)
  · rename_i p ps h
    rw [h]
    have hs := simdStmts_runs b32 (.letInit p.1 none (.path ["self"]) :: f.body)
    simp only [RStmt.simdAcceptsAll, RStmt.simdAccepts, RExpr.simdAccepts, Bool.true_and] at hs
    simp only [List.isEmpty_cons, Bool.not_false, Bool.true_and]
    refine hs.bind_ok fun x _ => ?_
    obtain ⟨y, hy⟩ := insertConsts_runs b32 cs hcs
      (f.name :: List.map (·.1) (p :: ps) ++ RStmt.identsAll (.letInit p.1 none (.path ["self"]) :: f.body)) x
    rw [hy]
    exact ⟨_, rfl⟩

theorem simdItems_runs (b32 : Bool) (its : List RItem) (cs : List SimdConst) (hcs : ∀ c ∈ cs, c.value.simdAccepts = true)
    (hits : ∀ n t e, RItem.const n t e ∈ its → e.simdAccepts = true) : Runs (simdItems b32 its cs) (its.all RItem.simdAccepts) := by
  induction its generalizing cs with
  | nil => exact Runs.ok _
  | cons it its ih =>
    have hits' : ∀ n t e, RItem.const n t e ∈ its → e.simdAccepts = true := fun n t e h => hits n t e (List.mem_cons_of_mem _ h)
    cases it with
    | const n t e =>
      simp only [simdItems, List.all_cons, RItem.simdAccepts, Bool.true_and]
      refine ih _ (fun c hc => ?_) hits'
      rcases List.mem_append.mp hc with hc | hc
      · exact hcs c hc
      · rw [List.mem_singleton] at hc
        subst hc
        exact hits n t e List.mem_cons_self
    | type n t => simpa only [simdItems, List.all_cons, RItem.simdAccepts, Bool.true_and] using ih cs hcs hits'
    | other k => simpa only [simdItems, List.all_cons, RItem.simdAccepts, Bool.true_and] using ih cs hcs hits'
    | fn f =>
      simp only [simdItems, List.all_cons, RItem.simdAccepts]
      exact (simdFn_runs b32 cs hcs f).bind fun m _ => (ih cs hcs hits').bind_ok fun _ _ => ⟨_, rfl⟩

/-- **C79** A file whose constants have accepted values is vectorised exactly if every function has a parameter and an accepted body; otherwise the
vectoriser panics. -/
theorem C79_file_iff (b32 : Bool) (file : List RItem) (hc : ∀ n t e, RItem.const n t e ∈ file → e.simdAccepts = true) :
    ((∃ ms, toSimd b32 file = .ok ms) ↔ ∀ f, RItem.fn f ∈ file → f.params ≠ [] ∧ RStmt.simdAcceptsAll f.body = true) ∧
    (toSimd b32 file = .panic ↔ ∃ f, RItem.fn f ∈ file ∧ (f.params = [] ∨ RStmt.simdAcceptsAll f.body = false)) := by
  have h := simdItems_runs b32 file [] (by simp) hc
  have h1 : file.all RItem.simdAccepts = true ↔ ∀ f, RItem.fn f ∈ file → f.params ≠ [] ∧ RStmt.simdAcceptsAll f.body = true := by
    rw [List.all_eq_true]
    constructor
    · intro H f hf
      simpa [RItem.simdAccepts, RFn.simdAccepts] using H _ hf
    · intro H it hit
      cases it with
      | fn f => simpa [RItem.simdAccepts, RFn.simdAccepts] using H f hit
      | _ => rfl
  refine ⟨h.iff_ok.trans h1, h.iff_panic.trans ?_⟩
  rw [← Bool.not_eq_true, h1]
  push Not
  refine exists_congr fun f => and_congr_right fun _ => ?_
  simp [or_iff_not_imp_left]

example : RStmt.simdAcceptsAll laneSample.body = true := by decide

/-- **C79** The four ways to be refused. -/
theorem C79_refused (b32 : Bool) :
    simdExpr b32 (.app "runif" []) = .panic ∧ simdExpr b32 (.as (.as (.v "n") "usize") "fty") = .panic ∧
    simdExpr b32 (.ifElse (.v "c") [.letU "y" (.v "x"), .expr (.v "y")] (.v "z")) = .panic ∧ simdFn b32 [] ⟨"f", [], none, []⟩ = .panic := by
  cases b32 <;> exact ⟨rfl, rfl, rfl, rfl⟩

end Verif
