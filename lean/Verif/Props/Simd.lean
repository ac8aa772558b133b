import Verif.Lemmas.Simd

/-!
# C45: vectorised code computes the scalar function in every lane
-/

namespace Verif

variable {α : Type}

/-! ## Names used -/

mutual
theorem freeNames_idents (e : RExpr) (p : Name) (hp : p ∈ e.freeNames) (s : String) (hs : s ∈ p) : s ∈ e.idents := by
  match e with
  | .lit _ | .verbatim | .other _ => simp [RExpr.freeNames] at hp
  | .path q =>
    simp only [RExpr.freeNames, List.mem_singleton] at hp
    simpa [RExpr.idents, hp] using hs
  | .unary _ e | .paren e | .cast e _ =>
    simp only [RExpr.freeNames] at hp
    simpa [RExpr.idents] using freeNames_idents e p hp s hs
  | .binary l _ r | .assign l r | .assignOp l _ r =>
    simp only [RExpr.freeNames, List.mem_append] at hp
    simp only [RExpr.idents, List.mem_append]
    exact hp.imp (fun h => freeNames_idents l p h s hs) (fun h => freeNames_idents r p h s hs)
  | .method r m args =>
    simp only [RExpr.freeNames, List.mem_append] at hp
    simp only [RExpr.idents, List.mem_append, List.mem_cons]
    exact hp.imp (fun h => freeNames_idents r p h s hs) (fun h => .inr (freeNames_identsAll args p h s hs))
  | .call f args =>
    simp only [RExpr.freeNames] at hp
    simp only [RExpr.idents, List.mem_append]
    exact .inr (freeNames_identsAll args p hp s hs)
  | .ifThen c t =>
    simp only [RExpr.freeNames, List.mem_append] at hp
    simp only [RExpr.idents, List.mem_append]
    exact hp.imp (fun h => freeNames_idents c p h s hs) (fun h => freeNames_block t p h s hs)
  | .ifElse c t f =>
    simp only [RExpr.freeNames, List.mem_append] at hp
    simp only [RExpr.idents, List.mem_append]
    exact hp.imp (fun h => h.imp (fun h => freeNames_idents c p h s hs) (fun h => freeNames_block t p h s hs)) (fun h => freeNames_idents f p h s hs)
  | .block b =>
    simp only [RExpr.freeNames] at hp
    simpa [RExpr.idents] using freeNames_block b p hp s hs
  | .array es | .tuple es =>
    simp only [RExpr.freeNames] at hp
    simpa [RExpr.idents] using freeNames_identsAll es p hp s hs

theorem freeNames_identsAll (es : List RExpr) (p : Name) (hp : p ∈ RExpr.freeNamesAll es) (s : String) (hs : s ∈ p) : s ∈ RExpr.identsAll es := by
  match es with
  | [] => simp [RExpr.freeNamesAll] at hp
  | e :: es =>
    simp only [RExpr.freeNamesAll, List.mem_append] at hp
    simp only [RExpr.identsAll, List.mem_append]
    exact hp.imp (fun h => freeNames_idents e p h s hs) (fun h => freeNames_identsAll es p h s hs)

theorem freeNames_block (b : List RStmt) (p : Name) (hp : p ∈ RStmt.freeNames b) (s : String) (hs : s ∈ p) : s ∈ RStmt.identsAll b := by
  match b with
  | [] => simp [RStmt.freeNames] at hp
  | .decl _ _ :: rest =>
    simp only [RStmt.freeNames] at hp
    simp only [RStmt.identsAll, List.mem_append]
    exact .inr (freeNames_block rest p hp s hs)
  | .letInit _ _ e :: rest | .const _ _ e :: rest =>
    simp only [RStmt.freeNames, List.mem_append, List.mem_filter] at hp
    simp only [RStmt.identsAll, RStmt.idents, List.mem_append, List.mem_cons]
    exact hp.imp (fun h => .inr (freeNames_idents e p h s hs)) (fun h => freeNames_block rest p h.1 s hs)
  | .expr e :: rest | .semi e :: rest =>
    simp only [RStmt.freeNames, List.mem_append] at hp
    simp only [RStmt.identsAll, RStmt.idents, List.mem_append]
    exact hp.imp (fun h => freeNames_idents e p h s hs) (fun h => freeNames_block rest p h s hs)
end

/-! ## Parameters -/

theorem bindParams_other (env : Name → α) (ps : List (String × Name)) (as : List α) (p : Name) (h : ∀ q ∈ ps, p ≠ [q.1]) :
    bindParams env ps as p = env p := by
  induction ps generalizing env as with
  | nil => cases as <;> rfl
  | cons q ps ih =>
    cases as with
    | nil => rfl
    | cons a as =>
      rw [bindParams, ih _ _ fun r hr => h r (List.mem_cons_of_mem _ hr)]
      simp [envSet, h q List.mem_cons_self]

theorem bindParams_names (env : Name → α) (ps qs : List (String × Name)) (as : List α) (h : ps.map (·.1) = qs.map (·.1)) :
    bindParams env ps as = bindParams env qs as := by
  induction ps generalizing env qs as with
  | nil =>
    cases qs with
    | nil => rfl
    | cons q qs => simp at h
  | cons p ps ih =>
    cases qs with
    | nil => simp at h
    | cons q qs =>
      simp only [List.map_cons, List.cons.injEq] at h
      cases as with
      | nil => rfl
      | cons a as => rw [bindParams, bindParams, h.1, ih _ _ _ h.2]

theorem bindParams_lane {n : ℕ} (venv : Name → Fin n → α) (senv : Name → α) (i : Fin n) (ps : List (String × Name)) (vs : List (Fin n → α))
    (hl : vs.length = ps.length) (p : Name) (hp : (∃ q ∈ ps, p = [q.1]) ∨ venv p i = senv p) :
    bindParams venv ps vs p i = bindParams senv ps (vs.map (· i)) p := by
  induction ps generalizing venv senv vs with
  | nil =>
    obtain rfl : vs = [] := List.length_eq_zero_iff.mp hl
    rcases hp with ⟨_, h, _⟩ | h
    · cases h
    · exact h
  | cons q ps ih =>
    cases vs with
    | nil => simp at hl
    | cons v vs =>
      simp only [List.length_cons, Nat.add_right_cancel_iff] at hl
      rw [bindParams, List.map_cons, bindParams]
      refine ih _ _ vs hl ?_
      by_cases hq : p = [q.1]
      · exact .inr (by simp [envSet, hq])
      · rcases hp with ⟨r, hr, h⟩ | h
        · rcases List.mem_cons.mp hr with rfl | hr
          · exact absurd h hq
          · exact .inl ⟨r, hr, h⟩
        · exact .inr (by simp [envSet, hq, h])

/-! ## Constants -/

/-- What the names of a program mean when its constants are given by expressions that use no other constant. -/
def constNames (I : RInterp α) (base : Name → α) (cs : List SimdConst) : Name → α := fun p =>
  match cs.find? (fun c => p = [c.name]) with
  | some c => c.value.denote I base
  | none => base p

/-- Constants that can be copied into a method: distinct names, values without names of their own. -/
structure CopyableConsts (cs : List SimdConst) : Prop where
  nodup : (cs.map (·.name)).Nodup
  value : ∀ c ∈ cs, c.value.vectorisable = true
  closed : ∀ c ∈ cs, ∀ p ∈ c.value.freeNames, p.length ≠ 1

theorem CopyableConsts.tail {c : SimdConst} {cs : List SimdConst} (h : CopyableConsts (c :: cs)) : CopyableConsts cs :=
  ⟨(List.nodup_cons.mp h.nodup).2, fun d hd => h.value d (List.mem_cons_of_mem _ hd), fun d hd => h.closed d (List.mem_cons_of_mem _ hd)⟩

theorem constNames_mem (I : RInterp α) (base : Name → α) (cs : List SimdConst) (hcs : (cs.map (·.name)).Nodup) (c : SimdConst) (hc : c ∈ cs) :
    constNames I base cs [c.name] = c.value.denote I base := by
  unfold constNames
  have : cs.find? (fun d => [c.name] = [d.name]) = some c := by
    induction cs with
    | nil => cases hc
    | cons d cs ih =>
      simp only [List.map_cons, List.nodup_cons] at hcs
      rcases List.mem_cons.mp hc with rfl | hc
      · simp
      · have hne : c.name ≠ d.name := fun h => hcs.1 (h ▸ List.mem_map_of_mem hc)
        rw [List.find?_cons_of_neg (by simpa using hne)]
        exact ih hcs.2 hc
  rw [this]

theorem constNames_other (I : RInterp α) (base : Name → α) (cs : List SimdConst) (p : Name) (h : ∀ c ∈ cs, p ≠ [c.name]) :
    constNames I base cs p = base p := by
  unfold constNames
  rw [List.find?_eq_none.mpr (by simpa using h)]

/-- The constants in front of a body bring into scope those that are used. -/
theorem insert_consts (I : RInterp α) (b32 : Bool) (hI : I.Fits b32) (n : ℕ) (cs : List SimdConst) (hcs : CopyableConsts cs) (used : List String)
    (body : List RStmt) : ∃ body', insertConsts b32 cs used body = .ok body' ∧
      ∀ (i : Fin n) (base : Name → α) (venv : Name → Fin n → α), (∀ p, p.length ≠ 1 → venv p i = base p) →
        ∃ venv2 : Name → Fin n → α, RStmt.denoteBlock (I.lanes n) venv body' i = RStmt.denoteBlock (I.lanes n) venv2 body i ∧
          (∀ p, (∀ c ∈ cs, p ≠ [c.name]) → venv2 p = venv p) ∧ ∀ c ∈ cs, c.name ∈ used → venv2 [c.name] i = c.value.denote I base := by
  induction cs generalizing used body with
  | nil => exact ⟨body, rfl, fun i base venv _ => ⟨venv, rfl, fun _ _ => rfl, by simp⟩⟩
  | cons c cs ih =>
    have hc := lanes_expr I b32 hI n c.value (hcs.value c List.mem_cons_self)
    obtain ⟨e, he, hd⟩ := hc
    have hnot : ∀ d ∈ cs, c.name ≠ d.name := fun d hd h => (List.nodup_cons.mp hcs.nodup).1 (List.mem_map.mpr ⟨d, hd, h.symm⟩)
    by_cases hu : c.name ∈ used
    · obtain ⟨body', hb, hsem⟩ := ih hcs.tail (used ++ c.value.idents) (.letInit c.name none e :: body)
      refine ⟨body', by simp [insertConsts, hu, he, hb], fun i base venv hv => ?_⟩
      obtain ⟨venv2, h1, h2, h3⟩ := hsem i base venv hv
      refine ⟨envSet venv2 c.name (e.denote (I.lanes n) venv2), by simpa [RStmt.denoteBlock] using h1, fun p hp => ?_, fun d hd' hdu => ?_⟩
      · rw [envSet, if_neg (hp c List.mem_cons_self)]
        exact h2 p fun d hd => hp d (List.mem_cons_of_mem _ hd)
      · rcases List.mem_cons.mp hd' with rfl | hd'
        · rw [envSet, if_pos rfl]
          refine hd i base venv2 fun p hp => ?_
          have hlen := hcs.closed d List.mem_cons_self p hp
          rw [h2 p (fun c' _ h => hlen (by simp [h]))]
          exact hv p hlen
        · rw [envSet, if_neg (by simpa using fun h => hnot d hd' h.symm)]
          exact h3 d hd' (List.mem_append_left _ hdu)
    · obtain ⟨body', hb, hsem⟩ := ih hcs.tail used body
      refine ⟨body', by simp [insertConsts, hu, hb], fun i base venv hv => ?_⟩
      obtain ⟨venv2, h1, h2, h3⟩ := hsem i base venv hv
      refine ⟨venv2, h1, fun p hp => h2 p fun d hd => hp d (List.mem_cons_of_mem _ hd), fun d hd' hdu => ?_⟩
      rcases List.mem_cons.mp hd' with rfl | hd'
      · exact absurd hdu hu
      · exact h3 d hd' hdu

/-! ## Functions -/

/-- A function that can be vectorised behind these constants. -/
structure VectorisableFn (cs : List SimdConst) (f : RFn) : Prop where
  some_params : f.params ≠ []
  params_nodup : (f.params.map (·.1)).Nodup
  params_plain : ∀ q ∈ f.params, q.1 ≠ "fty" ∧ q.1 ≠ "self" ∧ ∀ c ∈ cs, q.1 ≠ c.name
  no_self : ∀ c ∈ cs, c.name ≠ "self"
  name_plain : f.name ≠ "fty"
  body : RStmt.vectorisableBlock f.body = true
  known : ∀ p ∈ RStmt.freeNames f.body, p.length ≠ 1 ∨ (∃ q ∈ f.params, p = [q.1]) ∨ ∃ c ∈ cs, p = [c.name]

/-- **C45** A vectorisable function becomes a method of the same name which computes the function in every lane, whatever numbers, operators and
functions mean.  Partial: the shape of the body is restricted by `vectorisable`; the theorems below show what goes wrong outside it. -/
theorem C45_method_partial (I : RInterp α) (b32 : Bool) (hI : I.Fits b32) (cs : List SimdConst) (hcs : CopyableConsts cs) (f : RFn) (hf : VectorisableFn cs f) :
    ∃ m, simdFn b32 cs f = .ok m ∧ m.name = f.name ∧
      ∀ (n : ℕ) (base : Name → α) (v : Fin n → α) (vs : List (Fin n → α)) (_ : vs.length + 1 = f.params.length) (i : Fin n),
        m.apply (I.lanes n) (fun p _ => base p) v vs i = f.apply I (constNames I base cs) (v i :: vs.map (· i)) := by
  obtain ⟨q0, ps, hps⟩ : ∃ q0 ps, f.params = q0 :: ps := List.exists_cons_of_ne_nil hf.some_params
  have hq0 := hf.params_plain q0 (by simp [hps])
  -- the translation does not depend on the number of lanes
  obtain ⟨body', hb', -⟩ := lanes_block I b32 hI 0 f.body hf.body
  have hfirst : simdStmts b32 (.letInit q0.1 none (.path ["self"]) :: f.body) = .ok (.letInit q0.1 none (.path ["self"]) :: body') := by
    simp [simdStmts, simdStmt, simdExpr, hb', simdIdent, convertPath, hq0.1]
  obtain ⟨body2, hb2, -⟩ := insert_consts I b32 hI 0 cs hcs
    (f.name :: (f.params.map (·.1)) ++ RStmt.identsAll (.letInit q0.1 none (.path ["self"]) :: f.body)) (.letInit q0.1 none (.path ["self"]) :: body')
  refine ⟨⟨f.name, ps.map (fun q => (simdIdent q.1, simdType q.2)), body2⟩, ?_, rfl, fun n base v vs hl i => ?_⟩
  · simp only [simdFn, hps]
    rw [hfirst, Res.ok_bind, ← hps, hb2]
    simp [simdIdent_of_ne hf.name_plain]
  · have hl' : vs.length = ps.length := by rw [hps, List.length_cons] at hl; omega
    obtain ⟨bn, hbn, hsem⟩ := lanes_block I b32 hI n f.body hf.body
    have hbe : bn = body' := Res.ok.inj (hbn.symm.trans hb')
    rw [hbe] at hsem
    obtain ⟨cn, hb2n, hcsem⟩ := insert_consts I b32 hI n cs hcs
      (f.name :: (f.params.map (·.1)) ++ RStmt.identsAll (.letInit q0.1 none (.path ["self"]) :: f.body)) (.letInit q0.1 none (.path ["self"]) :: body')
    have hce : cn = body2 := Res.ok.inj (hb2n.symm.trans hb2)
    rw [hce] at hcsem
    have hmem : ∀ q ∈ ps, q ∈ f.params := fun q hq => by rw [hps]; exact List.mem_cons_of_mem _ hq
    have hnames : (ps.map (fun q => (simdIdent q.1, simdType q.2))).map (·.1) = ps.map (·.1) := by
      rw [List.map_map]
      exact List.map_congr_left fun q hq => simdIdent_of_ne (hf.params_plain q (hmem q hq)).1
    have hq0ps : ∀ q ∈ ps, q.1 ≠ q0.1 := fun q hq h => by
      have := hf.params_nodup
      rw [hps, List.map_cons, List.nodup_cons] at this
      exact this.1 (h ▸ List.mem_map_of_mem hq)
    rw [SimdMethod.apply, bindParams_names _ _ ps _ hnames, RFn.apply, hps, bindParams]
    set venv : Name → Fin n → α := bindParams (envSet (fun p _ => base p) "self" v) ps vs with hvenv
    have hlong : ∀ p : Name, p.length ≠ 1 → venv p i = base p := fun p hp => by
      rw [hvenv, bindParams_other _ _ _ _ fun q _ h => hp (by simp [h]), envSet, if_neg fun h => hp (by simp [h])]
    obtain ⟨venv2, h1, h2, h3⟩ := hcsem i base venv hlong
    rw [h1]
    simp only [RStmt.denoteBlock, RExpr.denote]
    refine hsem i _ _ fun p hp => ?_
    have hself : venv2 ["self"] = v := by
      rw [h2 _ fun c hc h => hf.no_self c hc (by simpa using h.symm), hvenv, bindParams_other _ _ _ _ fun q hq h => ?_, envSet, if_pos rfl]
      exact (hf.params_plain q (hmem q hq)).2.1 (by simpa using h.symm)
    by_cases hp0 : p = [q0.1]
    · subst hp0
      rw [envSet, if_pos rfl, hself, bindParams_other _ _ _ _ fun q hq h => hq0ps q hq (by simpa using h.symm), envSet, if_pos rfl]
    · rw [envSet, if_neg hp0]
      rcases hf.known p hp with hlen | ⟨q, hq, rfl⟩ | ⟨c, hc, rfl⟩
      · rw [h2 p fun c _ h => hlen (by simp [h]), hlong p hlen, bindParams_other _ _ _ _ fun q _ h => hlen (by simp [h]), envSet, if_neg hp0,
          constNames_other _ _ _ _ fun c _ h => hlen (by simp [h])]
      · rw [hps] at hq
        rcases List.mem_cons.mp hq with rfl | hq
        · exact absurd rfl hp0
        · rw [h2 _ fun c hc h => (hf.params_plain q (hmem q hq)).2.2 c hc (by simpa using h)]
          exact bindParams_lane _ _ i ps vs hl' _ (.inl ⟨q, hq, rfl⟩)
      · have hused : c.name ∈ f.name :: (f.params.map (·.1)) ++ RStmt.identsAll (.letInit q0.1 none (.path ["self"]) :: f.body) := by
          have := freeNames_block _ _ hp c.name (by simp)
          simp only [RStmt.identsAll, List.mem_append]
          exact .inr (.inr this)
        have hcp : ∀ q ∈ f.params, q.1 ≠ c.name := fun q hq => (hf.params_plain q hq).2.2 c hc
        rw [h3 c hc hused, bindParams_other _ _ _ _ fun q hq h => hcp q (hmem q hq) (by simpa using h.symm), envSet, if_neg hp0,
          constNames_mem _ _ _ hcs.nodup c hc]

/-! ### Two instances -/

/-- `fn f(x: fty) -> fty { let y: fty = if x < 0.0 { -x } else { PI - x.sqrt() }; exp2(y) * y as ity as fty }`. -/
def laneSample : RFn := .ofFty "f" ["x"] [
  .letT "y" "fty" (.cond (.lt (.v "x") (.num "0.0")) (-.v "x") (.v "PI" - .method (.v "x") "sqrt" [])),
  .expr (.app "exp2" [.v "y"] * .as (.as (.v "y") "ity") "fty")]

def laneConsts : List SimdConst := [⟨"PI", ["fty"], .num "3.14"⟩, ⟨"NAN", ["fty"], .path ["f32", "NAN"]⟩]

example : CopyableConsts laneConsts := ⟨by decide, by decide, by decide⟩
example : VectorisableFn laneConsts laneSample := ⟨by decide, by decide, by decide, by decide, by decide, by decide, by decide⟩

/-- Whole numbers as an instance of numbers: casts to unsigned types stop at zero, a condition holds if it is not zero. -/
def wholeInterp : RInterp ℤ where
  lit l := match l with | .float d _ => d.length | .int d _ => d.length | _ => 0
  un op a := match op with | .neg => -a | _ => a
  bin op a b := match op with | .add => a + b | .sub => a - b | .mul => a * b | .lt => if a < b then 1 else 0 | _ => 0
  meth _ a _ := a
  call _ args := args.headD 0
  cast t a := if t = ["uty"] ∨ t = ["u32"] ∨ t = ["u64"] then max a 0 else a
  tuple _ := 0
  test a := a ≠ 0
  junk := -1000

theorem wholeInterp_fits (b32 : Bool) : wholeInterp.Fits b32 := by
  cases b32 <;> refine ⟨by funext a; simp [wholeInterp], by funext a; simp [wholeInterp], by funext a; simp [wholeInterp], fun f _ x args => rfl⟩

/-! ## Whole files -/

/-- The constants of a list of items. -/
def RItem.constsOf : List RItem → List SimdConst
  | [] => []
  | .const n t e :: rest => ⟨n, t, e⟩ :: RItem.constsOf rest
  | _ :: rest => RItem.constsOf rest

theorem simdItems_mem (b32 : Bool) (pre : List RItem) (f : RFn) (post : List RItem) (cs : List SimdConst) (ms : List SimdMethod)
    (h : simdItems b32 (pre ++ .fn f :: post) cs = .ok ms) : ∃ m ∈ ms, simdFn b32 (cs ++ RItem.constsOf pre) f = .ok m := by
  induction pre generalizing cs ms with
  | nil =>
    simp only [List.nil_append, simdItems, Res.bind_eq_ok, Res.pure_eq, Res.ok.injEq] at h
    obtain ⟨m, hm, _, _, rfl⟩ := h
    exact ⟨m, by simp, by simpa [RItem.constsOf] using hm⟩
  | cons it pre ih =>
    cases it with
    | const n t e =>
      obtain ⟨m, h1, h2⟩ := ih _ _ h
      exact ⟨m, h1, by simpa [RItem.constsOf] using h2⟩
    | type n t => exact ih _ _ h
    | other k => exact ih _ _ h
    | fn g =>
      simp only [List.cons_append, simdItems, Res.bind_eq_ok, Res.pure_eq, Res.ok.injEq] at h
      obtain ⟨m, _, ms', hms, rfl⟩ := h
      obtain ⟨m', h1, h2⟩ := ih _ _ hms
      exact ⟨m', List.mem_cons_of_mem _ h1, h2⟩

/-- **C45** In a vectorised file: every function that can be vectorised behind the constants before it has a method of its name, computing the
function in every lane. -/
theorem C45_file_partial (I : RInterp α) (b32 : Bool) (hI : I.Fits b32) (pre : List RItem) (f : RFn) (post : List RItem) (ms : List SimdMethod)
    (h : toSimd b32 (pre ++ .fn f :: post) = .ok ms) (hcs : CopyableConsts (RItem.constsOf pre)) (hf : VectorisableFn (RItem.constsOf pre) f) :
    ∃ m ∈ ms, m.name = f.name ∧
      ∀ (n : ℕ) (base : Name → α) (v : Fin n → α) (vs : List (Fin n → α)) (_ : vs.length + 1 = f.params.length) (i : Fin n),
        m.apply (I.lanes n) (fun p _ => base p) v vs i = f.apply I (constNames I base (RItem.constsOf pre)) (v i :: vs.map (· i)) := by
  obtain ⟨m, hm, h1⟩ := simdItems_mem b32 pre f post [] ms h
  obtain ⟨m', h2, hname, hsem⟩ := C45_method_partial I b32 hI _ hcs f hf
  obtain rfl : m = m' := Res.ok.inj ((by simpa using h1 : simdFn b32 (RItem.constsOf pre) f = .ok m).symm.trans h2)
  exact ⟨m, hm, hname, hsem⟩

/-! ## What goes wrong elsewhere -/

/-- **C45** `-x as uty` becomes `-x.cast::<u32>()`, which negates after the conversion: the lanes are not those of the function. -/
theorem C45_cast_wrong (b32 : Bool) : ∃ (f : RFn) (m : SimdMethod), simdFn b32 [] f = .ok m ∧ f.params.length = 1 ∧
    ∃ v : Fin 1 → ℤ, m.apply (wholeInterp.lanes 1) (fun _ _ => 0) v [] 0 ≠ f.apply wholeInterp (fun _ => 0) [v 0] := by
  refine ⟨.ofFty "f" ["x"] [.expr (.cast (.unary .neg (.path ["x"])) ["uty"])],
    ⟨"f", [], [.letInit "x" none (.path ["self"]), .expr (.unary .neg (.method (.path ["x"]) (castName b32 ["uty"]) []))]⟩, ?_, rfl, fun _ => 1, ?_⟩
  · cases b32 <;> rfl
  · cases b32 <;> decide

/-- **C45** A function that is not one of the seven stays a free call, which means nothing among the methods: its lanes are not those of the function. -/
theorem C45_free_call_wrong (b32 : Bool) (g : String) (hg : g ∉ laneFunctions) (hg' : g ≠ "fty") : ∃ (f : RFn) (m : SimdMethod), simdFn b32 [] f = .ok m ∧
    f.body = [.expr (.app g [.v "x"])] ∧ f.params.length = 1 ∧
    ∃ v : Fin 1 → ℤ, m.apply (wholeInterp.lanes 1) (fun _ _ => 0) v [] 0 ≠ f.apply wholeInterp (fun _ => 0) [v 0] := by
  refine ⟨.ofFty "f" ["x"] [.expr (.app g [.v "x"])],
    ⟨"f", [], [.letInit "x" none (.path ["self"]), .expr (.app g [.v "x"])]⟩, ?_, rfl, rfl, fun _ => 1, ?_⟩
  · have h2 : g ∉ simdCalls := hg
    simp [simdFn, RFn.ofFty, simdStmts, simdStmt, simdExpr, simdExprs, RExpr.app, RExpr.v, simdIdent, hg', convertPath, convertCall, h2, insertConsts]
  · simp [SimdMethod.apply, RFn.apply, RFn.ofFty, RStmt.denoteBlock, RExpr.denote, RExpr.denoteArgs, RExpr.app, RExpr.v, bindParams, envSet, RInterp.lanes,
      RInterp.laneCall, wholeInterp]

/-- **C45** A constant that uses another one is copied without it: here `A` is not defined in the method. -/
theorem C45_const_chain_wrong (b32 : Bool) : ∃ (cs : List SimdConst) (f : RFn) (m : SimdMethod), simdFn b32 cs f = .ok m ∧
    (∀ c ∈ cs, c.value.vectorisable = true) ∧ RStmt.vectorisableBlock f.body = true ∧ "A" ∈ cs.map (·.name) ∧
    m.body = [.letInit "B" none (.path ["A"]), .letInit "x" none (.path ["self"]), .expr (.path ["B"])] :=
  ⟨[⟨"A", ["fty"], .num "2.0"⟩, ⟨"B", ["fty"], .v "A"⟩], .ofFty "f" ["x"] [.expr (.v "B")], _, by cases b32 <;> rfl, by decide, by decide, by decide, rfl⟩

end Verif
