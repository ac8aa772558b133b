import Mathlib.Data.List.Induction
import Mathlib.Tactic.ByContra
import Verif.Lemmas.Leaves

/-!
# C10-C14: substitution, variable lists, collection and unsupported expressions
-/

namespace Verif

/-- The bindings made by a sequence of `add_var` calls on a new list, with the positions the calls returned. -/
def addAll : List (Name × Expr) → VariableList × List Nat
  | h => h.foldl (fun (s : VariableList × List Nat) b =>
      let (v, i) := s.1.addVar b.1 b.2
      (v, s.2 ++ [i])) (VariableList.new, [])

theorem addAll_snoc (h : List (Name × Expr)) (b : Name × Expr) :
    addAll (h ++ [b]) = (((addAll h).1.addVar b.1 b.2).1, (addAll h).2 ++ [((addAll h).1.addVar b.1 b.2).2]) := by
  simp [addAll, List.foldl_append]

theorem find_eq_firstBinding (v : VariableList) (n : Name) : v.find n = firstBinding n v.inner := by
  obtain ⟨l⟩ := v
  induction l with
  | nil => rfl
  | cons b rest ih =>
    obtain ⟨m, e⟩ := b
    simp only [VariableList.find, firstBinding] at ih ⊢
    by_cases h : m = n
    · simp [h]
    · rw [List.find?_cons_of_neg (by simpa using h), ih, if_neg h]

theorem firstBinding_append (n : Name) (l r : List (Name × Expr)) :
    firstBinding n (l ++ r) = (firstBinding n l).or (firstBinding n r) := by
  induction l with
  | nil => rfl
  | cons b rest ih =>
    obtain ⟨m, e⟩ := b
    by_cases h : m = n <;> simp [firstBinding, h, ih]

theorem addAll_inner (h : List (Name × Expr)) : (addAll h).1.inner = h := by
  induction h using List.reverseRecOn with
  | nil => rfl
  | append_singleton l b ih => rw [addAll_snoc]; simp [VariableList.addVar, ih]

/-! ## C12 -/

/-- **C12** The calls return the positions 0, 1, 2, ... in order. -/
theorem C12_add_var_positions (h : List (Name × Expr)) : (addAll h).2 = List.range h.length := by
  induction h using List.reverseRecOn with
  | nil => rfl
  | append_singleton l b ih =>
    rw [addAll_snoc]
    simp [VariableList.addVar, addAll_inner, ih, List.range_succ]

/-- **C12** `find` returns the value of the earliest binding: it answers `e` exactly when the history splits
into calls that do not mention the name, a call binding the name to `e`, and anything. -/
theorem C12_find_earliest (h : List (Name × Expr)) (n : Name) (e : Expr) :
    (addAll h).1.find n = some e ↔
      ∃ before after, h = before ++ (n, e) :: after ∧ ∀ b ∈ before, b.1 ≠ n := by
  rw [find_eq_firstBinding, addAll_inner]
  induction h with
  | nil => simp [firstBinding]
  | cons b rest ih =>
    obtain ⟨m, x⟩ := b
    by_cases hm : m = n
    · subst hm
      simp only [firstBinding, if_true, Option.some.injEq]
      constructor
      · rintro rfl
        exact ⟨[], rest, rfl, by simp⟩
      · rintro ⟨before, after, heq, hb⟩
        cases before with
        | nil => simp only [List.nil_append, List.cons.injEq, Prod.mk.injEq] at heq; exact heq.1.2
        | cons c cs =>
          simp only [List.cons_append, List.cons.injEq] at heq
          exact absurd (by rw [← heq.1]) (hb c (by simp))
    · rw [firstBinding, if_neg hm, ih]
      constructor
      · rintro ⟨before, after, heq, hb⟩
        refine ⟨(m, x) :: before, after, by rw [heq]; rfl, ?_⟩
        intro c hc
        rcases List.mem_cons.mp hc with rfl | hc
        · exact hm
        · exact hb c hc
      · rintro ⟨before, after, heq, hb⟩
        cases before with
        | nil =>
          simp only [List.nil_append, List.cons.injEq, Prod.mk.injEq] at heq
          exact absurd heq.1.1 hm
        | cons c cs =>
          simp only [List.cons_append, List.cons.injEq] at heq
          exact ⟨cs, after, heq.2, fun d hd => hb d (by simp [hd])⟩

/-- **C12** `find` answers nothing exactly when the name was never added. -/
theorem C12_find_none (h : List (Name × Expr)) (n : Name) :
    (addAll h).1.find n = none ↔ ∀ b ∈ h, b.1 ≠ n := by
  rw [find_eq_firstBinding, addAll_inner]
  induction h with
  | nil => simp [firstBinding]
  | cons b rest ih =>
    obtain ⟨m, x⟩ := b
    by_cases hm : m = n <;> simp [firstBinding, hm, ih]

/-- **C12** Adding bindings never changes what an already bound name stands for. -/
theorem C12_find_stable (h more : List (Name × Expr)) (n : Name) (hn : ∃ b ∈ h, b.1 = n) :
    (addAll (h ++ more)).1.find n = (addAll h).1.find n := by
  have : (addAll h).1.find n ≠ none := by
    intro hc
    obtain ⟨b, hb, hbn⟩ := hn
    exact (C12_find_none h n).mp hc b hb hbn
  rw [find_eq_firstBinding, find_eq_firstBinding, addAll_inner, addAll_inner, firstBinding_append] at *
  cases hx : firstBinding n h with
  | none => rw [hx] at this; exact absurd rfl this
  | some e => rfl

example : (addAll [(["x"], .path ["a"]), (["x"], .path ["b"]), (["y"], .path ["c"])]).1.find ["x"] = some (.path ["a"]) ∧
    (addAll [(["x"], .path ["a"]), (["x"], .path ["b"])]).2 = [0, 1] := ⟨rfl, rfl⟩

/-! ## C10, C11 -/

/-- The environment in which the listed names stand for the meaning of their replacement. -/
def updated {α : Type} (I : Interp α) (bindings : List (Name × Expr)) : Interp α :=
  { I with var := fun n => match firstBinding n bindings with
      | some r => r.denote I
      | none => I.var n }

theorem subst_leaves (e e' : Expr) (vars : VariableList) (h : subst e vars = .ok e') :
    e' = e.mapLeaves .lit (fun p => (firstBinding p vars.inner).getD (.path p)) := by
  refine Visitor.visit_leaves (substVisitor vars) rfl rfl rfl .lit _ ?_ ?_ e e' h
  · intro l e h; simpa [substVisitor] using h.symm
  · intro p e h
    simp only [substVisitor, find_eq_firstBinding] at h
    cases hb : firstBinding p vars.inner with
    | none => rw [hb] at h; simpa using h.symm
    | some r => rw [hb] at h; simpa using h.symm

theorem subst_supported (e : Expr) (vars : VariableList) (h : e.supported = true) :
    subst e vars = .ok (e.mapLeaves .lit (fun p => (firstBinding p vars.inner).getD (.path p))) := by
  obtain ⟨e', he⟩ := Visitor.visit_supported (substVisitor vars) rfl rfl (fun l => ⟨_, rfl⟩)
    (fun p => by simp only [substVisitor]; split <;> exact ⟨_, rfl⟩) e h
  have := subst_leaves e e' vars he
  rw [subst, he, this]

/-- **C10** Substitution followed by evaluation is evaluation in the updated environment, for every meaning of
operators, methods, literals and names. -/
theorem C10_subst_meaning {α : Type} (I : Interp α) (e e' : Expr) (vars : VariableList)
    (h : subst e vars = .ok e') : e'.denote I = e.denote (updated I vars.inner) := by
  rw [subst_leaves e e' vars h, Expr.denote_mapLeaves]
  apply Expr.denote_congr <;> try rfl
  intro p _
  simp only [updated]
  cases firstBinding p vars.inner <;> simp [Expr.denote]

/-- **C10** It succeeds on every supported expression. -/
theorem C10_subst_total (e : Expr) (vars : VariableList) (h : e.supported = true) : ∃ e', subst e vars = .ok e' :=
  ⟨_, subst_supported e vars h⟩

example : subst (.binary (.path ["x"]) .mul (.methodCall (.path ["x"]) "sin" []))
    ⟨[(["x"], .binary (.path ["y"]) .add (.path ["x"]))]⟩ =
    .ok (.binary (.binary (.path ["y"]) .add (.path ["x"])) .mul
      (.methodCall (.binary (.path ["y"]) .add (.path ["x"])) "sin" [])) := rfl

/-- **C11** The replacement is inserted as is: a listed name becomes exactly its replacement (whatever names that
contains), an unlisted one stays. -/
theorem C11_subst_as_is (n : Name) (vars : VariableList) :
    (∀ r, firstBinding n vars.inner = some r → subst (.path n) vars = .ok r) ∧
    (firstBinding n vars.inner = none → subst (.path n) vars = .ok (.path n)) := by
  constructor
  · intro r h
    rw [subst_supported _ _ rfl]; simp [Expr.mapLeaves, h]
  · intro h
    rw [subst_supported _ _ rfl]; simp [Expr.mapLeaves, h]

/-- **C11** Swapping two names twice gives back the expression: replacements are simultaneous. -/
theorem C11_subst_swap (e : Expr) (x y : Name) (hs : e.supported = true) :
    (do let e1 ← subst e ⟨[(x, .path y), (y, .path x)]⟩
        subst e1 ⟨[(x, .path y), (y, .path x)]⟩) = .ok e := by
  rw [subst_supported e _ hs, Res.ok_bind]
  have hsw : ∀ p, ((firstBinding p [(x, Expr.path y), (y, Expr.path x)]).getD (.path p)) =
      .path (if x = p then y else if y = p then x else p) := by
    intro p
    by_cases h1 : x = p
    · simp [firstBinding, h1]
    · by_cases h2 : y = p <;> simp [firstBinding, h1, h2]
  have hs2 : (e.mapLeaves .lit (fun p => (firstBinding p [(x, Expr.path y), (y, Expr.path x)]).getD (.path p))).supported
      = true := by
    simp only [hsw]
    revert hs
    have args : ∀ (f : Name → Name) (l : List Expr),
        (∀ a ∈ l, a.supported = true → (a.mapLeaves .lit (fun p => .path (f p))).supported = true) →
        Expr.supportedArgs l = true → Expr.supportedArgs (Expr.mapLeavesArgs .lit (fun p => .path (f p)) l) = true := by
      intro f l
      induction l with
      | nil => intros; rfl
      | cons a as ih =>
        intro ha h
        simp only [Expr.supportedArgs, Bool.and_eq_true, Expr.mapLeavesArgs] at h ⊢
        exact ⟨ha a (by simp) h.1, ih (fun b hb => ha b (by simp [hb])) h.2⟩
    generalize (fun p => if x = p then y else if y = p then x else p) = f
    revert e
    refine Expr.ind ?_ ?_ ?_ ?_ ?_ ?_ ?_ ?_ ?_
    · intro op e ih h; exact ih h
    · intro l op r ihl ihr h
      simp only [Expr.supported, Bool.and_eq_true, Expr.mapLeaves] at h ⊢
      exact ⟨ihl h.1, ihr h.2⟩
    · intro r m as ihr iha h
      simp only [Expr.supported, Bool.and_eq_true, Expr.mapLeaves] at h ⊢
      exact ⟨ihr h.1, args _ as iha h.2⟩
    · intro e ih h; exact ih h
    · intro l h; rfl
    · intro p h; rfl
    · intro b m ih h; exact ih h
    · intro f as _ _ h; simp [Expr.supported] at h
    · intro k h; simp [Expr.supported] at h
  rw [subst_supported _ _ hs2, Expr.mapLeaves_mapLeaves]
  simp only [hsw, Expr.mapLeaves]
  congr 1
  apply Expr.mapLeaves_id
  intro p _
  simp only [Expr.path.injEq]
  by_cases h1 : x = p
  · subst h1
    simp only [if_true]
    by_cases h3 : x = y <;> simp [h3]
  · simp only [if_neg h1]
    by_cases h2 : y = p
    · simp [h2]
    · simp [h1, h2]

/-- **C11** An expression none of whose names is listed is returned unchanged. -/
theorem C11_subst_unlisted (e : Expr) (vars : VariableList) (hs : e.supported = true)
    (h : ∀ p ∈ e.names, ∀ b ∈ vars.inner, b.1 ≠ p) : subst e vars = .ok e := by
  rw [subst_supported e vars hs]
  congr 1
  apply Expr.mapLeaves_id
  intro p hp
  have : firstBinding p vars.inner = none := by
    have h2 := h p hp
    generalize vars.inner = l at h2
    induction l with
    | nil => rfl
    | cons b rest ih =>
      obtain ⟨m, x⟩ := b
      rw [firstBinding, if_neg (h2 (m, x) (by simp)), ih (fun c hc => h2 c (by simp [hc]))]
  rw [this]; rfl

example : subst (.binary (.path ["x"]) .sub (.path ["y"])) ⟨[(["x"], .path ["y"]), (["y"], .path ["x"])]⟩ =
    .ok (.binary (.path ["y"]) .sub (.path ["x"])) := rfl
example : (Expr.binary (.path ["x"]) .sub (.path ["y"])).supported = true := rfl

/-! ## C13 -/

/-- **C13** `subst` refuses exactly the unsupported expressions. -/
theorem C13_subst_refuses (e : Expr) (vars : VariableList) :
    (subst e vars = .err .unsupportedExpr ↔ e.supported = false) ∧
    ((∃ e', subst e vars = .ok e') ↔ e.supported = true) := by
  have hp : ∀ p, ∃ e, (substVisitor vars).path p = .ok e := by
    intro p; simp only [substVisitor]; split <;> exact ⟨_, rfl⟩
  refine ⟨⟨fun h => ?_, Visitor.visit_unsupported (substVisitor vars) rfl rfl (fun l => ⟨_, rfl⟩) hp e⟩,
    ⟨fun ⟨e', h⟩ => Visitor.supported_of_ok _ rfl rfl e e' h, fun h => C10_subst_total e vars h⟩⟩
  by_contra hc
  rw [Bool.not_eq_false] at hc
  rw [subst_supported e vars hc] at h
  cases h

/-- **C13** `collect_terms` refuses exactly the unsupported expressions. -/
theorem C13_collect_refuses (e : Expr) (x : Name) :
    (collectTerms e x = .err .unsupportedExpr ↔ e.supported = false) ∧
    ((∃ e', collectTerms e x = .ok e') ↔ e.supported = true) := by
  have ht := Visitor.visit_supported collectVisitor rfl rfl (fun l => ⟨_, rfl⟩) (fun p => ⟨_, rfl⟩) e
  refine ⟨⟨fun h => ?_, Visitor.visit_unsupported collectVisitor rfl rfl (fun l => ⟨_, rfl⟩) (fun p => ⟨_, rfl⟩) e⟩,
    ⟨fun ⟨e', h⟩ => Visitor.supported_of_ok _ rfl rfl e e' h, ht⟩⟩
  by_contra hc
  rw [Bool.not_eq_false] at hc
  obtain ⟨e', he⟩ := ht hc
  rw [collectTerms, he] at h
  cases h

/-- **C13** `paren` refuses exactly the unsupported expressions. -/
theorem C13_paren_refuses (e : Expr) :
    (paren e = .err .unsupportedExpr ↔ e.supported = false) ∧
    ((∃ e', paren e = .ok e') ↔ e.supported = true) := by
  have ht := Visitor.visit_supported parenVisitor rfl rfl (fun l => ⟨_, rfl⟩) (fun p => ⟨_, rfl⟩) e
  refine ⟨⟨fun h => ?_, Visitor.visit_unsupported parenVisitor rfl rfl (fun l => ⟨_, rfl⟩) (fun p => ⟨_, rfl⟩) e⟩,
    ⟨fun ⟨e', h⟩ => Visitor.supported_of_ok _ rfl rfl e e' h, ht⟩⟩
  by_contra hc
  rw [Bool.not_eq_false] at hc
  obtain ⟨e', he⟩ := ht hc
  rw [paren, he] at h
  cases h

/-- **C13** `use_number_type` never succeeds on an unsupported expression, and an error it reports is
`UnsupportedExpr` on an unsupported expression.  (It panics on literals that are not representable; literals are
converted before the rest is visited, so a panic can come first.) -/
theorem C13_use_number_type_refuses (ext : FloatExt) (e : Expr) (ty : String) (bits : Nat)
    (h32 : ∀ b x, ext.litF32 b ≠ .err x) (h64 : ∀ b x, ext.litF64 b ≠ .err x) :
    (∀ e', useNumberType ext e ty bits = .ok e' → e.supported = true) ∧
    (∀ x, useNumberType ext e ty bits = .err x → x = .unsupportedExpr ∧ e.supported = false) := by
  refine ⟨fun e' h => Visitor.supported_of_ok _ rfl rfl e e' h,
    fun x h => Visitor.err_unsupported _ rfl rfl ?_ (fun p x => by simp [useNumberTypeVisitor]) e x h⟩
  have key : ∀ l ds x, numberTypeLit ext ty bits l ds ≠ .err x := by
    intro l ds x hx
    unfold numberTypeLit at hx
    cases h1 : parseDec ds with
    | none => simp [h1, Res.unwrapOpt] at hx
    | some d =>
      cases h2 : ext.toF32 d with
      | none => simp [h1, h2, Res.unwrapOpt] at hx
      | some b32 =>
        cases h3 : ext.toF64 d with
        | none => simp [h1, h2, h3, Res.unwrapOpt] at hx
        | some b64 =>
          simp only [h1, h2, h3, Res.unwrapOpt, Res.ok_bind] at hx
          split at hx
          · exact h32 _ _ hx
          · split at hx
            · exact h64 _ _ hx
            · split at hx
              · simp at hx
              · split at hx <;> simp at hx
  intro l x
  cases l with
  | int ds s => exact key _ ds x
  | float ds s => exact key _ ds x
  | bool b => simp [useNumberTypeVisitor]
  | other t => simp [useNumberTypeVisitor]

/-- **C13** If every numeric literal is convertible, `use_number_type` refuses exactly the unsupported expressions. -/
theorem C13_use_number_type_refuses_iff (ext : FloatExt) (e : Expr) (ty : String) (bits : Nat)
    (hlit : ∀ l, ∃ e', (useNumberTypeVisitor ext ty bits).lit l = .ok e') :
    (useNumberType ext e ty bits = .err .unsupportedExpr ↔ e.supported = false) ∧
    ((∃ e', useNumberType ext e ty bits = .ok e') ↔ e.supported = true) := by
  have ht := Visitor.visit_supported (useNumberTypeVisitor ext ty bits) rfl rfl hlit (fun p => ⟨_, rfl⟩) e
  refine ⟨⟨fun h => ?_, Visitor.visit_unsupported _ rfl rfl hlit (fun p => ⟨_, rfl⟩) e⟩,
    ⟨fun ⟨e', h⟩ => Visitor.supported_of_ok _ rfl rfl e e' h, ht⟩⟩
  by_contra hc
  rw [Bool.not_eq_false] at hc
  obtain ⟨e', he⟩ := ht hc
  rw [useNumberType, he] at h
  cases h

example : subst (.binary (.path ["x"]) .add (.call (.path ["f"]) [])) ⟨[]⟩ = .err .unsupportedExpr := rfl
example : paren (.methodCall (.path ["x"]) "sin" [.other "closure"]) = .err .unsupportedExpr := rfl

/-! ## C14 -/

/-- **C14** `collect_terms` returns every supported expression unchanged, whatever the variable. -/
theorem C14_collect_identity (e : Expr) (x : Name) (h : e.supported = true) : collectTerms e x = .ok e := by
  obtain ⟨e', he⟩ := (C13_collect_refuses e x).2.mpr h
  have := Visitor.visit_leaves collectVisitor rfl rfl rfl .lit .path
    (fun l e h => by simpa [collectVisitor] using h.symm) (fun p e h => by simpa [collectVisitor] using h.symm) e e' he
  rw [he, this, Expr.mapLeaves_id _ _ (fun _ _ => rfl)]

example : (Expr.binary (.path ["x"]) .add (.path ["x"])).supported = true := rfl

end Verif
