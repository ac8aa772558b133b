import Verif.Spec.Main
import Verif.Lemmas.Functions
import Mathlib.Tactic.Ring

/-!
# Effects of a run of `libmgen`
-/

namespace Verif

namespace Act

@[simp] theorem pure_effs {α : Type} (a : α) : (pure a : Act α).effs = [] := rfl
@[simp] theorem pure_res {α : Type} (a : α) : (pure a : Act α).res = .ok a := rfl
@[simp] theorem say_effs (e : Eff) : (say e).effs = [e] := rfl
@[simp] theorem say_res (e : Eff) : (say e).res = .ok () := rfl
@[simp] theorem lift_effs {α : Type} (r : Res α) : (lift r).effs = [] := rfl
@[simp] theorem lift_res {α : Type} (r : Res α) : (lift r).res = r := rfl

theorem bind_res {α β : Type} (x : Act α) (f : α → Act β) : (x >>= f).res = (x.res >>= fun a => (f a).res) := by
  show (Act.bind x f).res = _
  unfold Act.bind
  cases x.res <;> rfl

theorem bind_effs_ok {α β : Type} {x : Act α} (f : α → Act β) {a : α} (h : x.res = .ok a) :
    (x >>= f).effs = x.effs ++ (f a).effs := by
  show (Act.bind x f).effs = _
  unfold Act.bind
  rw [h]

end Act

@[simp] theorem println_effs (s : String) : (println s).effs = [.out (s ++ "\n")] := rfl
@[simp] theorem println_res (s : String) : (println s).res = .ok () := rfl
@[simp] theorem eprintln_effs (s : String) : (eprintln s).effs = [.err (s ++ "\n")] := rfl
@[simp] theorem eprintln_res (s : String) : (eprintln s).res = .ok () := rfl

/-- The messages change nothing about the selection. -/
theorem collectAct_res (tbl : List FnDef) (ex : List String) (fuel : Nat) (stack : List String) (res : List (Nat × FnDef)) :
    (collectAct tbl ex fuel stack res).res = collectFns tbl ex fuel stack res := by
  induction fuel generalizing stack res with
  | zero => cases stack <;> rfl
  | succ fuel ih =>
    cases stack with
    | nil => rfl
    | cons name stack =>
      rw [collectAct, collectFns]
      split
      · rw [Act.bind_res]; exact ih _ _
      · cases findFn tbl name with
        | none => dsimp only; rw [Act.bind_res]; exact ih _ _
        | some f =>
          dsimp only
          split
          · exact ih _ _
          · exact ih _ _

theorem getFunctionsAct_res (tbl : List FnDef) (fuel : Nat) (names ex : List String) :
    (getFunctionsAct tbl fuel names ex).res = getFunctionsAndDeps tbl fuel names ex := by
  unfold getFunctionsAct getFunctionsAndDeps
  rw [Act.bind_res, collectAct_res]
  rfl

/-- Every name taken from the stack is a requested name or a dependency of an entry that was added, each occurrence once. -/
theorem collectAct_effs (tbl : List FnDef) (ex : List String) (fuel : Nat) (stack : List String) (res out : List (Nat × FnDef))
    (h : collectFns tbl ex fuel stack res = .ok out) :
    ∃ new, out = res ++ new ∧
      (collectAct tbl ex fuel stack res).effs.Perm ((stack ++ new.flatMap (fun p => p.2.deps)).filterMap (noteOn tbl ex)) := by
  induction fuel generalizing stack res with
  | zero =>
    cases stack with
    | nil => rw [collectFns] at h; obtain rfl := Res.ok.inj h; exact ⟨[], by simp, by simp [collectAct]⟩
    | cons => simp [collectFns] at h
  | succ fuel ih =>
    cases stack with
    | nil => rw [collectFns] at h; obtain rfl := Res.ok.inj h; exact ⟨[], by simp, by simp [collectAct]⟩
    | cons name stack =>
      rw [collectFns] at h
      rw [collectAct]
      by_cases hex : name ∈ ex
      · rw [if_pos (by simpa using hex)] at h ⊢
        obtain ⟨new, h1, h2⟩ := ih _ _ h
        refine ⟨new, h1, ?_⟩
        rw [Act.bind_effs_ok _ (println_res _), List.cons_append, List.filterMap_cons_some (b := .out ("ignoring " ++ name ++ "\n"))
          (by simp [noteOn, hex])]
        exact h2.cons _
      · rw [if_neg (by simpa using hex)] at h ⊢
        rcases hfind : findFn tbl name with _ | p
        · rw [hfind] at h
          dsimp only at h ⊢
          obtain ⟨new, h1, h2⟩ := ih _ _ h
          refine ⟨new, h1, ?_⟩
          rw [Act.bind_effs_ok _ (eprintln_res _), List.cons_append,
            List.filterMap_cons_some (b := .err ("function " ++ name ++ " not found" ++ "\n"))
            (by
              have := findFn_none.1 hfind
              rw [noteOn, if_neg hex, if_pos this]
              simp [String.append_assoc])]
          exact h2.cons _
        · rw [hfind] at h
          dsimp only at h ⊢
          obtain ⟨hp, hname⟩ := findFn_some.1 hfind
          have hnone : noteOn tbl ex name = none := by
            rw [noteOn, if_neg hex, if_neg]
            intro hall
            exact hall p.2 (List.mem_of_getElem? hp.1) hname
          simp only [List.cons_append, List.filterMap_cons_none hnone]
          by_cases hin : (res.any fun g => g.2.name == name) = true
          · rw [if_pos hin] at h ⊢
            exact ih _ _ h
          · rw [if_neg hin] at h ⊢
            obtain ⟨new, h1, h2⟩ := ih _ _ h
            refine ⟨p :: new, by rw [h1]; simp, h2.trans ?_⟩
            refine List.Perm.filterMap _ ?_
            rw [List.flatMap_cons, ← List.append_assoc]
            refine List.Perm.append_right _ ?_
            exact (List.perm_append_comm).trans (List.Perm.append_left _ (List.reverse_perm _))

theorem getFunctionsAct_effs (tbl : List FnDef) (fuel : Nat) (names ex : List String) (l : List FnDef)
    (h : getFunctionsAndDeps tbl fuel names ex = .ok l) :
    (getFunctionsAct tbl fuel names ex).effs.Perm ((names ++ l.flatMap (·.deps)).filterMap (noteOn tbl ex)) := by
  unfold getFunctionsAndDeps at h
  obtain ⟨out, h1, h2⟩ := Res.bind_eq_ok.1 h
  obtain ⟨new, h3, h4⟩ := collectAct_effs tbl ex fuel _ _ _ h1
  simp only [Res.pure_eq, Res.ok.injEq] at h2
  unfold getFunctionsAct
  rw [Act.bind_effs_ok _ (by rw [collectAct_res]; exact h1)]
  simp only [Act.pure_effs, List.append_nil]
  refine h4.trans (List.Perm.filterMap _ ?_)
  simp only [List.nil_append] at h3
  subst h3
  refine List.Perm.append (List.reverse_perm _) ?_
  rw [← h2, List.flatMap_map]
  exact (List.Perm.flatMap_right _ (List.perm_insertionSort _ _)).symm

theorem selected_iff (tbl : List FnDef) (names ex : List String) (fuel : Nat) (hf : fuelFor tbl names ≤ fuel) (l : List FnDef) :
    Selected tbl names ex l ↔ getFunctionsAndDeps tbl fuel names ex = .ok l := by
  obtain ⟨ps, h, hs, hm⟩ := getFunctions_positions tbl names ex fuel hf
  rw [h, Res.ok.injEq]
  have key : ∀ {l : List (Nat × FnDef)}, (l.map (·.1)).Pairwise (· < ·) → l.Pairwise (fun a b => a.1 < b.1) :=
    fun h => List.pairwise_map.1 h
  constructor
  · rintro ⟨qs, rfl, hs2, hm2⟩
    have : ps = qs := by
      refine List.Perm.eq_of_pairwise (le := fun a b : Nat × FnDef => a.1 < b.1) ?_ (key hs) (key hs2) ?_
      · intro a b _ _ h1 h2; omega
      · rw [List.perm_ext_iff_of_nodup]
        · exact fun p => (hm p).trans (hm2 p).symm
        · exact (key hs).imp (fun h he => by rw [he] at h; exact lt_irrefl _ h)
        · exact (key hs2).imp (fun h he => by rw [he] at h; exact lt_irrefl _ h)
    rw [this]
  · rintro rfl
    exact ⟨ps, rfl, hs, hm⟩

theorem genAll_ok {τ : Type} (P : Pieces τ) (bits : Nat) (ty : String) (l : List FnDef) (ts : List τ) :
    genAll P bits ty l = .ok ts ↔ ∃ g : FnDef → List τ,
      (∀ f ∈ l, f.hasGen = true → P.gen bits ty f (if bits = 32 then f.terms.1 else f.terms.2) = .ok (g f)) ∧
      (∀ f ∈ l, f.hasGen = false → g f = []) ∧ ts = l.flatMap g := by
  classical
  constructor
  · intro h
    refine ⟨fun f => match P.gen bits ty f (if bits = 32 then f.terms.1 else f.terms.2) with
      | .ok t => if f.hasGen then t else []
      | _ => [], ?_⟩
    induction l generalizing ts with
    | nil => rw [genAll] at h; obtain rfl := Res.ok.inj h; simp
    | cons f l ih =>
      rw [genAll] at h
      obtain ⟨now, h1, h2⟩ := Res.bind_eq_ok.1 h
      obtain ⟨rest, h3, h4⟩ := Res.bind_eq_ok.1 h2
      obtain ⟨a1, a2, a3⟩ := ih _ h3
      unfold genOne at h1
      simp only [Res.pure_eq, Res.ok.injEq] at h4
      by_cases hg : f.hasGen = true
      · rw [if_pos hg] at h1
        refine ⟨?_, ?_, ?_⟩
        · intro k hk hkg
          rcases List.mem_cons.1 hk with rfl | hk
          · simp only [h1, hkg, if_true]
          · exact a1 k hk hkg
        · intro k hk hkg
          rcases List.mem_cons.1 hk with rfl | hk
          · rw [hg] at hkg; simp at hkg
          · exact a2 k hk hkg
        · rw [List.flatMap_cons, ← a3, h1, ← h4]; simp [hg]
      · rw [if_neg hg] at h1
        simp only [Res.ok.injEq] at h1
        have hz : (match P.gen bits ty f (if bits = 32 then f.terms.1 else f.terms.2) with
          | .ok t => if f.hasGen then t else []
          | _ => ([] : List τ)) = [] := by split <;> simp [hg]
        refine ⟨?_, ?_, ?_⟩
        · intro k hk hkg
          rcases List.mem_cons.1 hk with rfl | hk
          · exact absurd hkg hg
          · exact a1 k hk hkg
        · intro k hk hkg
          rcases List.mem_cons.1 hk with rfl | hk
          · exact hz
          · exact a2 k hk hkg
        · rw [List.flatMap_cons, ← a3, hz, ← h4, ← h1]
  · rintro ⟨g, h1, h2, rfl⟩
    induction l with
    | nil => rfl
    | cons f l ih =>
      rw [genAll, genOne, ih (fun k hk => h1 k (List.mem_cons_of_mem _ hk)) (fun k hk => h2 k (List.mem_cons_of_mem _ hk))]
      by_cases hg : f.hasGen = true
      · rw [if_pos hg, h1 f List.mem_cons_self hg]; rfl
      · rw [if_neg hg]
        have := h2 f List.mem_cons_self (by simpa using hg)
        simp [this]

theorem testAll_ok {τ : Type} (P : Pieces τ) (bits : Nat) (plots : Bool) (l : List FnDef) (ts : List τ) :
    testAll P bits plots l = .ok ts ↔ ∃ g : FnDef → List τ, (∀ f ∈ l, P.tests bits plots f = .ok (g f)) ∧ ts = l.flatMap g := by
  constructor
  · intro h
    refine ⟨fun f => match P.tests bits plots f with | .ok t => t | _ => [], ?_⟩
    induction l generalizing ts with
    | nil => rw [testAll] at h; obtain rfl := Res.ok.inj h; simp
    | cons f l ih =>
      rw [testAll] at h
      obtain ⟨now, h1, h2⟩ := Res.bind_eq_ok.1 h
      obtain ⟨rest, h3, h4⟩ := Res.bind_eq_ok.1 h2
      obtain ⟨a1, a2⟩ := ih _ h3
      simp only [Res.pure_eq, Res.ok.injEq] at h4
      refine ⟨?_, ?_⟩
      · intro k hk
        rcases List.mem_cons.1 hk with rfl | hk
        · simp only [h1]
        · exact a1 k hk
      · rw [List.flatMap_cons, ← a2, h1, ← h4]
  · rintro ⟨g, h1, rfl⟩
    induction l with
    | nil => rfl
    | cons f l ih =>
      rw [testAll, ih (fun k hk => h1 k (List.mem_cons_of_mem _ hk)), h1 f List.mem_cons_self]; rfl

theorem allTokens_ok {τ : Type} (P : Pieces τ) (o : Opt) (l : List FnDef) (ts : List τ) :
    allTokens P o l = .ok ts ↔ TokensFor P o l ts := by
  unfold allTokens TokensFor
  cases ht : o.generateTests with
  | false =>
    simp only [Bool.false_eq_true, if_false, List.append_nil, false_imp_iff, true_and, bind_pure]
    rw [genAll_ok]
    constructor
    · rintro ⟨g, h1, h2, h3⟩; exact ⟨g, g, [], h1, h2, h3⟩
    · rintro ⟨g, _, _, h1, h2, h3⟩; exact ⟨g, h1, h2, h3⟩
  | true =>
    simp only [if_true, true_imp_iff, Res.bind_eq_ok, Res.pure_eq, Res.ok.injEq]
    constructor
    · rintro ⟨a, h1, b, h2, c, h3, rfl⟩
      obtain ⟨g, g1, g2, rfl⟩ := (genAll_ok _ _ _ _ _).1 h1
      obtain ⟨t, t1, rfl⟩ := (testAll_ok _ _ _ _ _).1 h3
      exact ⟨g, t, b, g1, g2, ⟨h2, t1⟩, by rw [List.append_assoc]⟩
    · rintro ⟨g, t, tf, g1, g2, ⟨h2, t1⟩, rfl⟩
      exact ⟨_, (genAll_ok _ _ _ _ _).2 ⟨g, g1, g2, rfl⟩, tf, h2, _, (testAll_ok _ _ _ _ _).2 ⟨t, t1, rfl⟩, by rw [List.append_assoc]⟩

/-- The last part of `main`: back end and output. -/
theorem libmgen_proper {τ : Type} (P : Pieces τ) (tbl : List FnDef) (fuel : Nat) (o : Opt) (ho : o.Proper) :
    libmgen P tbl fuel o = (do
      debugNote P o
      let funcs ← getFunctionsAct tbl fuel (splitNames o.functions) (splitNames o.exclude)
      let tokens ← Act.lift (allTokens P o funcs)
      match backEnd P o.numBits o.language tokens with
      | some r => do
        let text ← Act.lift r
        writeText P o text
      | none =>
        if o.language = "help" then do
          eprintln "Available languages:"
          eprintln "    rust"
          eprintln "    c"
          eprintln "    portable-simd"
        else eprintln ("invalid language " ++ o.language ++ " use \"help\" to list valid options.")) := by
  unfold libmgen backEnd
  rw [if_neg ho.1, if_neg ho.2]
  by_cases h1 : o.language = "rust"
  · simp only [h1, if_true]
  · by_cases h2 : o.language = "c"
    · simp only [h2, if_true, Opt.prefix, Opt.floatSuffix]; simp
    · by_cases h3 : o.language = "portable-simd"
      · simp only [h3, if_true]; simp
      · simp only [if_neg h1, if_neg h2, if_neg h3]

end Verif
