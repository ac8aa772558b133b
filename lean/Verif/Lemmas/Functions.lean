import Verif.Spec.Reach
import Mathlib.Tactic.Tauto
import Mathlib.Data.List.Nodup
import Mathlib.Data.List.Sort

/-!
# The dependency worklist
-/

namespace Verif

theorem findFn_some {tbl : List FnDef} {name : String} {p : Nat × FnDef} :
    findFn tbl name = some p ↔ IsEntry tbl p.1 p.2 ∧ p.2.name = name := by
  unfold findFn
  rw [Option.map_eq_some_iff]
  constructor
  · rintro ⟨⟨f, i⟩, hf, rfl⟩
    rw [List.find?_eq_some_iff_getElem] at hf
    obtain ⟨hn, k, hk, hget, hlt⟩ := hf
    rw [List.getElem_zipIdx] at hget
    simp only [Prod.mk.injEq, Nat.zero_add] at hget
    obtain ⟨h1, h2⟩ := hget
    rw [List.length_zipIdx] at hk
    subst h2
    have hname : f.name = name := by simpa using hn
    refine ⟨⟨by rw [List.getElem?_eq_getElem hk, h1], ?_⟩, hname⟩
    intro j g hj hg
    have := hlt j hj
    rw [List.getElem_zipIdx] at this
    rw [List.getElem?_eq_getElem (by omega)] at hg
    simp only [Option.some.injEq] at hg
    simp only [hg] at this
    rw [hname]
    simpa using this
  · rintro ⟨⟨h1, h2⟩, h3⟩
    obtain ⟨i, f⟩ := p
    refine ⟨(f, i), ?_, rfl⟩
    rw [List.find?_eq_some_iff_getElem]
    obtain ⟨hk, hget⟩ := List.getElem?_eq_some_iff.1 h1
    refine ⟨by simpa using h3, i, by rw [List.length_zipIdx]; exact hk, ?_, ?_⟩
    · rw [List.getElem_zipIdx, hget]; simp
    · intro j hj
      rw [List.getElem_zipIdx]
      have := h2 j (tbl[j]'(by omega)) hj (List.getElem?_eq_getElem _)
      simp only at h3
      rw [h3] at this
      simpa using this

theorem findFn_none {tbl : List FnDef} {name : String} :
    findFn tbl name = none ↔ ∀ f ∈ tbl, f.name ≠ name := by
  unfold findFn
  rw [Option.map_eq_none_iff, List.find?_eq_none]
  constructor
  · intro h f hf
    obtain ⟨i, hi, rfl⟩ := List.getElem_of_mem hf
    have := h (tbl[i], i) (by rw [List.mem_zipIdx_iff_getElem?]; simp [hi])
    simpa using this
  · rintro h ⟨f, i⟩ hp
    have := h f (List.mem_of_getElem? (List.mem_zipIdx_iff_getElem?.1 hp))
    simpa using this

/-- Dependencies of the entries not collected yet. -/
def pendingDeps (tbl : List FnDef) (res : List (Nat × FnDef)) : Nat :=
  (tbl.map (fun g => if res.any (fun h => h.2.name == g.name) then 0 else g.deps.length)).sum

theorem pendingDeps_le (tbl : List FnDef) (res : List (Nat × FnDef)) (p : Nat × FnDef) :
    pendingDeps tbl (res ++ [p]) ≤ pendingDeps tbl res := by
  unfold pendingDeps
  induction tbl with
  | nil => simp
  | cons g tbl ih =>
    simp only [List.map_cons, List.sum_cons]
    refine Nat.add_le_add ?_ ih
    rw [List.any_append]
    by_cases h : (res.any fun h => h.2.name == g.name) = true
    · simp [h]
    · simp only [h]
      split <;> simp

theorem pendingDeps_add (tbl : List FnDef) (res : List (Nat × FnDef)) (p : Nat × FnDef) (hp : p.2 ∈ tbl)
    (hn : ¬ (res.any fun h => h.2.name == p.2.name) = true) :
    pendingDeps tbl (res ++ [p]) + p.2.deps.length ≤ pendingDeps tbl res := by
  induction tbl with
  | nil => simp at hp
  | cons g tbl ih =>
    rcases List.mem_cons.1 hp with h | h
    · have := pendingDeps_le tbl res p
      unfold pendingDeps at *
      simp only [List.map_cons, List.sum_cons, List.any_append, ← h, List.any_cons, beq_self_eq_true, Bool.true_or,
        Bool.or_true, if_true, if_neg hn]
      simp only [List.any_append, List.any_cons] at this
      omega
    · have := ih h
      have h2 := pendingDeps_le [g] res p
      unfold pendingDeps at *
      simp only [List.map_cons, List.sum_cons, List.map_nil, List.sum_nil] at *
      omega

/-- What the loop keeps true. -/
structure CollectInv (tbl : List FnDef) (names ex stack : List String) (res : List (Nat × FnDef)) : Prop where
  entry : ∀ p ∈ res, IsEntry tbl p.1 p.2 ∧ Needed tbl names ex p.2.name
  stackOk : ∀ s ∈ stack, s ∉ ex → Needed tbl names ex s
  nodup : (res.map (·.2.name)).Nodup
  closed : ∀ p ∈ res, ∀ d ∈ p.2.deps, d ∉ ex → d ∈ stack ∨ findFn tbl d = none ∨ d ∈ res.map (·.2.name)
  roots : ∀ n ∈ names, n ∉ ex → n ∈ stack ∨ findFn tbl n = none ∨ n ∈ res.map (·.2.name)

theorem any_name {res : List (Nat × FnDef)} {name : String} :
    (res.any fun g => g.2.name == name) = true ↔ name ∈ res.map (·.2.name) := by
  simp [List.any_eq_true, List.mem_map]

theorem CollectInv.drop {tbl : List FnDef} {names ex stack : List String} {res : List (Nat × FnDef)} {name : String}
    (h : CollectInv tbl names ex (name :: stack) res)
    (hd : name ∈ ex ∨ findFn tbl name = none ∨ name ∈ res.map (·.2.name)) : CollectInv tbl names ex stack res := by
  refine ⟨h.entry, fun s hs => h.stackOk s (List.mem_cons_of_mem _ hs), h.nodup, ?_, ?_⟩
  · intro p hp d hdd hex
    rcases h.closed p hp d hdd hex with h1 | h1
    · rcases List.mem_cons.1 h1 with rfl | h1 <;> tauto
    · exact Or.inr h1
  · intro n hn hex
    rcases h.roots n hn hex with h1 | h1
    · rcases List.mem_cons.1 h1 with rfl | h1 <;> tauto
    · exact Or.inr h1

theorem CollectInv.add {tbl : List FnDef} {names ex stack : List String} {res : List (Nat × FnDef)} {p : Nat × FnDef}
    (h : CollectInv tbl names ex (p.2.name :: stack) res) (hp : IsEntry tbl p.1 p.2) (hex : p.2.name ∉ ex)
    (hnew : p.2.name ∉ res.map (·.2.name)) : CollectInv tbl names ex (p.2.deps.reverse ++ stack) (res ++ [p]) := by
  have hneed : Needed tbl names ex p.2.name := h.stackOk _ List.mem_cons_self hex
  refine ⟨?_, ?_, ?_, ?_, ?_⟩
  · intro q hq
    rcases List.mem_append.1 hq with hq | hq
    · exact h.entry q hq
    · rw [List.mem_singleton.1 hq]; exact ⟨hp, hneed⟩
  · intro s hs hsex
    rcases List.mem_append.1 hs with hs | hs
    · exact .dep hneed hp (List.mem_reverse.1 hs) hsex
    · exact h.stackOk s (List.mem_cons_of_mem _ hs) hsex
  · rw [List.map_append, List.nodup_append]
    refine ⟨h.nodup, by simp, ?_⟩
    intro a ha b hb hab
    simp only [List.map_cons, List.map_nil, List.mem_singleton] at hb
    exact hnew (hb ▸ hab ▸ ha)
  · intro q hq d hd hdex
    rw [List.map_append, List.mem_append, List.mem_append]
    rcases List.mem_append.1 hq with hq | hq
    · rcases h.closed q hq d hd hdex with h1 | h1 | h1
      · rcases List.mem_cons.1 h1 with rfl | h1
        · right; right; right; simp
        · tauto
      · tauto
      · tauto
    · rw [List.mem_singleton.1 hq] at hd
      left; left; exact List.mem_reverse.2 hd
  · intro n hn hnex
    rw [List.map_append, List.mem_append, List.mem_append]
    rcases h.roots n hn hnex with h1 | h1 | h1
    · rcases List.mem_cons.1 h1 with rfl | h1
      · right; right; right; simp
      · tauto
    · tauto
    · tauto

theorem collectFns_spec (tbl : List FnDef) (names ex : List String) (fuel : Nat) (stack : List String) (res : List (Nat × FnDef))
    (h : CollectInv tbl names ex stack res) (hf : stack.length + pendingDeps tbl res ≤ fuel) :
    ∃ out, collectFns tbl ex fuel stack res = .ok out ∧ CollectInv tbl names ex [] out := by
  induction fuel generalizing stack res with
  | zero =>
    have : stack = [] := List.length_eq_zero_iff.1 (by omega)
    subst this
    exact ⟨res, rfl, h⟩
  | succ fuel ih =>
    match stack with
    | [] => exact ⟨res, rfl, h⟩
    | name :: stack =>
      simp only [List.length_cons] at hf
      rw [collectFns]
      by_cases hex : name ∈ ex
      · rw [if_pos (by simpa using hex)]
        exact ih _ _ (h.drop (Or.inl hex)) (by omega)
      · rw [if_neg (by simpa using hex)]
        rcases hfind : findFn tbl name with _ | p
        · exact ih _ _ (h.drop (Or.inr (Or.inl hfind))) (by omega)
        · dsimp only
          obtain ⟨hp, hname⟩ := findFn_some.1 hfind
          subst hname
          by_cases hin : (res.any fun g => g.2.name == p.2.name) = true
          · rw [if_pos hin]
            exact ih _ _ (h.drop (Or.inr (Or.inr (any_name.1 hin)))) (by omega)
          · rw [if_neg hin]
            refine ih _ _ (h.add hp hex (fun hc => hin (any_name.2 hc))) ?_
            have := pendingDeps_add tbl res p (List.mem_of_getElem? hp.1) hin
            rw [List.length_append, List.length_reverse]
            omega

/-- Steps that always suffice. -/
def fuelFor (tbl : List FnDef) (names : List String) : Nat := names.length + (tbl.map (·.deps.length)).sum

theorem IsEntry.unique {tbl : List FnDef} {i j : Nat} {f g : FnDef} (hf : IsEntry tbl i f) (hg : IsEntry tbl j g)
    (h : f.name = g.name) : i = j ∧ f = g := by
  have : i = j := by
    rcases Nat.lt_trichotomy i j with hlt | heq | hlt
    · exact absurd h (hg.2 i f hlt hf.1)
    · exact heq
    · exact absurd h.symm (hf.2 j g hlt hg.1)
  subst this
  have := hf.1.symm.trans hg.1
  exact ⟨rfl, Option.some.inj this⟩

/-- At the end exactly the entries with needed names are collected. -/
theorem CollectInv.mem_iff {tbl : List FnDef} {names ex : List String} {res : List (Nat × FnDef)}
    (h : CollectInv tbl names ex [] res) (p : Nat × FnDef) :
    p ∈ res ↔ IsEntry tbl p.1 p.2 ∧ Needed tbl names ex p.2.name := by
  refine ⟨h.entry p, ?_⟩
  rintro ⟨hp, hn⟩
  have key : ∀ n, Needed tbl names ex n → findFn tbl n = none ∨ n ∈ res.map (·.2.name) := by
    intro n hn
    induction hn with
    | root hm hx => exact (h.roots _ hm hx).resolve_left (by simp)
    | @dep f i d _ hf hd hx ih =>
      rcases ih with ih | ih
      · exact absurd rfl (findFn_none.1 ih f (List.mem_of_getElem? hf.1))
      · obtain ⟨q, hq, hqn⟩ := List.mem_map.1 ih
        have := (h.entry q hq).1.unique hf hqn
        have hd' : d ∈ q.2.deps := by rw [this.2]; exact hd
        exact (h.closed q hq d hd' hx).resolve_left (by simp)
  rcases key _ hn with h1 | h1
  · exact absurd rfl (findFn_none.1 h1 p.2 (List.mem_of_getElem? hp.1))
  · obtain ⟨q, hq, hqn⟩ := List.mem_map.1 h1
    have := (h.entry q hq).1.unique hp hqn
    have : q = p := Prod.ext this.1 this.2
    exact this ▸ hq

theorem collectInv_init (tbl : List FnDef) (names ex : List String) : CollectInv tbl names ex names.reverse [] := by
  refine ⟨by simp, ?_, by simp, by simp, ?_⟩
  · intro s hs hex; exact .root (List.mem_reverse.1 hs) hex
  · intro n hn _; exact Or.inl (List.mem_reverse.2 hn)

theorem pendingDeps_nil (tbl : List FnDef) : pendingDeps tbl [] = (tbl.map (·.deps.length)).sum := by
  unfold pendingDeps; simp

/-- The result as a list of table positions. -/
theorem getFunctions_positions (tbl : List FnDef) (names ex : List String) (fuel : Nat) (hf : fuelFor tbl names ≤ fuel) :
    ∃ ps : List (Nat × FnDef), getFunctionsAndDeps tbl fuel names ex = .ok (ps.map (·.2)) ∧
      (ps.map (·.1)).Pairwise (· < ·) ∧ ∀ p, p ∈ ps ↔ IsEntry tbl p.1 p.2 ∧ Needed tbl names ex p.2.name := by
  obtain ⟨out, ho, hi⟩ := collectFns_spec tbl names ex fuel names.reverse [] (collectInv_init tbl names ex)
    (by rw [pendingDeps_nil, List.length_reverse]; exact hf)
  refine ⟨out.insertionSort (fun a b => a.1 ≤ b.1), ?_, ?_, ?_⟩
  · unfold getFunctionsAndDeps; rw [ho]; rfl
  · have ht : Std.Total (fun a b : Nat × FnDef => a.1 ≤ b.1) := ⟨fun a b => by omega⟩
    have htr : IsTrans (Nat × FnDef) (fun a b : Nat × FnDef => a.1 ≤ b.1) := ⟨fun a b c h1 h2 => by omega⟩
    have hs := List.pairwise_insertionSort (fun a b : Nat × FnDef => a.1 ≤ b.1) out
    have hnd : (out.insertionSort (fun a b => a.1 ≤ b.1)).Pairwise (fun a b => a.2.name ≠ b.2.name) := by
      have := ((List.perm_insertionSort (fun a b : Nat × FnDef => a.1 ≤ b.1) out).map (fun p : Nat × FnDef => p.2.name)).nodup_iff.2 hi.nodup
      exact List.pairwise_map.1 this
    rw [List.pairwise_map]
    refine List.Pairwise.imp_of_mem ?_ (hs.and hnd)
    intro a b ha hb hab
    have ha' := (hi.entry a ((List.mem_insertionSort _).1 ha)).1
    have hb' := (hi.entry b ((List.mem_insertionSort _).1 hb)).1
    rcases Nat.lt_or_ge a.1 b.1 with h | h
    · exact h
    · exfalso
      have heq : a.1 = b.1 := le_antisymm hab.1 h
      have : a.2 = b.2 := Option.some.inj (ha'.1.symm.trans (heq ▸ hb'.1))
      exact hab.2 (by rw [this])
  · intro p
    rw [List.mem_insertionSort]
    exact hi.mem_iff p

end Verif
