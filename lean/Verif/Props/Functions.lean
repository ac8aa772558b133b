import Verif.Lemmas.Functions
import Verif.Model.FunctionTable

/-!
# C46-C48: requested functions and their dependencies
-/

namespace Verif

/-! ## C46, C47 -/

/-- A small table with a cycle, a missing dependency and a repeated name. -/
def toyTable : List FnDef := [
  ⟨"c", [], (0, 0), true⟩, ⟨"b", ["c", "a"], (0, 0), true⟩, ⟨"a", ["b", "missing"], (0, 0), true⟩, ⟨"a", ["d"], (0, 0), true⟩,
  ⟨"d", [], (0, 0), true⟩]

/-- C47: the computation terminates on every table: a number of steps fixed by the table and the request suffices, and more steps
change nothing. -/
theorem C47_terminates (tbl : List FnDef) (names exclude : List String) :
    ∃ l, ∀ fuel, fuelFor tbl names ≤ fuel → getFunctionsAndDeps tbl fuel names exclude = .ok l := by
  obtain ⟨ps, h, hs, hm⟩ := getFunctions_positions tbl names exclude _ le_rfl
  refine ⟨ps.map (·.2), fun fuel hf => ?_⟩
  obtain ⟨qs, h2, hs2, hm2⟩ := getFunctions_positions tbl names exclude fuel hf
  rw [h2]
  have hiff : ∀ p, p ∈ qs ↔ p ∈ ps := fun p => (hm2 p).trans (hm p).symm
  have key : ∀ {l : List (Nat × FnDef)}, (l.map (·.1)).Pairwise (· < ·) → l.Pairwise (fun a b => a.1 < b.1) :=
    fun h => List.pairwise_map.1 h
  have : qs = ps := by
    refine List.Perm.eq_of_pairwise (le := fun a b : Nat × FnDef => a.1 < b.1) ?_ (key hs2) (key hs) ?_
    · intro a b _ _ h1 h2; omega
    · rw [List.perm_ext_iff_of_nodup]
      · exact hiff
      · exact (key hs2).imp (fun h he => by rw [he] at h; exact lt_irrefl _ h)
      · exact (key hs).imp (fun h he => by rw [he] at h; exact lt_irrefl _ h)
  rw [this]

example : getFunctionsAndDeps toyTable (fuelFor toyTable ["a"]) ["a"] [] =
    .ok [⟨"c", [], (0, 0), true⟩, ⟨"b", ["c", "a"], (0, 0), true⟩, ⟨"a", ["b", "missing"], (0, 0), true⟩] := by decide +kernel

/-- C46: the functions returned are exactly the table entries (the first with their name) whose name can be reached. -/
theorem C46_reachable (tbl : List FnDef) (names exclude : List String) (fuel : Nat) (l : List FnDef)
    (h : getFunctionsAndDeps tbl fuel names exclude = .ok l) (hf : fuelFor tbl names ≤ fuel) (f : FnDef) :
    f ∈ l ↔ ∃ i, IsEntry tbl i f ∧ Needed tbl names exclude f.name := by
  obtain ⟨ps, h2, _, hm⟩ := getFunctions_positions tbl names exclude fuel hf
  rw [h2] at h
  obtain rfl := Res.ok.inj h
  rw [List.mem_map]
  constructor
  · rintro ⟨p, hp, rfl⟩; exact ⟨p.1, (hm p).1 hp⟩
  · rintro ⟨i, hi⟩; exact ⟨(i, f), (hm _).2 hi, rfl⟩

/-- Excluding `b` cuts off `c` as well. -/
example : getFunctionsAndDeps toyTable (fuelFor toyTable ["a"]) ["a"] ["b"] = .ok [⟨"a", ["b", "missing"], (0, 0), true⟩] := by
  decide +kernel

/-- C46: nothing excluded is returned. -/
theorem C46_excluded (tbl : List FnDef) (names exclude : List String) (fuel : Nat) (l : List FnDef)
    (h : getFunctionsAndDeps tbl fuel names exclude = .ok l) (hf : fuelFor tbl names ≤ fuel) (f : FnDef) (hl : f ∈ l) :
    f.name ∉ exclude := by
  obtain ⟨_, _, hn⟩ := (C46_reachable tbl names exclude fuel l h hf f).1 hl
  cases hn with
  | root _ h => exact h
  | dep _ _ _ h => exact h

example : ∃ l, getFunctionsAndDeps functionTable 1000 ["ln"] ["log2"] = .ok l ∧ l.map (·.name) = ["RECIP_LOG2_E", "ln"] :=
  ⟨_, rfl, by decide +kernel⟩

/-- C46: with nothing excluded, every dependency (that is in the table) of a returned function is returned. -/
theorem C46_dependencies_present (tbl : List FnDef) (names : List String) (fuel : Nat) (l : List FnDef)
    (h : getFunctionsAndDeps tbl fuel names [] = .ok l) (hf : fuelFor tbl names ≤ fuel) (f : FnDef) (hl : f ∈ l) (d : String)
    (hd : d ∈ f.deps) (hex : d ∈ tbl.map (·.name)) : d ∈ l.map (·.name) := by
  obtain ⟨i, hi, hn⟩ := (C46_reachable tbl names [] fuel l h hf f).1 hl
  have hd' : Needed tbl names [] d := .dep hn hi hd (by simp)
  rcases hfind : findFn tbl d with _ | p
  · obtain ⟨g, hg, hgn⟩ := List.mem_map.1 hex
    exact absurd hgn (findFn_none.1 hfind g hg)
  · obtain ⟨hp, hpn⟩ := findFn_some.1 hfind
    exact List.mem_map.2 ⟨p.2, (C46_reachable tbl names [] fuel l h hf p.2).2 ⟨p.1, hp, hpn ▸ hd'⟩, hpn⟩

example : ∃ l, getFunctionsAndDeps functionTable 1000 ["cos", "sin"] [] = .ok l ∧
    l.map (·.name) = ["fty", "ity", "round", "RECIP_2PI", "sin", "cos"] := ⟨_, rfl, by decide +kernel⟩

/-- C47: the functions come in table order, none twice: the list is read off strictly increasing table positions. -/
theorem C47_table_order (tbl : List FnDef) (names exclude : List String) (fuel : Nat) (l : List FnDef)
    (h : getFunctionsAndDeps tbl fuel names exclude = .ok l) (hf : fuelFor tbl names ≤ fuel) :
    ∃ is : List Nat, is.Pairwise (· < ·) ∧ l.map some = is.map (tbl[·]?) := by
  obtain ⟨ps, h2, hs, hm⟩ := getFunctions_positions tbl names exclude fuel hf
  rw [h2] at h
  obtain rfl := Res.ok.inj h
  refine ⟨ps.map (·.1), hs, ?_⟩
  rw [List.map_map, List.map_map]
  exact List.map_congr_left fun p hp => ((hm p).1 hp).1.1.symm

example : getFunctionsAndDeps toyTable (fuelFor toyTable ["d", "c"]) ["d", "c"] [] =
    .ok [⟨"c", [], (0, 0), true⟩, ⟨"d", [], (0, 0), true⟩] := by decide +kernel

/-- C47: no two returned functions have the same name. -/
theorem C47_no_duplicates (tbl : List FnDef) (names exclude : List String) (fuel : Nat) (l : List FnDef)
    (h : getFunctionsAndDeps tbl fuel names exclude = .ok l) (hf : fuelFor tbl names ≤ fuel) : (l.map (·.name)).Nodup := by
  obtain ⟨ps, h2, hs, hm⟩ := getFunctions_positions tbl names exclude fuel hf
  rw [h2] at h
  obtain rfl := Res.ok.inj h
  rw [List.map_map]
  refine List.pairwise_map.2 (List.Pairwise.imp_of_mem ?_ (List.pairwise_map.1 hs))
  intro a b ha hb hab he
  have := ((hm a).1 ha).1.unique ((hm b).1 hb).1 he
  omega

example : getFunctionsAndDeps toyTable (fuelFor toyTable ["d", "d", "d"]) ["d", "d", "d"] [] = .ok [⟨"d", [], (0, 0), true⟩] := by
  decide +kernel

/-! ## C48 -/

theorem Needed.mono {tbl : List FnDef} {n1 n2 e1 e2 : List String} (hn : n1 ⊆ n2) (he : e2 ⊆ e1) {s : String}
    (h : Needed tbl n1 e1 s) : Needed tbl n2 e2 s := by
  induction h with
  | root hm hx => exact .root (hn hm) (fun h => hx (he h))
  | dep _ hf hd hx ih => exact .dep ih hf hd (fun h => hx (he h))

/-- C48: two requests with the same set of names and the same set of exclusions give the same list. -/
theorem C48_request_set (tbl : List FnDef) (n1 n2 e1 e2 : List String) (hn : ∀ s, s ∈ n1 ↔ s ∈ n2) (he : ∀ s, s ∈ e1 ↔ s ∈ e2)
    (f1 f2 : Nat) (h1 : fuelFor tbl n1 ≤ f1) (h2 : fuelFor tbl n2 ≤ f2) :
    getFunctionsAndDeps tbl f1 n1 e1 = getFunctionsAndDeps tbl f2 n2 e2 := by
  obtain ⟨ps, hp, hs, hm⟩ := getFunctions_positions tbl n1 e1 f1 h1
  obtain ⟨qs, hq, hs2, hm2⟩ := getFunctions_positions tbl n2 e2 f2 h2
  rw [hp, hq]
  have hnd : ∀ s, Needed tbl n1 e1 s ↔ Needed tbl n2 e2 s := fun s =>
    ⟨Needed.mono (fun x => (hn x).1) (fun x => (he x).2), Needed.mono (fun x => (hn x).2) (fun x => (he x).1)⟩
  have hiff : ∀ p, p ∈ ps ↔ p ∈ qs := fun p => by rw [hm, hm2, hnd]
  have key : ∀ {l : List (Nat × FnDef)}, (l.map (·.1)).Pairwise (· < ·) → l.Pairwise (fun a b => a.1 < b.1) :=
    fun h => List.pairwise_map.1 h
  have : ps = qs := by
    refine List.Perm.eq_of_pairwise (le := fun a b : Nat × FnDef => a.1 < b.1) ?_ (key hs) (key hs2) ?_
    · intro a b _ _ h1 h2; omega
    · rw [List.perm_ext_iff_of_nodup]
      · exact hiff
      · exact (key hs).imp (fun h he => by rw [he] at h; exact lt_irrefl _ h)
      · exact (key hs2).imp (fun h he => by rw [he] at h; exact lt_irrefl _ h)
  rw [this]

example : getFunctionsAndDeps functionTable 1000 ["sin", "cos", "sin"] ["PI"] =
    getFunctionsAndDeps functionTable 1000 ["cos", "sin"] ["PI", "PI"] :=
  C48_request_set _ _ _ _ _ (by simp [or_comm]) (by simp) _ _ (by decide) (by decide)

/-- C48: excluding more never brings in more, requesting more never drops anything. -/
theorem C48_monotone (tbl : List FnDef) (n1 n2 e1 e2 : List String) (hn : n1 ⊆ n2) (he : e2 ⊆ e1) (f1 f2 : Nat)
    (h1 : fuelFor tbl n1 ≤ f1) (h2 : fuelFor tbl n2 ≤ f2) (l1 l2 : List FnDef) (r1 : getFunctionsAndDeps tbl f1 n1 e1 = .ok l1)
    (r2 : getFunctionsAndDeps tbl f2 n2 e2 = .ok l2) : l1 ⊆ l2 := by
  intro f hf
  obtain ⟨i, hi, hn'⟩ := (C46_reachable tbl n1 e1 f1 l1 r1 h1 f).1 hf
  exact (C46_reachable tbl n2 e2 f2 l2 r2 h2 f).2 ⟨i, hi, hn'.mono hn he⟩

example : ∃ l1 l2, getFunctionsAndDeps functionTable 1000 ["sin"] ["round"] = .ok l1 ∧
    getFunctionsAndDeps functionTable 1000 ["cos", "sin"] [] = .ok l2 ∧ l1.length = 3 ∧ l2.length = 6 :=
  ⟨_, _, rfl, rfl, by decide +kernel, by decide +kernel⟩

end Verif
