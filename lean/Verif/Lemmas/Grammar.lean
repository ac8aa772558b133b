import Verif.Spec.Grammar

/-!
# Printed trees read back
-/

namespace Verif

variable {α : Type}

/-- For all large enough fuel. -/
def Ev (p : ℕ → Prop) : Prop := ∃ n₀, ∀ n ≥ n₀, p n

theorem Ev.always {p : ℕ → Prop} (h : ∀ n, p n) : Ev p := ⟨0, fun n _ => h n⟩

theorem Ev.succ {p q : ℕ → Prop} (h : Ev p) (hs : ∀ n, p n → q (n + 1)) : Ev q := by
  obtain ⟨a, ha⟩ := h
  refine ⟨a + 1, fun n hn => ?_⟩
  obtain ⟨m, rfl⟩ : ∃ m, n = m + 1 := ⟨n - 1, by omega⟩
  exact hs m (ha m (by omega))

theorem Ev.and {p q : ℕ → Prop} (h : Ev p) (h' : Ev q) : Ev fun n => p n ∧ q n := by
  obtain ⟨a, ha⟩ := h
  obtain ⟨b, hb⟩ := h'
  exact ⟨max a b, fun n hn => ⟨ha n (by omega), hb n (by omega)⟩⟩

theorem Ev.one {p : ℕ → Prop} (h : ∀ n, p (n + 1)) : Ev p := (Ev.always (p := fun _ => True) fun _ => trivial).succ fun n _ => h n

namespace Lang

/-- The token goes on an expression of level `k`. -/
def Continues (L : Lang) (k : ℕ) : PTok α → Prop
  | .op o => L.level o = some k
  | .as => k < L.height ∧ L.kind k = .cast
  | .quest => k < L.height ∧ L.kind k = .ternary
  | .lpar | .dot => k = L.height + 1
  | _ => False

/-- The text does not go on an expression of level `k` or tighter. -/
def Stops (L : Lang) (k : ℕ) (rest : List (PTok α)) : Prop := ∀ t r, rest = t :: r → ∀ j ≥ k, ¬ L.Continues j t

theorem Stops.mono {L : Lang} {k j : ℕ} {rest : List (PTok α)} (h : L.Stops k rest) (hk : k ≤ j) : L.Stops j rest :=
  fun t r hr i hi => h t r hr i (by omega)

theorem stops_nil (L : Lang) (k : ℕ) : L.Stops k ([] : List (PTok α)) := by intro t r h; cases h

/-- Having read `e` at level `k`, go on. -/
def goOn (L : Lang) (n k : ℕ) (e : PExpr α) (rest : List (PTok α)) : Option (PExpr α × List (PTok α)) :=
  if k < L.height then L.readTail n k e rest else if k = L.height then some (e, rest) else L.readPost n e rest

theorem post_level (L : Lang) : ¬ (L.height + 1 < L.height) := by omega

theorem goOn_post (L : Lang) (n : ℕ) (e : PExpr α) (rest : List (PTok α)) : L.goOn n (L.height + 1) e rest = L.readPost n e rest := by
  simp [goOn, post_level]

theorem goOn_stop (L : Lang) (k : ℕ) (hk : k ≤ L.height + 1) (e : PExpr α) (rest : List (PTok α)) (h : L.Stops k rest) :
    Ev fun n => L.goOn n k e rest = some (e, rest) := by
  refine Ev.one fun n => ?_
  have hs := fun t r hr => h t r hr k (Nat.le_refl k)
  unfold goOn
  split
  · rename_i hlt
    rw [readTail.eq_def]
    dsimp only
    cases hkd : L.kind k <;> simp only
    · split
      · rename_i o r
        have := hs _ _ rfl
        simp only [Continues] at this
        simp [this]
      · rfl
    · split
      · rename_i o r
        have := hs _ _ rfl
        simp only [Continues] at this
        simp [this]
      · rfl
    · split
      · rename_i o r
        have := hs _ _ rfl
        simp only [Continues] at this
        simp [this]
      · rfl
    · split
      · exact absurd ⟨hlt, hkd⟩ (hs _ _ rfl)
      · exact absurd ⟨hlt, hkd⟩ (hs _ _ rfl)
      · rfl
    · split
      · exact absurd ⟨hlt, hkd⟩ (hs _ _ rfl)
      · rfl
  · split
    · rfl
    · have hk' : k = L.height + 1 := by omega
      rw [readPost.eq_def]
      dsimp only
      split
      · exact absurd hk' (hs _ _ rfl)
      · exact absurd hk' (hs _ _ rfl)
      · exact absurd hk' (hs _ _ rfl)
      · exact absurd hk' (hs _ _ rfl)
      · rfl

/-- Levels at which one may go on after an operator of the level. -/
def Loops (L : Lang) (k : ℕ) : Prop := L.height ≤ k ∨ L.kind k = .left ∨ L.kind k = .cast

/-- What may follow `e` read at level `k`. -/
structure Follows (L : Lang) (k : ℕ) (e : PExpr α) (rest : List (PTok α)) : Prop where
  tighter : L.Stops (k + 1) rest
  same : L.Loops k ∨ L.Stops k rest
  field : e.isField = true → ∀ r, rest ≠ .lpar :: r

theorem Follows.of_stops {L : Lang} {k : ℕ} {e : PExpr α} {rest : List (PTok α)} (hk : k ≤ L.height + 1) (h : L.Stops k rest) : L.Follows k e rest :=
  ⟨h.mono (by omega), .inr h, fun _ r hr => h _ _ hr (L.height + 1) hk rfl⟩

/-- Reading the printed tree at level `k` is going on after it. -/
def ReadsAt (L : Lang) (k : ℕ) (e : PExpr α) : Prop :=
  ∀ rest res, L.Follows k e rest → Ev (fun n => L.goOn n k e rest = some res) → Ev fun n => L.read n k (e.print L ++ rest) = some res

theorem ReadsAt.stop {L : Lang} {k : ℕ} {e : PExpr α} (h : L.ReadsAt k e) (hk : k ≤ L.height + 1) {rest : List (PTok α)} (hr : L.Stops k rest) :
    Ev fun n => L.read n k (e.print L ++ rest) = some (e, rest) :=
  h rest _ (.of_stops hk hr) (goOn_stop L k hk e rest hr)

/-- Text that can begin a postfix form. -/
def Begins (ts : List (PTok α)) : Prop := (∃ w r, ts = .word w :: r) ∨ ∃ r, ts = .lpar :: r ∧ ∀ t r', r ≠ .ty t :: r'

theorem ReadsAt.down {L : Lang} {k : ℕ} {e : PExpr α} (h : L.ReadsAt (k + 1) e) (hk : k ≤ L.height)
    (hb : k = L.height → ∀ rest, Begins (e.print L ++ rest)) : L.ReadsAt k e := by
  intro rest res hf hgo
  have h1 := h.stop (by omega) hf.tighter
  by_cases hlt : k < L.height
  · refine (h1.and hgo).succ fun n hn => ?_
    simp only [goOn, hlt, if_true] at hn
    rw [read.eq_def]
    dsimp only
    simp [hlt, hn.1, hn.2]
  · have hk' : k = L.height := by omega
    refine (h1.and hgo).succ fun n hn => ?_
    simp only [goOn, hlt, hk', if_true, Nat.lt_irrefl, if_false, Option.some.injEq] at hn
    have hb' := hb hk' rest
    rw [read.eq_def]
    dsimp only
    simp only [hk', Nat.lt_irrefl, if_false, if_true]
    rw [← hn.2]
    rcases hb' with ⟨w, r, hw⟩ | ⟨r, hw, hty⟩
    · rw [hw] at hn ⊢; exact hn.1
    · rw [hw] at hn ⊢
      split
      · rename_i heq; cases heq
      · rename_i t r' heq
        simp only [List.cons.injEq, true_and] at heq
        exact absurd heq (hty t _)
      · exact hn.1

theorem ReadsAt.downTo {L : Lang} {h : ℕ} {e : PExpr α} (hr : L.ReadsAt h e) (hh : h ≤ L.height + 1)
    (hb : h = L.height + 1 → ∀ rest, Begins (e.print L ++ rest)) : ∀ d k, k + d = h → L.ReadsAt k e := by
  intro d
  induction d with
  | zero => intro k hk; simp only [Nat.add_zero] at hk; exact hk ▸ hr
  | succ d ih =>
    intro k hk
    exact (ih (k + 1) (by omega)).down (by omega) fun hk' => hb (by omega)

/-- The first token of a tree. -/
theorem print_start (L : Lang) (e : PExpr α) : ∀ rest, ∃ t r, e.print L ++ rest = t :: r ∧ (∀ w, t ≠ .ty w) ∧ t ≠ .rpar := by
  match e with
  | .atom w => intro rest; exact ⟨_, _, rfl, by simp, by simp⟩
  | .unary o e => intro rest; exact ⟨_, _, rfl, by simp, by simp⟩
  | .binary l o r => intro rest; rw [PExpr.print, List.append_assoc]; exact print_start L l _
  | .paren e => intro rest; exact ⟨_, _, rfl, by simp, by simp⟩
  | .call f as => intro rest; rw [PExpr.print, List.append_assoc]; exact print_start L f _
  | .method r m as => intro rest; rw [PExpr.print, List.append_assoc]; exact print_start L r _
  | .field b m => intro rest; rw [PExpr.print, List.append_assoc]; exact print_start L b _
  | .cast e t =>
    intro rest
    rw [PExpr.print]
    split
    · exact ⟨_, _, rfl, by simp, by simp⟩
    · rw [List.append_assoc]; exact print_start L e _
  | .ternary c t f => intro rest; rw [PExpr.print, List.append_assoc]; exact print_start L c _

theorem print_begins (L : Lang) (hL : L.Sound) (e : PExpr α) (h : e.fits L (L.height + 1)) : ∀ rest, Begins (e.print L ++ rest) := by
  match e with
  | .atom w => intro rest; exact .inl ⟨_, _, rfl⟩
  | .unary o e => simp only [PExpr.fits] at h; omega
  | .binary l o r =>
    simp only [PExpr.fits] at h
    obtain ⟨j, h1, h2, _⟩ := h
    have := (hL.level o j h1).1
    omega
  | .paren e =>
    intro rest
    refine .inr ⟨_, rfl, ?_⟩
    obtain ⟨t, r, h1, h2, _⟩ := print_start L e ([.rpar] ++ rest)
    intro t' r' heq
    have heq' : e.print L ++ ([.rpar] ++ rest) = .ty t' :: r' := by rw [← List.append_assoc]; exact heq
    rw [h1] at heq'
    exact h2 t' (List.cons.inj heq').1
  | .call f as =>
    intro rest
    rw [PExpr.print, List.append_assoc]
    simp only [PExpr.fits] at h
    exact print_begins L hL f h.1 _
  | .method r m as =>
    intro rest
    rw [PExpr.print, List.append_assoc]
    simp only [PExpr.fits] at h
    exact print_begins L hL r h.1 _
  | .field b m =>
    intro rest
    rw [PExpr.print, List.append_assoc]
    simp only [PExpr.fits] at h
    exact print_begins L hL b h _
  | .cast e t =>
    simp only [PExpr.fits] at h
    split at h
    · omega
    · obtain ⟨j, _, h2, h3, _⟩ := h; omega
  | .ternary c t f => simp only [PExpr.fits] at h; obtain ⟨j, _, h2, h3, _⟩ := h; omega

theorem stops_rpar (L : Lang) (k : ℕ) (r : List (PTok α)) : L.Stops k (.rpar :: r) := by
  intro t r' h j _ hc; cases h; exact hc

theorem stops_comma (L : Lang) (k : ℕ) (r : List (PTok α)) : L.Stops k (.comma :: r) := by
  intro t r' h j _ hc; cases h; exact hc

theorem stops_colon (L : Lang) (k : ℕ) (r : List (PTok α)) : L.Stops k (.colon :: r) := by
  intro t r' h j _ hc; cases h; exact hc

theorem stops_op (L : Lang) (k j : ℕ) (o : String) (h : L.level o = some j) (hk : j < k) (r : List (PTok α)) : L.Stops k (.op o :: r) := by
  intro t r' ht i hi hc
  cases ht
  simp only [Continues, h, Option.some.injEq] at hc
  omega

mutual
/-- A tree that fits at a level reads back there. -/
theorem readsAt (L : Lang) (hL : L.Sound) (e : PExpr α) : ∀ k, k ≤ L.height + 1 → e.fits L k → L.ReadsAt k e := by
  match e with
  | .atom w =>
    intro k hk hf
    refine ReadsAt.downTo (h := L.height + 1) ?_ (Nat.le_refl _) (fun _ => print_begins L hL _ (by simp [PExpr.fits])) (L.height + 1 - k) k (by omega)
    intro rest res _ hgo
    refine hgo.succ fun n hn => ?_
    simp only [goOn_post] at hn
    rw [read.eq_def]
    dsimp only
    simpa [PExpr.print, post_level] using hn
  | .paren e =>
    intro k hk hf
    simp only [PExpr.fits] at hf
    refine ReadsAt.downTo (h := L.height + 1) ?_ (Nat.le_refl _) (fun _ => print_begins L hL _ (by simpa [PExpr.fits] using hf)) (L.height + 1 - k) k (by omega)
    intro rest res _ hgo
    have h0 := (readsAt L hL e 0 (by omega) hf).stop (by omega) (stops_rpar L 0 rest)
    refine (h0.and hgo).succ fun n hn => ?_
    simp only [goOn_post] at hn
    rw [read.eq_def]
    dsimp only
    simpa [PExpr.print, post_level, hn.1] using hn.2
  | .call f as =>
    intro k hk hf
    have hf' := hf
    simp only [PExpr.fits] at hf
    refine ReadsAt.downTo (h := L.height + 1) ?_ (Nat.le_refl _) (fun _ => print_begins L hL _ (by simpa only [PExpr.fits] using hf)) (L.height + 1 - k) k (by omega)
    intro rest res _ hgo
    rw [PExpr.print, List.append_assoc]
    refine readsAt L hL f (L.height + 1) (Nat.le_refl _) hf.1 _ res ⟨?_, .inl (.inl (by omega)), ?_⟩ ?_
    · intro t r ht j hj hc
      simp only [List.cons_append, List.cons.injEq] at ht
      rw [← ht.1] at hc
      simp only [Continues] at hc
      omega
    · intro h; rw [hf.2.1] at h; cases h
    · have ha := readArgs_print L hL as hf.2.2 rest
      refine (ha.and hgo).succ fun n hn => ?_
      simp only [goOn_post] at hn ⊢
      rw [readPost.eq_def]
      dsimp only
      simp [hn.1, hn.2]
  | .method r m as =>
    intro k hk hf
    have hf' := hf
    simp only [PExpr.fits] at hf
    refine ReadsAt.downTo (h := L.height + 1) ?_ (Nat.le_refl _) (fun _ => print_begins L hL _ (by simpa only [PExpr.fits] using hf)) (L.height + 1 - k) k (by omega)
    intro rest res _ hgo
    rw [PExpr.print, List.append_assoc]
    refine readsAt L hL r (L.height + 1) (Nat.le_refl _) hf.1 _ res ⟨?_, .inl (.inl (by omega)), ?_⟩ ?_
    · intro t r ht j hj hc
      simp only [List.cons_append, List.cons.injEq] at ht
      rw [← ht.1] at hc
      simp only [Continues] at hc
      omega
    · intro _ r h; simp at h
    · have ha := readArgs_print L hL as hf.2 rest
      refine (ha.and hgo).succ fun n hn => ?_
      simp only [goOn_post] at hn ⊢
      rw [readPost.eq_def]
      dsimp only
      simp [hn.1, hn.2]
  | .field b m =>
    intro k hk hf
    simp only [PExpr.fits] at hf
    refine ReadsAt.downTo (h := L.height + 1) ?_ (Nat.le_refl _) (fun _ => print_begins L hL _ (by simpa only [PExpr.fits] using hf)) (L.height + 1 - k) k (by omega)
    intro rest res hfo hgo
    rw [PExpr.print, List.append_assoc]
    refine readsAt L hL b (L.height + 1) (Nat.le_refl _) hf _ res ⟨?_, .inl (.inl (by omega)), ?_⟩ ?_
    · intro t r ht j hj hc
      simp only [List.cons_append, List.cons.injEq] at ht
      rw [← ht.1] at hc
      simp only [Continues] at hc
      omega
    · intro _ r h; simp at h
    · refine hgo.succ fun n hn => ?_
      simp only [goOn_post] at hn ⊢
      simp at hn ⊢
      rw [readPost.eq_def]
      dsimp only
      have := hfo.field rfl
      split
      · rename_i heq; cases heq
      · rename_i heq
        simp only [List.cons.injEq, PTok.word.injEq, true_and] at heq
        exact absurd heq.2 (this _)
      · rename_i heq
        simp only [List.cons.injEq, PTok.word.injEq, true_and] at heq
        rw [← heq.1, ← heq.2]
        exact hn
      · rename_i h1 h2 heq
        simp only [List.cons.injEq, true_and] at heq
        exact absurd heq.symm (h2 _ _)
      · rename_i h1 h2
        exact absurd rfl (h2 _)
  | .unary o e =>
    intro k hk hf
    simp only [PExpr.fits] at hf
    refine ReadsAt.downTo (h := L.height) ?_ (by omega) (fun h => absurd h (by omega)) (L.height - k) k (by omega)
    intro rest res hfo hgo
    have h0 := readsAt L hL e L.height (by omega) hf.2.2 rest (e, rest) ⟨hfo.tighter, .inl (.inl (Nat.le_refl _)), ?_⟩ (Ev.always fun n => by simp [goOn])
    · refine (h0.and hgo).succ fun n hn => ?_
      simp only [goOn, Nat.lt_irrefl, if_false, if_true] at hn
      rw [read.eq_def]
      dsimp only
      simp [PExpr.print, hn.1, hf.2.1, hn.2]
    · intro _ r hr
      exact hfo.tighter _ _ hr (L.height + 1) (Nat.le_refl _) rfl
  | .cast e t =>
    intro k hk hf
    simp only [PExpr.fits] at hf
    split at hf
    · rename_i hpc
      refine ReadsAt.downTo (h := L.height) ?_ (by omega) (fun h => absurd h (by omega)) (L.height - k) k (by omega)
      intro rest res hfo hgo
      have h0 := readsAt L hL e L.height (by omega) hf.2 rest (e, rest) ⟨hfo.tighter, .inl (.inl (Nat.le_refl _)), ?_⟩ (Ev.always fun n => by simp [goOn])
      · refine (h0.and hgo).succ fun n hn => ?_
        simp only [goOn, Nat.lt_irrefl, if_false, if_true] at hn
        rw [read.eq_def]
        dsimp only
        simp [PExpr.print, hpc, hn.1, hn.2]
      · intro _ r hr
        exact hfo.tighter _ _ hr (L.height + 1) (Nat.le_refl _) rfl
    · rename_i hpc
      obtain ⟨j, h1, h2, h3, h4⟩ := hf
      refine ReadsAt.downTo (h := j) ?_ (by omega) (fun h => absurd h (by omega)) (j - k) k (by omega)
      intro rest res hfo hgo
      rw [PExpr.print, if_neg hpc, List.append_assoc]
      refine readsAt L hL e j (by omega) h4 _ res ⟨?_, .inl (.inr (.inr h1)), ?_⟩ ?_
      · intro t r ht i hi hc
        simp only [List.cons_append, List.cons.injEq] at ht
        rw [← ht.1] at hc
        simp only [Continues] at hc
        have := hL.cast i j hc.1 h2 hc.2 h1
        omega
      · intro _ r h; simp at h
      · refine hgo.succ fun n hn => ?_
        simp only [goOn, h2, if_true] at hn ⊢
        rw [readTail.eq_def]
        dsimp only
        simp [h1, hn]
  | .binary l o r =>
    intro k hk hf
    simp only [PExpr.fits] at hf
    obtain ⟨j, h1, h2, h3⟩ := hf
    have hj := (hL.level o j h1).1
    refine ReadsAt.downTo (h := j) ?_ (by omega) (fun h => absurd h (by omega)) (j - k) k (by omega)
    intro rest res hfo hgo
    rw [PExpr.print, List.append_assoc]
    cases hkd : L.kind j with
    | left =>
      simp only [hkd] at h3
      refine readsAt L hL l j (by omega) h3.1 _ res ⟨?_, .inl (.inr (.inl hkd)), ?_⟩ ?_
      · exact stops_op L (j + 1) j o h1 (by omega) _
      · intro _ r h; simp at h
      · have hr := (readsAt L hL r (j + 1) (by omega) h3.2).stop (by omega) hfo.tighter
        refine (hr.and hgo).succ fun n hn => ?_
        simp only [goOn, hj, if_true] at hn ⊢
        rw [List.cons_append, readTail.eq_def]
        dsimp only
        simp [hkd, h1, hn.1, hn.2]
    | right =>
      simp only [hkd] at h3
      have hst : L.Stops j rest := hfo.same.resolve_left (by simp [Loops, hkd]; omega)
      have hl := (readsAt L hL l (j + 1) (by omega) h3.1).stop (by omega) (stops_op L (j + 1) j o h1 (by omega) (r.print L ++ rest))
      have hr := (readsAt L hL r j (by omega) h3.2).stop (by omega) hst
      have hgo' := goOn_stop L j (by omega) (.binary l o r) rest hst
      have hres : res = (.binary l o r, rest) := by
        obtain ⟨n, hn⟩ := hgo.and hgo'
        have := hn n (Nat.le_refl _)
        exact Option.some.inj (this.1.symm.trans this.2)
      have htail : Ev fun n => L.readTail n j l (.op o :: (r.print L ++ rest)) = some res := by
        refine hr.succ fun n hn => ?_
        rw [readTail.eq_def]
        dsimp only
        simp [hkd, h1, hn, hres]
      refine (hl.and htail).succ fun n hn => ?_
      rw [read.eq_def]
      dsimp only
      simp [hj, hn.1, hn.2]
    | non =>
      simp only [hkd] at h3
      have hst : L.Stops j rest := hfo.same.resolve_left (by simp [Loops, hkd]; omega)
      have hl := (readsAt L hL l (j + 1) (by omega) h3.1).stop (by omega) (stops_op L (j + 1) j o h1 (by omega) (r.print L ++ rest))
      have hr := (readsAt L hL r (j + 1) (by omega) h3.2).stop (by omega) hfo.tighter
      have hgo' := goOn_stop L j (by omega) (.binary l o r) rest hst
      have hres : res = (.binary l o r, rest) := by
        obtain ⟨n, hn⟩ := hgo.and hgo'
        have := hn n (Nat.le_refl _)
        exact Option.some.inj (this.1.symm.trans this.2)
      have hat : L.atOp j rest = false := by
        unfold atOp
        split
        · rename_i o' r'
          have := hst _ _ rfl j (Nat.le_refl _)
          simpa [Continues] using this
        · rfl
      have htail : Ev fun n => L.readTail n j l (.op o :: (r.print L ++ rest)) = some res := by
        refine hr.succ fun n hn => ?_
        rw [readTail.eq_def]
        dsimp only
        simp [hkd, h1, hn, hres, hat]
      refine (hl.and htail).succ fun n hn => ?_
      rw [read.eq_def]
      dsimp only
      simp [hj, hn.1, hn.2]
    | cast => simp only [hkd] at h3
    | ternary => simp only [hkd] at h3
  | .ternary c t f =>
    intro k hk hf
    simp only [PExpr.fits] at hf
    obtain ⟨j, h1, h2, h3, h4, h5, h6⟩ := hf
    refine ReadsAt.downTo (h := j) ?_ (by omega) (fun h => absurd h (by omega)) (j - k) k (by omega)
    intro rest res hfo hgo
    have hst : L.Stops j rest := hfo.same.resolve_left (by simp [Loops, h1]; omega)
    have hq : L.Stops (j + 1) (.quest :: (t.print L ++ .colon :: (f.print L ++ rest))) := by
      intro t r ht i hi hc
      simp only [List.cons.injEq] at ht
      rw [← ht.1] at hc
      simp only [Continues] at hc
      have := hL.ternary i j hc.1 h2 hc.2 h1
      omega
    have hc := (readsAt L hL c (j + 1) (by omega) h4).stop (by omega) hq
    have ht := (readsAt L hL t 0 (by omega) h5).stop (by omega) (stops_colon L 0 (f.print L ++ rest))
    have hf := (readsAt L hL f j (by omega) h6).stop (by omega) hst
    have hgo' := goOn_stop L j (by omega) (.ternary c t f) rest hst
    have hres : res = (.ternary c t f, rest) := by
      obtain ⟨n, hn⟩ := hgo.and hgo'
      have := hn n (Nat.le_refl _)
      exact Option.some.inj (this.1.symm.trans this.2)
    have htail : Ev fun n => L.readTail n j c (.quest :: (t.print L ++ .colon :: (f.print L ++ rest))) = some res := by
      refine (ht.and hf).succ fun n hn => ?_
      rw [readTail.eq_def]
      dsimp only
      simp [h1, hn.1, hn.2, hres]
    refine (hc.and htail).succ fun n hn => ?_
    rw [read.eq_def]
    dsimp only
    simp only [PExpr.print, List.append_assoc, List.cons_append]
    simp [h2, hn.1, hn.2]

theorem readArgs_print (L : Lang) (hL : L.Sound) (as : List (PExpr α)) (h : PExpr.fitsAll L as) :
    ∀ rest, Ev fun n => L.readArgs n (PExpr.printArgs L as ++ .rpar :: rest) = some (as, rest) := by
  match as with
  | [] => intro rest; exact Ev.one fun n => by rw [readArgs.eq_def]; simp [PExpr.printArgs]
  | e :: es =>
    intro rest
    simp only [PExpr.fitsAll] at h
    have h1 := readArgs1_print L hL es h.2 e (readsAt L hL e 0 (by omega) h.1) rest
    refine h1.succ fun n hn => ?_
    rw [readArgs.eq_def]
    dsimp only
    obtain ⟨t, r, ht, _, hne⟩ := print_start L e (PExpr.printRest L es ++ .rpar :: rest)
    simp only [PExpr.printArgs, List.append_assoc]
    rw [ht] at hn ⊢
    split
    · rename_i heq
      simp only [List.cons.injEq] at heq
      exact absurd heq.1 hne
    · exact hn

theorem readArgs1_print (L : Lang) (hL : L.Sound) (es : List (PExpr α)) (h : PExpr.fitsAll L es) :
    ∀ e, L.ReadsAt 0 e → ∀ rest, Ev fun n => L.readArgs1 n (e.print L ++ (PExpr.printRest L es ++ .rpar :: rest)) = some (e :: es, rest) := by
  match es with
  | [] =>
    intro e he rest
    have h0 := he.stop (by omega) (stops_rpar L 0 rest)
    refine h0.succ fun n hn => ?_
    rw [readArgs1.eq_def]
    dsimp only
    simp [PExpr.printRest, hn]
  | e' :: es =>
    intro e he rest
    simp only [PExpr.fitsAll] at h
    have h0 := he.stop (by omega) (stops_comma L 0 (e'.print L ++ (PExpr.printRest L es ++ .rpar :: rest)))
    have h1 := readArgs1_print L hL es h.2 e' (readsAt L hL e' 0 (by omega) h.1) rest
    refine (h0.and h1).succ fun n hn => ?_
    rw [readArgs1.eq_def]
    dsimp only
    simp [PExpr.printRest, hn.1, hn.2]
end

/-- **A tree whose operands are tight enough is what its tokens read as.** -/
theorem reads_print (L : Lang) (hL : L.Sound) (e : PExpr α) (h : e.fits L 0) : L.Reads (e.print L) e := by
  have := (readsAt L hL e 0 (by omega) h).stop (by omega) (stops_nil L 0)
  simpa [Reads, Ev] using this

/-! ## What is read is a tree that fits, and its tokens -/

theorem fits_mono (L : Lang) {k j : ℕ} (hjk : j ≤ k) (e : PExpr α) (h : e.fits L k) : e.fits L j := by
  cases e with
  | unary o e => simp only [PExpr.fits] at h ⊢; exact ⟨by omega, h.2⟩
  | binary l o r => simp only [PExpr.fits] at h ⊢; obtain ⟨i, h1, h2, h3⟩ := h; exact ⟨i, h1, by omega, h3⟩
  | cast e t =>
    simp only [PExpr.fits] at h ⊢
    split at h
    · rename_i hp; rw [if_pos hp]; exact ⟨by omega, h.2⟩
    · rename_i hp; rw [if_neg hp]; obtain ⟨i, h1, h2, h3, h4⟩ := h; exact ⟨i, h1, h2, by omega, h4⟩
  | ternary c t f => simp only [PExpr.fits] at h ⊢; obtain ⟨i, h1, h2, h3, h4⟩ := h; exact ⟨i, h1, h2, by omega, h4⟩
  | _ => simpa only [PExpr.fits] using h

/-- What `readTail` may be called with. -/
def TailArg (L : Lang) (k : ℕ) (l : PExpr α) : Prop :=
  if L.kind k = .left ∨ L.kind k = .cast then l.fits L k else l.fits L (k + 1)

theorem tailArg_of_fits (L : Lang) {k : ℕ} {l : PExpr α} (h : l.fits L (k + 1)) : L.TailArg k l := by
  unfold TailArg
  split
  · exact fits_mono L (by omega) l h
  · exact h

theorem fits_of_tailArg (L : Lang) {k : ℕ} {l : PExpr α} (h : L.TailArg k l) : l.fits L k := by
  unfold TailArg at h
  split at h
  · exact h
  · exact fits_mono L (by omega) l h

structure SoundAt (L : Lang) (α : Type) (n : ℕ) : Prop where
  read : ∀ k (ts : List (PTok α)) e rest, k ≤ L.height + 1 → L.read n k ts = some (e, rest) → e.fits L k ∧ ts = e.print L ++ rest
  tail : ∀ k (l : PExpr α) ts e rest, k < L.height → L.TailArg k l → L.readTail n k l ts = some (e, rest) →
    e.fits L k ∧ l.print L ++ ts = e.print L ++ rest
  post : ∀ (a : PExpr α) ts e rest, a.fits L (L.height + 1) → (a.isField = true → ∀ r, ts ≠ .lpar :: r) → L.readPost n a ts = some (e, rest) →
    e.fits L (L.height + 1) ∧ a.print L ++ ts = e.print L ++ rest
  args : ∀ (ts : List (PTok α)) as rest, L.readArgs n ts = some (as, rest) → PExpr.fitsAll L as ∧ ts = PExpr.printArgs L as ++ .rpar :: rest
  args1 : ∀ (ts : List (PTok α)) as rest, L.readArgs1 n ts = some (as, rest) →
    PExpr.fitsAll L as ∧ ts = PExpr.printArgs L as ++ .rpar :: rest ∧ as ≠ []

theorem soundAt (L : Lang) (hL : L.Sound) (α : Type) : ∀ n, L.SoundAt α n := by
  intro n
  induction n with
  | zero =>
    refine ⟨?_, ?_, ?_, ?_, ?_⟩
    · intro k ts e rest _ h; simp [Lang.read] at h
    · intro k l ts e rest _ _ h; simp [readTail] at h
    · intro a ts e rest _ _ h; simp [readPost] at h
    · intro ts as rest h; simp [readArgs] at h
    · intro ts as rest h; simp [readArgs1] at h
  | succ n ih =>
    refine ⟨?_, ?_, ?_, ?_, ?_⟩
    · intro k ts e rest hk h
      rw [read.eq_def] at h
      dsimp only at h
      split at h
      · rename_i hlt
        split at h
        · rename_i l r hl
          have h1 := ih.read (k + 1) ts l r (by omega) hl
          have h2 := ih.tail k l r e rest hlt (tailArg_of_fits L h1.1) h
          exact ⟨h2.1, h1.2.trans h2.2⟩
        · cases h
      · split at h
        · rename_i hk'
          split at h
          · split at h
            · rename_i o r ho
              split at h
              · rename_i x r' hx
                cases h
                have h1 := ih.read L.height r x rest (by omega) hx
                exact ⟨by simp only [PExpr.fits]; exact ⟨by omega, ho, h1.1⟩, by rw [h1.2]; rfl⟩
              · cases h
            · cases h
          · split at h
            · rename_i t r hp
              split at h
              · rename_i x r' hx
                cases h
                have h1 := ih.read L.height r x rest (by omega) hx
                refine ⟨by simp only [PExpr.fits, hp, if_true]; exact ⟨by omega, h1.1⟩, ?_⟩
                rw [h1.2]
                simp [PExpr.print, hp]
              · cases h
            · cases h
          · have h1 := ih.read (k + 1) _ e rest (by omega) h
            exact ⟨fits_mono L (by omega) e h1.1, h1.2⟩
        · have hk' : k = L.height + 1 := by omega
          split at h
          · rename_i w r
            have h1 := ih.post (.atom w) r e rest (by simp [PExpr.fits]) (by simp [PExpr.isField]) h
            exact ⟨hk' ▸ h1.1, h1.2⟩
          · rename_i r
            split at h
            · rename_i x r' hx
              have h1 := ih.read 0 _ _ _ (by omega) hx
              have h2 := ih.post (.paren x) r' e rest (by simpa [PExpr.fits] using h1.1) (by simp [PExpr.isField]) h
              refine ⟨hk' ▸ h2.1, ?_⟩
              rw [h1.2, ← h2.2]
              simp [PExpr.print]
            · cases h
          · cases h
    · intro k l ts e rest hlt hl h
      have hl' := fits_of_tailArg L hl
      rw [readTail.eq_def] at h
      dsimp only at h
      split at h
      · rename_i hkd
        split at h
        · rename_i o r
          split at h
          · rename_i ho
            split at h
            · rename_i b r' hb
              have h1 := ih.read (k + 1) _ _ _ (by omega) hb
              have h2 := ih.tail k (.binary l o b) r' e rest hlt
                (by simp only [TailArg, hkd, true_or, if_true, PExpr.fits]; exact ⟨k, ho, by omega, by simp only [hkd]; exact ⟨hl', h1.1⟩⟩) h
              refine ⟨h2.1, ?_⟩
              rw [← h2.2, h1.2]
              simp [PExpr.print]
            · cases h
          · cases h; exact ⟨hl', rfl⟩
        · cases h; exact ⟨hl', rfl⟩
      · rename_i hkd
        split at h
        · rename_i o r
          split at h
          · rename_i ho
            split at h
            · rename_i b r' hb
              cases h
              have h1 := ih.read k _ _ _ (by omega) hb
              simp only [TailArg, hkd, reduceCtorEq, or_self, if_false] at hl
              refine ⟨by simp only [PExpr.fits]; exact ⟨k, ho, by omega, by simp only [hkd]; exact ⟨hl, h1.1⟩⟩, ?_⟩
              rw [h1.2]
              simp [PExpr.print]
            · cases h
          · cases h; exact ⟨hl', rfl⟩
        · cases h; exact ⟨hl', rfl⟩
      · rename_i hkd
        split at h
        · rename_i o r
          split at h
          · rename_i ho
            split at h
            · rename_i b r' hb
              split at h
              · cases h
              · cases h
                have h1 := ih.read (k + 1) _ _ _ (by omega) hb
                simp only [TailArg, hkd, reduceCtorEq, or_self, if_false] at hl
                refine ⟨by simp only [PExpr.fits]; exact ⟨k, ho, by omega, by simp only [hkd]; exact ⟨hl, h1.1⟩⟩, ?_⟩
                rw [h1.2]
                simp [PExpr.print]
            · cases h
          · cases h; exact ⟨hl', rfl⟩
        · cases h; exact ⟨hl', rfl⟩
      · rename_i hkd
        have hp : ¬ L.prefixCast = true := fun hp => hL.castStyle hp k hlt hkd
        split at h
        · rename_i t r
          have h2 := ih.tail k (.cast l t) r e rest hlt
            (by simp only [TailArg, hkd, or_true, if_true, PExpr.fits, if_neg hp]; exact ⟨k, hkd, hlt, by omega, hl'⟩) h
          refine ⟨h2.1, ?_⟩
          rw [← h2.2]
          simp [PExpr.print, hp]
        · cases h
        · cases h; exact ⟨hl', rfl⟩
      · rename_i hkd
        split at h
        · rename_i r
          split at h
          · rename_i t r' ht
            split at h
            · rename_i f r'' hf
              cases h
              have h1 := ih.read 0 _ _ _ (by omega) ht
              have h2 := ih.read k _ _ _ (by omega) hf
              simp only [TailArg, hkd, reduceCtorEq, or_self, if_false] at hl
              refine ⟨by simp only [PExpr.fits]; exact ⟨k, hkd, hlt, by omega, hl, h1.1, h2.1⟩, ?_⟩
              rw [h1.2, h2.2]
              simp [PExpr.print]
            · cases h
          · cases h
        · cases h; exact ⟨hl', rfl⟩
    · intro a ts e rest ha hfl h
      rw [readPost.eq_def] at h
      dsimp only at h
      split at h
      · rename_i r
        split at h
        · rename_i as r' has
          have h1 := ih.args _ _ _ has
          have hnf : a.isField = false := by
            cases hf : a.isField with
            | false => rfl
            | true => exact absurd rfl (hfl hf r)
          have h2 := ih.post (.call a as) r' e rest (by simp only [PExpr.fits]; exact ⟨ha, hnf, h1.1⟩) (by simp [PExpr.isField]) h
          refine ⟨h2.1, ?_⟩
          rw [← h2.2, h1.2]
          simp [PExpr.print]
        · cases h
      · rename_i m r
        split at h
        · rename_i as r' has
          have h1 := ih.args _ _ _ has
          have h2 := ih.post (.method a m as) r' e rest (by simp only [PExpr.fits]; exact ⟨ha, h1.1⟩) (by simp [PExpr.isField]) h
          refine ⟨h2.1, ?_⟩
          rw [← h2.2, h1.2]
          simp [PExpr.print]
        · cases h
      · rename_i m r hno
        have h2 := ih.post (.field a m) r e rest (by simpa only [PExpr.fits] using ha) (fun _ r' hr => hno r' (by rw [hr])) h
        refine ⟨h2.1, ?_⟩
        rw [← h2.2]
        simp [PExpr.print]
      · cases h
      · cases h; exact ⟨ha, rfl⟩
    · intro ts as rest h
      rw [readArgs.eq_def] at h
      dsimp only at h
      split at h
      · cases h; exact ⟨by simp [PExpr.fitsAll], by simp [PExpr.printArgs]⟩
      · have := ih.args1 _ _ _ h; exact ⟨this.1, this.2.1⟩
    · intro ts as rest h
      rw [readArgs1.eq_def] at h
      dsimp only at h
      split at h
      · rename_i x r hx
        cases h
        have h1 := ih.read 0 _ _ _ (by omega) hx
        exact ⟨by simpa [PExpr.fitsAll] using h1.1, by rw [h1.2]; simp [PExpr.printArgs, PExpr.printRest], by simp⟩
      · rename_i x r hx
        split at h
        · rename_i es r' hes
          cases h
          have h1 := ih.read 0 _ _ _ (by omega) hx
          have h2 := ih.args1 _ _ _ hes
          refine ⟨by simp only [PExpr.fitsAll]; exact ⟨h1.1, h2.1⟩, ?_, by simp⟩
          rw [h1.2, h2.2.1]
          cases es with
          | nil => exact absurd rfl h2.2.2
          | cons y ys => simp [PExpr.printArgs, PExpr.printRest]
        · cases h
      · cases h

/-- **What is read is a tree whose operands are tight enough, and the text is its tokens.** -/
theorem Reads.fits {L : Lang} (hL : L.Sound) {ts : List (PTok α)} {e : PExpr α} (h : L.Reads ts e) : e.fits L 0 ∧ ts = e.print L := by
  obtain ⟨n, hn⟩ := h
  simpa using (soundAt L hL α n).read 0 ts e [] (by omega) (hn n (Nat.le_refl _))

theorem reads_iff (L : Lang) (hL : L.Sound) (ts : List (PTok α)) (e : PExpr α) : L.Reads ts e ↔ e.fits L 0 ∧ ts = e.print L :=
  ⟨fun h => h.fits hL, fun h => h.2 ▸ reads_print L hL e h.1⟩

end Lang
end Verif
