import Verif.Props.Poly
import Verif.Props.Inverse
import Verif.Props.Eval

/-!
# C37-C39: the multiply-add chain and `approx`
-/

namespace Verif
open Dec

/-! ## C37 -/

/-- An interpretation in a commutative ring where `*` multiplies, `r.mul_add(a, b)` is `r a + b` and numeric literals
have their decimal value. -/
structure PolyInterp {α : Type} [CommRing α] (I : Interp α) (num : ℚ → α) : Prop where
  mul : ∀ a b, I.bin .mul a b = a * b
  mulAdd : ∀ r a b, I.meth "mul_add" r [a, b] = r * a + b
  lit : ∀ l q, litValue l = some q → I.lit l = num q

theorem canon_parse (d : Dec) : (parseDec (displayDec d)).map Dec.val = some d.val := by
  rw [parseDec_displayDec]
  by_cases h : 0 ≤ d.scale
  · rw [if_pos h]; rfl
  · rw [if_neg h]
    have := val_canon d
    unfold canon at this
    rw [if_neg h] at this
    rw [Option.map_some, this]

/-- A quoted coefficient keeps its value. -/
theorem denote_quotedDec {α : Type} [CommRing α] {I : Interp α} {num : ℚ → α} (h : PolyInterp I num) (d : Dec) :
    (quotedDec d).denote I = num d.val := by
  unfold quotedDec
  split_ifs
  · exact h.lit _ _ (canon_parse d)
  · exact h.lit _ _ (canon_parse d)

/-- An interpretation in a commutative ring where `*` multiplies, `r.mul_add(a, b)` is `r a + b` and the coefficient written for `d` means `num d`. -/
structure ChainInterp {α : Type} [CommRing α] (I : Interp α) (num : Dec → α) : Prop where
  mul : ∀ a b, I.bin .mul a b = a * b
  mulAdd : ∀ r a b, I.meth "mul_add" r [a, b] = r * a + b
  coeff : ∀ d, (quotedDec d).denote I = num d

theorem PolyInterp.chain {α : Type} [CommRing α] {I : Interp α} {num : ℚ → α} (h : PolyInterp I num) : ChainInterp I (fun d => num d.val) :=
  ⟨h.mul, h.mulAdd, denote_quotedDec h⟩

theorem denote_chain {α : Type} [CommRing α] {I : Interp α} {num : Dec → α} (h : ChainInterp I num) (v : Expr) (top : Dec) (cs : List Dec) :
    (mulAddChain v top cs).denote I = cs.foldl (fun acc t => acc * v.denote I + num t) (num top) := by
  unfold mulAddChain
  have key : ∀ (cs : List Dec) (e : Expr), (cs.foldl (fun acc t => Expr.methodCall acc "mul_add" [v, quotedDec t]) e).denote I =
      cs.foldl (fun acc t => acc * v.denote I + num t) (e.denote I) := by
    intro cs
    induction cs with
    | nil => intro e; rfl
    | cons c cs ih =>
      intro e
      rw [List.foldl_cons, List.foldl_cons, ih, Expr.denote, Expr.denoteArgs, Expr.denoteArgs, Expr.denoteArgs, h.mulAdd, h.coeff]
  rw [key, Expr.denote, h.coeff]

theorem horner_foldr {α : Type} [CommRing α] (f : ℕ → α) (V top : α) (M : ℕ) :
    (List.range M).foldr (fun j acc => acc * V + f j) top = (∑ j ∈ Finset.range M, f j * V ^ j) + top * V ^ M := by
  induction M generalizing top with
  | zero => simp
  | succ M ih => rw [List.range_succ, List.foldr_append, List.foldr_cons, List.foldr_nil, ih, Finset.sum_range_succ]; ring

theorem vgets_ok (terms : List Dec) (is : List Nat) (h : ∀ i ∈ is, i < terms.length) :
    vgets terms is = .ok (is.map fun i => terms.getD i default) := by
  induction is with
  | nil => rfl
  | cons i is ih =>
    rw [vgets, vget_ok_of terms i (h i (by simp)), Res.ok_bind, ih (fun j hj => h j (by simp [hj])), Res.ok_bind]
    rfl

/-- The chain over the indices `s + d j`, `j < M`, topped by one more coefficient. -/
theorem chain_value {α : Type} [CommRing α] {I : Interp α} {num : Dec → α} (h : ChainInterp I num) (terms : List Dec) (v : Expr) (top : Dec)
    (g : ℕ → ℕ) (M : ℕ) :
    (mulAddChain v top ((((List.range M).map g).reverse).map fun i => terms.getD i default)).denote I =
      (∑ j ∈ Finset.range M, num (terms.getD (g j) default) * v.denote I ^ j) + num top * v.denote I ^ M := by
  rw [denote_chain h, ← List.map_reverse, List.foldl_map, List.foldl_map, List.foldl_reverse]
  exact horner_foldr (fun j => num (terms.getD (g j) default)) (v.denote I) (num top) M

theorem sum_odd {α : Type} [CommRing α] (f : ℕ → α) (m : ℕ) :
    ∑ i ∈ Finset.range (2 * m), (if i % 2 = 1 then f i else 0) = ∑ j ∈ Finset.range m, f (2 * j + 1) := by
  induction m with
  | zero => rfl
  | succ m ih =>
    rw [show 2 * (m + 1) = 2 * m + 1 + 1 by ring, Finset.sum_range_succ, Finset.sum_range_succ, ih, Finset.sum_range_succ,
      if_neg (by omega), if_pos (by omega), add_zero]

theorem sum_even {α : Type} [CommRing α] (f : ℕ → α) (m : ℕ) :
    ∑ i ∈ Finset.range (2 * m + 1), (if i % 2 = 0 then f i else 0) = ∑ j ∈ Finset.range (m + 1), f (2 * j) := by
  induction m with
  | zero => rfl
  | succ m ih =>
    rw [show 2 * (m + 1) + 1 = 2 * m + 1 + 1 + 1 by ring, Finset.sum_range_succ, Finset.sum_range_succ, ih, Finset.sum_range_succ _ (m + 1),
      if_neg (by omega), if_pos (by omega), add_zero]
    rfl

/-- The powers a parity keeps. -/
def Parity.keeps : Parity → ℕ → Prop
  | .odd, i => i % 2 = 1
  | .even, i => i % 2 = 0
  | .neither, _ => True

instance (p : Parity) (i : ℕ) : Decidable (p.keeps i) := by cases p <;> unfold Parity.keeps <;> infer_instance

/-- The term counts a parity accepts. -/
def Parity.accepts : Parity → ℕ → Prop
  | .odd, k => k % 2 = 0
  | .even, k => k % 2 = 1
  | .neither, _ => True

/-- The emitted expression means the sum of the terms of the requested parity, whatever the written coefficients mean. -/
theorem chain_poly_value {α : Type} [CommRing α] {I : Interp α} {num : Dec → α} (h : ChainInterp I num) (terms : List Dec) (x : Name)
    (parity : Parity) (h0 : 0 < terms.length) (hp : parity.accepts terms.length) :
    ∃ e, mulAddPolynomial terms x parity = .ok e ∧
      e.denote I = ∑ i ∈ Finset.range terms.length, if parity.keeps i then num (terms.getD i default) * I.var x ^ i else 0 := by
  unfold mulAddPolynomial
  rw [if_neg (by omega)]
  simp only []
  rw [vget_ok_of terms _ (by omega), Res.ok_bind]
  have hx : (Expr.path x).denote I = I.var x := by rw [Expr.denote]
  have hxx : (Expr.binary (.path x) .mul (.path x)).denote I = I.var x * I.var x := by rw [Expr.denote, h.mul, hx]
  cases parity with
  | odd =>
    obtain ⟨m, hm⟩ : ∃ m, terms.length = 2 * (m + 1) := ⟨terms.length / 2 - 1, by have : terms.length % 2 = 0 := hp; omega⟩
    have hcount : stepTwo 1 (terms.length - 1) = (List.range m).map (fun j => 1 + 2 * j) := by
      unfold stepTwo; rw [hm, show (2 * (m + 1) - 1 - 1 + 1) / 2 = m by omega]
    have hidx : ∀ i ∈ (stepTwo 1 (terms.length - 1)).reverse, i < terms.length := by
      intro i hi; rw [hcount] at hi; simp at hi; omega
    simp only []
    rw [if_neg (by omega), vgets_ok _ _ hidx, Res.ok_bind]
    refine ⟨_, rfl, ?_⟩
    rw [Expr.denote, h.mul, hx, hcount, chain_value h, hxx, hm]
    have := sum_odd (fun i => num (terms.getD i default) * I.var x ^ i) (m + 1)
    simp only [Parity.keeps]
    rw [this, Finset.sum_range_succ, add_mul, Finset.sum_mul]
    congr 1
    · apply Finset.sum_congr rfl
      intro j _
      rw [add_comm 1 (2 * j)]; ring
    · show num (terms.getD (2 * (m + 1) - 1) default) * _ * _ = _
      rw [show 2 * (m + 1) - 1 = 2 * m + 1 by omega]; ring
  | even =>
    obtain ⟨m, hm⟩ : ∃ m, terms.length = 2 * m + 1 := ⟨terms.length / 2, by have : terms.length % 2 = 1 := hp; omega⟩
    have hcount : stepTwo 0 (terms.length - 1) = (List.range m).map (fun j => 0 + 2 * j) := by
      unfold stepTwo; rw [hm, show (2 * m + 1 - 1 - 0 + 1) / 2 = m by omega]
    have hidx : ∀ i ∈ (stepTwo 0 (terms.length - 1)).reverse, i < terms.length := by
      intro i hi; rw [hcount] at hi; simp at hi; omega
    simp only []
    rw [if_neg (by omega), vgets_ok _ _ hidx, Res.ok_bind]
    refine ⟨_, rfl, ?_⟩
    rw [hcount, chain_value h, hxx, hm]
    have := sum_even (fun i => num (terms.getD i default) * I.var x ^ i) m
    simp only [Parity.keeps]
    rw [this, Finset.sum_range_succ]
    congr 1
    · apply Finset.sum_congr rfl
      intro j _
      rw [zero_add]; ring
    · show num (terms.getD (2 * m + 1 - 1) default) * _ = _
      rw [show 2 * m + 1 - 1 = 2 * m by omega]; ring
  | neither =>
    have hidx : ∀ i ∈ (List.range (terms.length - 1)).reverse, i < terms.length := by
      intro i hi; simp at hi; omega
    simp only []
    rw [vgets_ok _ _ hidx, Res.ok_bind]
    refine ⟨_, rfl, ?_⟩
    have := chain_value h terms (.path x) (terms.getD (terms.length - 1) default) id (terms.length - 1)
    rw [List.map_id] at this
    rw [this, hx]
    obtain ⟨m, hm⟩ : ∃ m, terms.length = m + 1 := ⟨terms.length - 1, by omega⟩
    rw [hm, Nat.add_sub_cancel, Finset.sum_range_succ]
    simp only [Parity.keeps, id]
    rfl

/-- **C37** The emitted expression means the sum of the terms of the requested parity. -/
theorem C37_chain_value {α : Type} [CommRing α] {I : Interp α} {num : ℚ → α} (h : PolyInterp I num) (terms : List Dec) (x : Name)
    (parity : Parity) (h0 : 0 < terms.length) (hp : parity.accepts terms.length) :
    ∃ e, mulAddPolynomial terms x parity = .ok e ∧
      e.denote I = ∑ i ∈ Finset.range terms.length, if parity.keeps i then num (valAt terms i) * I.var x ^ i else 0 :=
  chain_poly_value h.chain terms x parity h0 hp

/-- **C37** The odd chain is an odd function of its variable, the even chain an even one. -/
theorem C37_chain_symmetry {α : Type} [CommRing α] {I J : Interp α} {num : ℚ → α} (hI : PolyInterp I num) (hJ : PolyInterp J num)
    (terms : List Dec) (x : Name) (hneg : J.var x = -I.var x) (e : Expr) :
    (mulAddPolynomial terms x .odd = .ok e → e.denote J = -e.denote I) ∧
    (mulAddPolynomial terms x .even = .ok e → e.denote J = e.denote I) := by
  have hlen : ∀ p e, mulAddPolynomial terms x p = .ok e → 0 < terms.length ∧ p.accepts terms.length := by
    intro p e he
    unfold mulAddPolynomial at he
    split_ifs at he with h0
    refine ⟨by omega, ?_⟩
    simp only [] at he
    rw [vget_ok_of terms _ (by omega), Res.ok_bind] at he
    cases p with
    | odd => simp only [] at he; split_ifs at he with h1; simp only [Parity.accepts]; omega
    | even => simp only [] at he; split_ifs at he with h1; simp only [Parity.accepts]; omega
    | neither => trivial
  constructor
  · intro he
    obtain ⟨h0, hp⟩ := hlen _ _ he
    obtain ⟨e1, h1, h2⟩ := C37_chain_value hI terms x .odd h0 hp
    obtain ⟨e2, h3, h4⟩ := C37_chain_value hJ terms x .odd h0 hp
    rw [he] at h1 h3
    cases h1; cases h3
    rw [h2, h4, ← Finset.sum_neg_distrib]
    apply Finset.sum_congr rfl
    intro i _
    by_cases hi : Parity.odd.keeps i
    · rw [if_pos hi, if_pos hi, hneg, Odd.neg_pow (Nat.odd_iff.2 hi)]; ring
    · rw [if_neg hi, if_neg hi, neg_zero]
  · intro he
    obtain ⟨h0, hp⟩ := hlen _ _ he
    obtain ⟨e1, h1, h2⟩ := C37_chain_value hI terms x .even h0 hp
    obtain ⟨e2, h3, h4⟩ := C37_chain_value hJ terms x .even h0 hp
    rw [he] at h1 h3
    cases h1; cases h3
    rw [h2, h4]
    apply Finset.sum_congr rfl
    intro i _
    by_cases hi : Parity.even.keeps i
    · rw [if_pos hi, if_pos hi, hneg, Even.neg_pow (Nat.even_iff.2 hi)]
    · rw [if_neg hi, if_neg hi]

/-- Exact arithmetic, every name having the same value `v`. -/
def ratInterp (v : ℚ) : Interp ℚ where
  un _ a := -a
  bin op a b := match op with | .mul => a * b | _ => a + b
  meth _ r args := match args with | [a, b] => r * a + b | _ => 0
  lit l := (litValue l).getD 0
  var _ := v
  field _ a := a
  call _ _ := 0
  other _ := 0

theorem ratInterp_poly (v : ℚ) : PolyInterp (ratInterp v) (fun q => q) where
  mul _ _ := rfl
  mulAdd _ _ _ := rfl
  lit l q h := by show (litValue l).getD 0 = q; rw [h]; rfl

example : mulAddPolynomial [⟨0, 0⟩, ⟨2, 0⟩, ⟨0, 0⟩, ⟨-35, 1⟩] ["x"] .odd =
    .ok (.binary (.methodCall (.paren (.lit (.float "-3.5".toList "")) ) "mul_add"
      [.binary (.path ["x"]) .mul (.path ["x"]), .lit (.int "2".toList "")]) .mul (.path ["x"])) := rfl
example : ∃ e, mulAddPolynomial [⟨0, 0⟩, ⟨2, 0⟩, ⟨0, 0⟩, ⟨-35, 1⟩] ["x"] .odd = .ok e ∧
    e.denote (ratInterp 3) = 2 * 3 - 7 / 2 * 27 := by
  obtain ⟨e, h1, h2⟩ := C37_chain_value (ratInterp_poly 3) [⟨0, 0⟩, ⟨2, 0⟩, ⟨0, 0⟩, ⟨-35, 1⟩] ["x"] .odd (by decide) (by unfold Parity.accepts; decide)
  refine ⟨e, h1, ?_⟩
  rw [h2]
  simp only [List.length_cons, List.length_nil, Finset.sum_range_succ, Finset.sum_range_zero, Parity.keeps, valAt]
  norm_num [ratInterp, Dec.val]

/-! ## C38 -/

/-- **C38** `WrongNumberOfTerms` is returned exactly when the count does not fit the parity. -/
theorem C38_wrong_number_of_terms (terms : List Dec) (x : Name) (parity : Parity) (h0 : 0 < terms.length) :
    mulAddPolynomial terms x parity = .err .wrongNumberOfTerms ↔
      (parity = .odd ∧ terms.length % 2 = 1) ∨ (parity = .even ∧ terms.length % 2 = 0) := by
  by_cases hp : parity.accepts terms.length
  · obtain ⟨e, h1, -⟩ := C37_chain_value (ratInterp_poly 0) terms x parity h0 hp
    rw [h1]
    constructor
    · intro h; cases h
    · rintro (⟨rfl, h⟩ | ⟨rfl, h⟩)
      · have : terms.length % 2 = 0 := hp; omega
      · have : terms.length % 2 = 1 := hp; omega
  · constructor
    · intro _
      cases parity with
      | odd => left; exact ⟨rfl, by unfold Parity.accepts at hp; omega⟩
      | even => right; exact ⟨rfl, by unfold Parity.accepts at hp; omega⟩
      | neither => exact absurd trivial hp
    · intro h
      unfold mulAddPolynomial
      rw [if_neg (by omega)]
      simp only []
      rw [vget_ok_of terms _ (by omega), Res.ok_bind]
      rcases h with ⟨rfl, h⟩ | ⟨rfl, h⟩
      · simp only []; rw [if_pos (by omega)]
      · simp only []; rw [if_pos (by omega)]

/-- **C38** There is no other error, and only the empty list panics. -/
theorem C38_outcomes (terms : List Dec) (x : Name) (parity : Parity) :
    (terms = [] ∧ mulAddPolynomial terms x parity = .panic) ∨
    (terms ≠ [] ∧ (mulAddPolynomial terms x parity = .err .wrongNumberOfTerms ∨ ∃ e, mulAddPolynomial terms x parity = .ok e)) := by
  by_cases h : terms = []
  · left; subst h; exact ⟨rfl, rfl⟩
  · right
    have h0 : 0 < terms.length := List.length_pos_iff.2 h
    refine ⟨h, ?_⟩
    by_cases hp : parity.accepts terms.length
    · obtain ⟨e, h1, -⟩ := C37_chain_value (ratInterp_poly 0) terms x parity h0 hp
      exact .inr ⟨e, h1⟩
    · left
      rw [C38_wrong_number_of_terms terms x parity h0]
      cases parity with
      | odd => left; exact ⟨rfl, by unfold Parity.accepts at hp; omega⟩
      | even => right; exact ⟨rfl, by unfold Parity.accepts at hp; omega⟩
      | neither => exact absurd trivial hp

example : mulAddPolynomial [⟨0, 0⟩, ⟨2, 0⟩, ⟨0, 0⟩] ["x"] .odd = .err .wrongNumberOfTerms := rfl
example : mulAddPolynomial [⟨0, 0⟩, ⟨2, 0⟩] ["x"] .even = .err .wrongNumberOfTerms := rfl

/-! ## C39 -/

/-- The `i`-th sample point of `approx`. -/
def sampleNode (ext : BdExt) (numTerms : Nat) (xmin xmax : Dec) (n : Int) (i : Nat) : Res Dec := do
  let p ← Bd.pi ext n
  let b ← Dec.div p (Dec.ofInt ((numTerms - 1 : Nat) : Int))
  let t ← Bd.cos (Dec.ofInt i * b) n
  pure ((xmax + xmin) * Dec.half - (xmax - xmin) * Dec.half * t)

theorem round_val_zero (d : Dec) (n : Int) (h : d.val = 0) : (round d n).val = 0 := by
  have := round_of_int d n 0 (by simpa using h)
  simpa using this

/-- The cosine of zero is exactly one. -/
theorem cos_zero_val (x : Dec) (n : Int) (hx : x.val = 0) : ∃ d, Bd.cos x n = .ok d ∧ d.val = 1 := by
  have hi : x.int = 0 := (val_eq_zero x).1 hx
  obtain ⟨d0, hd0, hv0⟩ : ∃ d, round (Dec.zero + Dec.one) (n * 2) = d ∧ d.val = 1 := ⟨_, rfl, by
    have := round_of_int (Dec.zero + Dec.one) (n * 2) 1 (by simp); simpa using this⟩
  have hpow : ∀ p : Dec, (round (p * x) (n * 2)).val = 0 := fun p => round_val_zero _ _ (by simp [hx])
  have hfuel : Bd.loopTurns = 30000 + 1 + 1 + 1 := rfl
  have h1 : Bd.maclaurinLoop x n Bd.cosTerm Bd.loopTurns () 0 Dec.zero Dec.one Dec.one = .ok d0 := by
    rw [hfuel, Bd.maclaurinLoop]
    have e0 : Bd.cosTerm () 0 Dec.zero Dec.one Dec.one = .ok (some (Dec.zero + Dec.one), ()) := by
      show (Dec.div Dec.one Dec.one >>= fun q => pure (some (Dec.zero + q), ())) = _
      rw [show Dec.div Dec.one Dec.one = .ok Dec.one by decide +kernel]; rfl
    rw [e0, Res.ok_bind]
    simp only []
    rw [hd0, if_neg (by rw [beq_iff, hv0, val_zero]; norm_num), if_neg (by norm_num), Bd.maclaurinLoop]
    have e1 : ∀ t p q, Bd.cosTerm () (0 + 1) t p q = .ok (none, ()) := fun t p q => rfl
    rw [e1, Res.ok_bind]
    simp only []
    rw [Bd.maclaurinLoop]
    set p2 := round (round (Dec.one * x) (n * 2) * x) (n * 2) with hp2
    have hp2v : p2.int = 0 := (val_eq_zero p2).1 (hpow _)
    have e2 : ∀ t q, q.int ≠ 0 → Bd.cosTerm () (0 + 1 + 1) t p2 q = .ok (some (t - p2), ()) := by
      intro t q hq
      show (Dec.div p2 q >>= fun q => pure (some (t - q), ())) = _
      unfold Dec.div
      rw [if_neg hq, if_pos (.inl hp2v)]; rfl
    rw [e2 _ _ (by decide), Res.ok_bind]
    simp only []
    rw [if_pos]
    · rfl
    · rw [beq_iff, hv0]
      have := round_of_int (d0 - p2) (n * 2) 1 (by rw [val_sub, hv0, hp2, hpow]; simp)
      simpa using this
  refine ⟨_, by unfold Bd.cos Bd.maclaurin; rw [h1]; rfl, ?_⟩
  rw [val_normalized]
  have := round_of_int d0 (n + 1) 1 (by simpa using hv0)
  simpa using this

/-- The loop collects the nodes and their values. -/
theorem sampleLoop_eq (ext : BdExt) (e : Expr) (x : Name) (n : Int) (a b c : Dec) (count lo : Nat) (s r : List Dec × List Dec)
    (h : loopUp (sampleLoop ext e x n a b c) count lo s = .ok r) :
    ∃ xs ys, r = (s.1 ++ xs, s.2 ++ ys) ∧ xs.length = count ∧ ys.length = count ∧
      ∀ i, i < count → ∃ t, Bd.cos (Dec.ofInt (lo + i : Nat) * b) n = .ok t ∧ xs.getD i default = a - c * t ∧
        sampleAt ext e x n (xs.getD i default) = .ok (ys.getD i default) := by
  induction count generalizing lo s with
  | zero =>
    rw [loopUp] at h
    injection h with h
    exact ⟨[], [], by rw [← h]; simp, rfl, rfl, by omega⟩
  | succ k ih =>
    rw [loopUp] at h
    obtain ⟨s1, h1, h2⟩ := Res.bind_eq_ok.1 h
    unfold sampleLoop at h1
    obtain ⟨t, ht, h1⟩ := Res.bind_eq_ok.1 h1
    simp only [] at h1
    obtain ⟨y, hy, h1⟩ := Res.bind_eq_ok.1 h1
    rw [Res.pure_eq] at h1
    injection h1 with h1
    obtain ⟨xs, ys, hr, hx, hyl, hall⟩ := ih (lo + 1) s1 h2
    refine ⟨(a - c * t) :: xs, y :: ys, ?_, by simp [hx], by simp [hyl], ?_⟩
    · rw [hr, ← h1]; simp
    · intro i hi
      cases i with
      | zero => exact ⟨t, ht, rfl, hy⟩
      | succ i =>
        obtain ⟨t', ht', h3, h4⟩ := hall i (by omega)
        exact ⟨t', by rw [show lo + (i + 1) = lo + 1 + i by omega]; exact ht', h3, h4⟩

theorem sampleNode_zero (ext : BdExt) (k : Nat) (xmin xmax : Dec) (n : Int) (d : Dec)
    (h : sampleNode ext k xmin xmax n 0 = .ok d) : d.val = xmin.val := by
  unfold sampleNode at h
  obtain ⟨p, -, h⟩ := Res.bind_eq_ok.1 h
  obtain ⟨b, -, h⟩ := Res.bind_eq_ok.1 h
  obtain ⟨t, ht, h⟩ := Res.bind_eq_ok.1 h
  obtain ⟨t', ht', hv⟩ := cos_zero_val (Dec.ofInt (0 : Nat) * b) n (by simp)
  rw [ht] at ht'
  injection ht' with ht'
  subst ht'
  rw [Res.pure_eq] at h
  injection h with h
  rw [← h]
  simp [hv]
  ring

/-- **C39** When `approx` returns, it sampled the expression at exactly `numTerms` points, the first one being `xmin`;
the result is the multiply-add chain of the polynomial through these samples. -/
theorem C39_samples (ext : BdExt) (e : Expr) (k : Nat) (xmin xmax : Dec) (x : Name) (parity : Parity) (n : Int) (r : Expr)
    (h : approx ext e k xmin xmax x parity n = .ok r) :
    2 ≤ k ∧ ∃ xs ys terms, xs.length = k ∧ ys.length = k ∧ valAt xs 0 = xmin.val ∧
      (∀ i, i < k → sampleNode ext k xmin xmax n i = .ok (xs.getD i default)) ∧
      (∀ i, i < k → sampleAt ext e x n (xs.getD i default) = .ok (ys.getD i default)) ∧
      fromPoints xs ys n = .ok terms ∧ mulAddPolynomial terms x parity = .ok r := by
  unfold approx at h
  split_ifs at h with h0
  simp only [] at h
  obtain ⟨p, hp, h⟩ := Res.bind_eq_ok.1 h
  obtain ⟨b, hb, h⟩ := Res.bind_eq_ok.1 h
  obtain ⟨s, hs, h⟩ := Res.bind_eq_ok.1 h
  obtain ⟨terms, ht, hm⟩ := Res.bind_eq_ok.1 h
  have hk : 2 ≤ k := by
    by_contra hk
    have : k = 1 := by omega
    subst this
    rw [(Dec.div_spec p _).1 (by simp)] at hb
    cases hb
  obtain ⟨xs, ys, hr, hx, hy, hall⟩ := sampleLoop_eq ext e x n _ b _ k 0 _ s hs
  simp only [List.nil_append] at hr
  subst hr
  have hn : ∀ i, i < k → sampleNode ext k xmin xmax n i = .ok (xs.getD i default) := by
    intro i hi
    obtain ⟨t, h1, h2, -⟩ := hall i hi
    rw [zero_add] at h1
    unfold sampleNode
    rw [hp, Res.ok_bind, hb, Res.ok_bind, h1, Res.ok_bind, h2]; rfl
  refine ⟨hk, xs, ys, terms, hx, hy, ?_, hn, ?_, ht, hm⟩
  · exact sampleNode_zero ext k xmin xmax n _ (hn 0 (by omega))
  · intro i hi
    obtain ⟨t, -, -, h3⟩ := hall i hi
    exact h3

theorem chain_names (v : Expr) (x : Name) (hv : ∀ p ∈ v.names, p = x) (top : Dec) (cs : List Dec) :
    ∀ p ∈ (mulAddChain v top cs).names, p = x := by
  have hq : ∀ d, (quotedDec d).names = [] := by intro d; unfold quotedDec; split_ifs <;> rw [Expr.names]
  have key : ∀ (cs : List Dec) (e : Expr), (∀ p ∈ e.names, p = x) →
      ∀ p ∈ (cs.foldl (fun acc t => Expr.methodCall acc "mul_add" [v, quotedDec t]) e).names, p = x := by
    intro cs
    induction cs with
    | nil => intro e he; exact he
    | cons c cs ih =>
      intro e he
      rw [List.foldl_cons]
      apply ih
      intro p hp
      rw [Expr.names, Expr.namesArgs, Expr.namesArgs, Expr.namesArgs, hq] at hp
      simp only [List.mem_append, List.not_mem_nil, or_false] at hp
      rcases hp with hp | hp
      · exact he p hp
      · exact hv p hp
  apply key
  intro p hp
  rw [Expr.names, hq] at hp
  simp at hp

/-- **C39** The returned expression mentions no name other than the variable, whatever the expression approximated. -/
theorem C39_mentions_only_variable (ext : BdExt) (e : Expr) (k : Nat) (xmin xmax : Dec) (x : Name) (parity : Parity) (n : Int) (r : Expr)
    (h : approx ext e k xmin xmax x parity n = .ok r) : ∀ p ∈ r.names, p = x := by
  obtain ⟨-, xs, ys, terms, -, -, -, -, -, -, h⟩ := C39_samples ext e k xmin xmax x parity n r h
  unfold mulAddPolynomial at h
  split_ifs at h
  simp only [] at h
  obtain ⟨top, -, h⟩ := Res.bind_eq_ok.1 h
  have hx : ∀ p ∈ (Expr.path x).names, p = x := by intro p hp; rw [Expr.names] at hp; simpa using hp
  have hxx : ∀ p ∈ (Expr.binary (.path x) .mul (.path x)).names, p = x := by
    intro p hp
    rw [Expr.names, Expr.names] at hp
    simpa using hp
  cases parity with
  | odd =>
    simp only [] at h
    split_ifs at h
    obtain ⟨cs, -, h⟩ := Res.bind_eq_ok.1 h
    injection h with h
    rw [← h]
    intro p hp
    rw [Expr.names, List.mem_append] at hp
    exact hp.elim (chain_names _ x hxx _ _ p) (hx p)
  | even =>
    simp only [] at h
    split_ifs at h
    obtain ⟨cs, -, h⟩ := Res.bind_eq_ok.1 h
    injection h with h
    rw [← h]
    exact chain_names _ x hxx _ _
  | neither =>
    simp only [] at h
    obtain ⟨cs, -, h⟩ := Res.bind_eq_ok.1 h
    injection h with h
    rw [← h]
    exact chain_names _ x hx _ _

theorem loopUp_stop {σ : Type} (body : Nat → σ → Res σ) (count lo m : Nat) (s : Nat → σ) (hm : lo ≤ m) (hm2 : m < lo + count)
    (h : ∀ i, lo ≤ i → i < m → body i (s i) = .ok (s (i + 1))) (r : Res σ) (hr : body m (s m) = r) (hno : ∀ a, r ≠ .ok a) :
    loopUp body count lo (s lo) = r := by
  induction count generalizing lo with
  | zero => omega
  | succ c ih =>
    rw [loopUp]
    by_cases hl : lo = m
    · subst hl
      rw [hr]
      cases r with
      | ok a => exact absurd rfl (hno a)
      | err _ => rfl
      | panic => rfl
      | diverge => rfl
    · rw [h lo le_rfl (by omega), Res.ok_bind]
      exact ih (lo + 1) (by omega) (by omega) (fun i h1 h2 => h i (by omega) h2)

/-- **C39** If the sample at some node fails, and those before it succeed, `approx` fails in the same way. -/
theorem C39_sample_error (ext : BdExt) (e : Expr) (k : Nat) (xmin xmax : Dec) (x : Name) (parity : Parity) (n : Int)
    (node y : Nat → Dec) (j : Nat) (hj : j < k) (hnode : ∀ i, i ≤ j → sampleNode ext k xmin xmax n i = .ok (node i))
    (hok : ∀ i, i < j → sampleAt ext e x n (node i) = .ok (y i)) (er : Err) (her : sampleAt ext e x n (node j) = .err er) :
    approx ext e k xmin xmax x parity n = .err er := by
  unfold approx
  rw [if_neg (by omega)]
  simp only []
  have hn0 := hnode 0 (by omega)
  unfold sampleNode at hn0
  obtain ⟨p, hp, hn0⟩ := Res.bind_eq_ok.1 hn0
  obtain ⟨b, hb, -⟩ := Res.bind_eq_ok.1 hn0
  rw [hp, Res.ok_bind, hb, Res.ok_bind]
  have hc : ∀ i, i ≤ j → ∃ t, Bd.cos (Dec.ofInt (i : Nat) * b) n = .ok t ∧ (xmax + xmin) * Dec.half - (xmax - xmin) * Dec.half * t = node i := by
    intro i hi
    have := hnode i hi
    unfold sampleNode at this
    rw [hp, Res.ok_bind, hb, Res.ok_bind] at this
    obtain ⟨t, ht, h⟩ := Res.bind_eq_ok.1 this
    injection h with h
    exact ⟨t, ht, h⟩
  have := loopUp_stop (sampleLoop ext e x n ((xmax + xmin) * Dec.half) b ((xmax - xmin) * Dec.half)) k 0 j
    (fun i => ((List.range i).map node, (List.range i).map y)) (by omega) (by omega)
    (by
      intro i _ hi
      obtain ⟨t, ht, hv⟩ := hc i (by omega)
      unfold sampleLoop
      rw [ht, Res.ok_bind]
      simp only []
      rw [hv, hok i hi, Res.ok_bind, List.range_succ, List.map_append, List.map_append]
      rfl) (.err er)
    (by
      obtain ⟨t, ht, hv⟩ := hc j le_rfl
      unfold sampleLoop
      rw [ht, Res.ok_bind]
      simp only []
      rw [hv, her]; rfl) (by simp)
  simp only [List.range_zero, List.map_nil] at this
  rw [this]; rfl

/-- **C39** Zero terms panic, and so does one term. -/
theorem C39_zero_terms (ext : BdExt) (e : Expr) (xmin xmax : Dec) (x : Name) (parity : Parity) (n : Int) :
    approx ext e 0 xmin xmax x parity n = .panic := rfl

theorem C39_one_term (ext : BdExt) (e : Expr) (xmin xmax : Dec) (x : Name) (parity : Parity) (n : Int) (hn : n < 100) :
    approx ext e 1 xmin xmax x parity n = .panic := by
  unfold approx
  rw [if_neg (by omega)]
  simp only []
  have hp : ∃ p, Bd.pi ext n = .ok p := by
    by_cases h : 0 ≤ n
    · obtain ⟨m, rfl⟩ := Int.eq_ofNat_of_zero_le h
      obtain ⟨d, hd, -⟩ := C29_pi_correctly_rounded ext m (by omega)
      exact ⟨d, hd⟩
    · obtain ⟨d, hd, -⟩ := C29_pi_negative_digits ext n (by omega)
      exact ⟨d, hd⟩
  obtain ⟨p, hp⟩ := hp
  rw [hp, Res.ok_bind, (Dec.div_spec p _).1 (by simp)]
  rfl

theorem expBound_four (n : ℕ) (h1 : 6 ≤ n) (h2 : n ≤ 94) : expBound 4 n (2 * n + 52) < 1 / 10 ^ (n + 1) := by
  unfold expBound
  have hE : Real.exp (4 : ℕ) ≤ 55 := by
    have h : Real.exp ((4 : ℕ) : ℝ) = Real.exp 1 ^ 4 := by rw [← Real.exp_nat_mul]; simp
    rw [h]
    have h1 := Real.exp_one_lt_d9
    have h2 := Real.exp_pos 1
    calc Real.exp 1 ^ 4 ≤ 2.7182818286 ^ 4 := by gcongr
      _ ≤ 55 := by norm_num
  have hE0 := Real.exp_pos ((4 : ℕ) : ℝ)
  have hp : (0 : ℝ) < 10 ^ n := by positivity
  have h100 : (100 : ℝ) ^ n = 10 ^ n * 10 ^ n := by rw [← mul_pow]; norm_num
  have hlin : (40 : ℝ) * (1750 + n) ≤ 10 ^ n := by
    obtain ⟨k, rfl⟩ : ∃ k, n = 6 + k := ⟨n - 6, by omega⟩
    clear h100 hp h1 h2
    induction k with
    | zero => norm_num
    | succ k ih =>
      rw [← add_assoc, pow_succ]
      push_cast at ih ⊢
      have : (1 : ℝ) ≤ 10 ^ k := one_le_pow₀ (by norm_num)
      have : (40 : ℝ) ≤ 10 ^ (6 + k) := by rw [pow_add]; linarith
      linarith
  have h99 : (10 : ℝ) ^ n ≤ 10 ^ 94 := pow_le_pow_right₀ (by norm_num) h2
  have t2 : 1 / 2 * (1 / 10 ^ 99) * Real.exp (4 : ℕ) ≤ 1 / 1000 * (1 / 10 ^ n) := by
    rw [show (1 : ℝ) / 1000 * (1 / 10 ^ n) = 1 / 1000 / 10 ^ n by ring, le_div_iff₀ hp]
    calc 1 / 2 * (1 / 10 ^ 99) * Real.exp (4 : ℕ) * 10 ^ n ≤ 1 / 2 * (1 / 10 ^ 99) * 55 * 10 ^ 94 := by gcongr
      _ ≤ 1 / 1000 := by norm_num
  have t3 : 1 / 100 ^ n * (Real.exp (4 : ℕ) + (2 * n + 52 : ℕ) / 2 + Real.exp (4 : ℕ) * (1 + Real.exp (4 : ℕ) / 2)) ≤ 1 / 40 * (1 / 10 ^ n) := by
    have h4 : Real.exp (4 : ℕ) + (2 * n + 52 : ℕ) / 2 + Real.exp (4 : ℕ) * (1 + Real.exp (4 : ℕ) / 2) ≤ 10 ^ n / 40 := by
      push_cast at hE hE0 ⊢
      nlinarith
    calc _ ≤ (1 : ℝ) / 100 ^ n * (10 ^ n / 40) := by gcongr
      _ = 1 / 40 * (1 / 10 ^ n) := by rw [h100]; field_simp
  have hpos : (0 : ℝ) < 1 / 10 ^ n := by positivity
  have e : (1 : ℝ) / 20 / 10 ^ n = 1 / 20 * (1 / 10 ^ n) := by ring
  have e2 : (1 : ℝ) / 10 ^ (n + 1) = 1 / 10 * (1 / 10 ^ n) := by rw [pow_succ]; ring
  rw [e, e2]
  linarith

/-- Up to 4 in size, the computed cosine never leaves `[-1, 1]`. -/
theorem cos_within (x d : Dec) (n : ℕ) (h1 : 6 ≤ n) (h2 : n ≤ 94) (hx : |x.val| ≤ 4) (h : Bd.cos x n = .ok d) : |d.val| ≤ 1 := by
  obtain ⟨d', hd', he⟩ := C24_cos_error x n 4 (by norm_num) (by exact_mod_cast hx) (by omega)
  rw [h] at hd'
  injection hd' with hd'
  subst hd'
  have hlt := he.trans_lt (expBound_four n h1 h2)
  have hc := Real.abs_cos_le_one (x.val : ℝ)
  have hd : |(d.val : ℝ)| < 1 + 1 / 10 ^ (n + 1) := by
    have := abs_sub_abs_le_abs_sub (d.val : ℝ) (Real.cos x.val)
    linarith
  have hdq : |d.val| < 1 + 1 / 10 ^ (n + 1) := by
    have : ((|d.val| : ℚ) : ℝ) < ((1 + 1 / 10 ^ (n + 1) : ℚ) : ℝ) := by push_cast; exact hd
    exact_mod_cast this
  have hint : ∃ k : ℤ, d.val * 10 ^ (n + 1) = k := by
    unfold Bd.cos Bd.maclaurin at h
    obtain ⟨tot, -, h⟩ := Res.bind_eq_ok.1 h
    injection h with h
    obtain ⟨k, hk⟩ := rndAway_int tot.val (n + 1 : Int)
    refine ⟨k, ?_⟩
    rw [← h, val_normalized, val_round (by omega), hk, mul_assoc]
    rw [show (10 : ℚ) ^ (-((n : Int) + 1)) * 10 ^ (n + 1) = 1 by
      rw [zpow_neg, show ((n : Int) + 1) = ((n + 1 : ℕ) : Int) by push_cast; rfl, zpow_natCast, inv_mul_cancel₀ (by positivity)], mul_one]
  obtain ⟨k, hk⟩ := hint
  have hp : (0 : ℚ) < 10 ^ (n + 1) := by positivity
  have hk1 : |(k : ℚ)| < 10 ^ (n + 1) + 1 := by
    rw [← hk, abs_mul, abs_of_pos hp]
    calc |d.val| * 10 ^ (n + 1) < (1 + 1 / 10 ^ (n + 1)) * 10 ^ (n + 1) := by gcongr
      _ = 10 ^ (n + 1) + 1 := by field_simp
  have hk2 : |k| < 10 ^ (n + 1) + 1 := by exact_mod_cast hk1
  have hk3 : |(k : ℚ)| ≤ 10 ^ (n + 1) := by
    have : |k| ≤ 10 ^ (n + 1) := by omega
    exact_mod_cast this
  rw [← hk, abs_mul, abs_of_pos hp] at hk3
  have : |d.val| * 10 ^ (n + 1) ≤ 1 * 10 ^ (n + 1) := by linarith
  exact le_of_mul_le_mul_right this hp

/-- **C39** All nodes exist, lie inside the interval, and are within `10^-n` of half the interval's width of the
Chebyshev extrema, for between 6 and 94 digits. -/
theorem C39_nodes (ext : BdExt) (k : Nat) (hk : 2 ≤ k) (xmin xmax : Dec) (hle : xmin.val ≤ xmax.val) (n : ℕ) (h1 : 6 ≤ n) (h2 : n ≤ 94)
    (i : Nat) (hi : i < k) :
    ∃ d, sampleNode ext k xmin xmax n i = .ok d ∧ xmin.val ≤ d.val ∧ d.val ≤ xmax.val ∧
      |(d.val : ℝ) - (((xmax.val : ℝ) + xmin.val) / 2 - ((xmax.val : ℝ) - xmin.val) / 2 * Real.cos (Real.pi * i / (k - 1)))| ≤
        ((xmax.val : ℝ) - xmin.val) / 2 * (1 / 10 ^ n) := by
  obtain ⟨p, hp, -, hpe⟩ := C29_pi_correctly_rounded ext n (by omega)
  have hk1 : ((k - 1 : ℕ) : ℚ) = (k : ℚ) - 1 := by push_cast [Nat.cast_sub (show 1 ≤ k by omega)]; ring
  have hkpos : (0 : ℚ) < (k : ℚ) - 1 := by rw [← hk1]; exact_mod_cast (show 0 < k - 1 by omega)
  have hden : (Dec.ofInt ((k - 1 : Nat) : Int)).val = (k : ℚ) - 1 := by rw [val_ofInt, ← hk1]; push_cast; rfl
  obtain ⟨b, hb, hbe⟩ := (Dec.div_spec p (Dec.ofInt ((k - 1 : Nat) : Int))).2 (by rw [hden]; exact hkpos.ne')
  rw [hden] at hbe
  have hpow : (1 : ℝ) / 2 / 10 ^ n ≤ 1 / 1000 := by
    have : (10 : ℝ) ^ 6 ≤ 10 ^ n := pow_le_pow_right₀ (by norm_num) h1
    rw [div_le_iff₀ (by positivity)]
    linarith
  have hpR := abs_lt.1 hpe
  have hpi1 := Real.pi_gt_three
  have hpi2 := Real.pi_lt_d2
  have hp3 : (0 : ℝ) < (p.val : ℝ) := by linarith [hpR.1]
  have hp4 : (p.val : ℝ) < 3.2 := by linarith [hpR.2]
  have hp3q : 0 < p.val := by exact_mod_cast hp3
  have hp4q : p.val < 3.2 := by
    have : ((p.val : ℚ) : ℝ) < ((3.2 : ℚ) : ℝ) := by push_cast; exact hp4
    exact_mod_cast this
  -- the ratio i / (k - 1)
  have hr0 : (0 : ℚ) ≤ (i : ℚ) / (k - 1) := by positivity
  have hr1 : (i : ℚ) / (k - 1) ≤ 1 := by
    rw [div_le_one hkpos]
    have : (i : ℚ) + 1 ≤ k := by exact_mod_cast hi
    linarith
  have hib : |(i : ℚ) * b.val - p.val * (i / (k - 1))| ≤ divEps * 3.2 := by
    have e : (i : ℚ) * b.val - p.val * (i / (k - 1)) = i * (b.val - p.val / (k - 1)) := by field_simp
    rw [e, abs_mul, abs_of_nonneg (by positivity : (0 : ℚ) ≤ i)]
    calc (i : ℚ) * |b.val - p.val / (k - 1)| ≤ i * (divEps * |p.val / (k - 1)|) := by gcongr
      _ = divEps * (p.val * (i / (k - 1))) := by rw [abs_of_pos (div_pos hp3q hkpos)]; ring
      _ ≤ divEps * (3.2 * 1) := by
          have := Bd.divEps_nonneg
          gcongr
      _ = _ := by ring
  have hdE : divEps * 3.2 ≤ 1 / 1000 := by norm_num [divEps]
  have hx4 : |(Dec.ofInt i * b).val| ≤ 4 := by
    rw [val_mul, val_ofInt]
    push_cast
    have h5 : |p.val * (i / (k - 1))| ≤ 3.2 := by
      rw [abs_of_nonneg (by positivity)]
      nlinarith
    have := abs_sub_abs_le_abs_sub ((i : ℚ) * b.val) (p.val * (i / (k - 1)))
    linarith
  obtain ⟨t, ht, hte⟩ := C24_cos_error (Dec.ofInt i * b) n 4 (by norm_num) (by exact_mod_cast hx4) (by omega)
  have hte2 := hte.trans_lt (expBound_four n h1 h2)
  have ht1 := cos_within _ t n h1 h2 hx4 ht
  refine ⟨(xmax + xmin) * Dec.half - (xmax - xmin) * Dec.half * t, ?_, ?_, ?_, ?_⟩
  · unfold sampleNode
    rw [hp, Res.ok_bind, hb, Res.ok_bind, ht]; rfl
  · rw [val_sub, val_mul, val_mul, val_mul, val_add, val_sub, val_half]
    have := (abs_le.1 ht1).2
    nlinarith
  · rw [val_sub, val_mul, val_mul, val_mul, val_add, val_sub, val_half]
    have := (abs_le.1 ht1).1
    nlinarith
  · rw [val_sub, val_mul, val_mul, val_mul, val_add, val_sub, val_half]
    push_cast
    have hw : (0 : ℝ) ≤ ((xmax.val : ℝ) - xmin.val) / 2 := by
      have : (xmin.val : ℝ) ≤ xmax.val := by exact_mod_cast hle
      linarith
    rw [show ((xmax.val : ℝ) + xmin.val) * (1 / 2) - ((xmax.val : ℝ) - xmin.val) * (1 / 2) * t.val -
      (((xmax.val : ℝ) + xmin.val) / 2 - ((xmax.val : ℝ) - xmin.val) / 2 * Real.cos (Real.pi * i / (k - 1))) =
      ((xmax.val : ℝ) - xmin.val) / 2 * (Real.cos (Real.pi * i / (k - 1)) - t.val) by ring, abs_mul, abs_of_nonneg hw]
    apply mul_le_mul_of_nonneg_left _ hw
    have hcc : |Real.cos (Real.pi * i / (k - 1)) - Real.cos ((Dec.ofInt i * b).val : ℝ)| ≤ |Real.pi * i / (k - 1) - ((Dec.ofInt i * b).val : ℝ)| :=
      Real.abs_cos_sub_cos_le _ _
    have hib' : |Real.pi * i / (k - 1) - ((Dec.ofInt i * b).val : ℝ)| ≤ 1 / 2 / 10 ^ n + 1 / 10 ^ 98 := by
      rw [val_mul, val_ofInt]
      have h6 : |(i : ℝ) * b.val - p.val * (i / (k - 1))| ≤ 1 / 10 ^ 98 := by
        have : |(i : ℚ) * b.val - p.val * (i / (k - 1))| ≤ 1 / 10 ^ 98 := hib.trans (by norm_num [divEps])
        have : ((|(i : ℚ) * b.val - p.val * (i / (k - 1))| : ℚ) : ℝ) ≤ ((1 / 10 ^ 98 : ℚ) : ℝ) := by exact_mod_cast this
        push_cast at this
        exact this
      have h7 : |Real.pi * i / (k - 1) - p.val * (i / (k - 1) : ℝ)| ≤ 1 / 2 / 10 ^ n := by
        rw [show Real.pi * i / (k - 1) - p.val * (i / (k - 1) : ℝ) = (Real.pi - p.val) * (i / (k - 1)) by ring, abs_mul]
        have hr0' : (0 : ℝ) ≤ (i : ℝ) / (k - 1) := by
          have : ((0 : ℚ) : ℝ) ≤ (((i : ℚ) / (k - 1) : ℚ) : ℝ) := by exact_mod_cast hr0
          push_cast at this; exact this
        have hr1' : (i : ℝ) / (k - 1) ≤ 1 := by
          have : (((i : ℚ) / (k - 1) : ℚ) : ℝ) ≤ ((1 : ℚ) : ℝ) := by exact_mod_cast hr1
          push_cast at this; exact this
        rw [abs_of_nonneg hr0', abs_sub_comm]
        calc |(p.val : ℝ) - Real.pi| * (i / (k - 1)) ≤ |(p.val : ℝ) - Real.pi| * 1 := by gcongr
          _ ≤ 1 / 2 / 10 ^ n := by rw [mul_one]; exact hpe.le
      have h8 := abs_sub_le (Real.pi * i / (k - 1)) (p.val * (i / (k - 1) : ℝ)) ((i : ℝ) * b.val)
      rw [abs_sub_comm (p.val * (i / (k - 1) : ℝ))] at h8
      push_cast
      linarith
    have h9 := abs_sub_le (Real.cos (Real.pi * i / (k - 1))) (Real.cos ((Dec.ofInt i * b).val : ℝ)) (t.val : ℝ)
    rw [abs_sub_comm (Real.cos ((Dec.ofInt i * b).val : ℝ))] at h9
    have e1 : (1 : ℝ) / 10 ^ (n + 1) = 1 / 10 * (1 / 10 ^ n) := by rw [pow_succ]; ring
    have e2 : (1 : ℝ) / 2 / 10 ^ n = 1 / 2 * (1 / 10 ^ n) := by ring
    have e3 : (1 : ℝ) / 10 ^ 98 ≤ 1 / 10 * (1 / 10 ^ n) := by
      rw [← e1]
      apply one_div_le_one_div_of_le (by positivity)
      exact pow_le_pow_right₀ (by norm_num) (by omega)
    have : (0 : ℝ) < 1 / 10 ^ n := by positivity
    linarith

/-- **C39** With no parity asked for, the emitted expression takes, at every sample point, the value sampled there up
to the rounding of the interpolation (`C35_residual`). -/
theorem C39_value_at_nodes (ext : BdExt) (e : Expr) (k : Nat) (xmin xmax : Dec) (x : Name) (n : ℕ) (r : Expr)
    (h : approx ext e k xmin xmax x .neither n = .ok r) :
    ∃ xs ys : List Dec, xs.length = k ∧ ys.length = k ∧
      (∀ i, i < k → sampleNode ext k xmin xmax n i = .ok (xs.getD i default)) ∧
      (∀ i, i < k → sampleAt ext e x n (xs.getD i default) = .ok (ys.getD i default)) ∧
      ∀ D δ Y M : ℚ, 0 < δ → (∀ i j, i < k → j < k → |valAt xs i - valAt xs j| ≤ D) →
        (∀ i j, i < j → j < k → δ ≤ |valAt xs i - valAt xs j|) → (∀ j, j < k → |valAt ys j| ≤ Y) →
        (∀ s, s < k → ddGrowth Y δ n s ≤ M) → ∀ m, m < k →
        |r.denote (ratInterp (valAt xs m)) - valAt ys m| ≤ (1 / 2 / 10 ^ n + (M + 1) / 10 ^ 99) * ((1 + D) ^ m - 1) +
          1 / 2 / 10 ^ n * (∑ j ∈ Finset.range k, |valAt xs m| ^ j) * ∑ i ∈ Finset.range k, (1 + M * ∑ l ∈ Finset.range i, D ^ l) := by
  obtain ⟨hk, xs, ys, terms, hx, hy, -, hn, hs, ht, hr⟩ := C39_samples ext e k xmin xmax x .neither n r h
  refine ⟨xs, ys, hx, hy, hn, hs, ?_⟩
  intro D δ Y M hδ hD hsep hY hM m hm
  have hg := (C35_returns_iff xs ys n).1 ⟨terms, ht⟩
  have hl := C35_length xs ys n terms ht
  subst hy
  obtain ⟨t, ht', hres⟩ := C35_residual xs ys n hg D δ Y M hδ hD hsep hY hM
  rw [ht] at ht'
  injection ht' with ht'
  subst ht'
  obtain ⟨d, hd, hb⟩ := hres m hm
  obtain ⟨d', hd', hv⟩ := C36_eval_is_sum terms (by omega) (xs.getD m default)
  rw [hd] at hd'
  injection hd' with hd'
  subst hd'
  obtain ⟨e', he', hden⟩ := C37_chain_value (ratInterp_poly (valAt xs m)) terms x .neither (by omega) trivial
  rw [hr] at he'
  injection he' with he'
  subst he'
  have : r.denote (ratInterp (valAt xs m)) = d.val := by
    rw [hden, hv]
    apply Finset.sum_congr rfl
    intro j _
    rw [if_pos (show Parity.neither.keeps j from trivial)]
    rfl
  rw [this]
  exact hb

-- sin over [-1, 1] with four terms and six digits: -0.156507 x³ + 0.997979 x
example : (match approx fuelExt (.methodCall (.path ["x"]) "sin" []) 4 ⟨-1, 0⟩ ⟨1, 0⟩ ["x"] .odd 6 with
    | .ok (.binary (.methodCall (.paren (.lit (.float a _))) "mul_add" [_, .lit (.float b _)]) .mul (.path ["x"])) =>
      decide (a = "-0.156507".toList ∧ b = "0.997979".toList)
    | _ => false) = true := by decide +kernel
-- another free name: the sample's error comes back
example : (match approx fuelExt (.methodCall (.path ["y"]) "sin" []) 4 ⟨-1, 0⟩ ⟨1, 0⟩ ["x"] .odd 6 with
    | .err .couldNotEvaluate => true
    | _ => false) = true := by decide +kernel

end Verif
