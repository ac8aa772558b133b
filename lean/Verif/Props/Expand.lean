import Verif.Lemmas.Expand

/-! # C17-C19: `expand` -/

namespace Verif

/-- The interpretation reads `+`, `-`, `*` and negation as the ring operations; everything else is arbitrary. -/
structure RingLike {R : Type} [CommRing R] (I : Interp R) : Prop where
  add : ∀ a b, I.bin .add a b = a + b
  sub : ∀ a b, I.bin .sub a b = a - b
  mul : ∀ a b, I.bin .mul a b = a * b
  neg : ∀ a, I.un .neg a = -a

section
variable {R : Type} [CommRing R] (I : Interp R) (hI : RingLike I)
include hI

theorem denote_negate (e : Expr) : (negate e).denote I = - e.denote I := by
  have : ∀ e : Expr, (Expr.unary .neg e).denote I = - e.denote I := by intro e; simp [Expr.denote, hI.neg]
  cases e <;> first | exact this _ | skip
  rename_i op e
  cases op
  · exact this _
  · exact this _
  · simp [negate, this]

theorem sum_matchSumAux : ∀ (e : Expr) (s n : Bool),
    ((matchSumAux s n e).map (Expr.denote I)).sum = if n then - e.denote I else e.denote I := by
  have leaf : ∀ (e : Expr) (n : Bool), ((if n then [negate e] else [e]).map (Expr.denote I)).sum =
      if n then - e.denote I else e.denote I := by
    intro e n; cases n <;> simp [denote_negate I hI]
  have prod : ∀ l r : List Expr,
      ((l.flatMap fun lhs => r.map fun rhs => makeBinary lhs .mul rhs).map (Expr.denote I)).sum =
      (l.map (Expr.denote I)).sum * (r.map (Expr.denote I)).sum := by
    intro l r
    induction l with
    | nil => simp
    | cons a as ih =>
      have : ((r.map fun rhs => makeBinary a .mul rhs).map (Expr.denote I)).sum =
          a.denote I * (r.map (Expr.denote I)).sum := by
        clear ih
        induction r with
        | nil => simp
        | cons b bs ih2 =>
          rw [List.map_cons, List.map_cons, List.sum_cons, ih2]
          simp only [List.map_cons, List.sum_cons, makeBinary, Expr.denote, hI.mul]
          ring
      rw [List.flatMap_cons, List.map_append, List.sum_append, ih, this]
      simp only [List.map_cons, List.sum_cons]
      ring
  apply Expr.ind
  · intro op e _ s n; simpa only [matchSumAux] using leaf _ n
  · intro l op r ihl ihr s n
    by_cases h1 : op = .add
    · subst h1
      simp only [matchSumAux, List.map_append, List.sum_append, ihl, ihr, Expr.denote, hI.add]
      cases n <;> simp; ring
    by_cases h2 : op = .sub
    · subst h2
      simp only [matchSumAux, List.map_append, List.sum_append, ihl, ihr, Expr.denote, hI.sub]
      cases n <;> simp <;> ring
    by_cases h3 : op = .mul
    · subst h3
      simp only [matchSumAux, prod, ihl, ihr, Expr.denote, hI.mul]
      cases n <;> simp
    · cases op <;> first | exact absurd rfl h1 | exact absurd rfl h2 | exact absurd rfl h3 | exact leaf _ n
  · intro r m args _ _ s n; simpa only [matchSumAux] using leaf _ n
  · intro e ih s n
    cases s
    · exact leaf (.paren e) n
    · simpa only [matchSumAux, if_true, Expr.denote] using ih false n
  all_goals (intros; simpa only [matchSumAux] using leaf _ _)

theorem denote_makeSum (l : List Expr) (e : Expr) (h : makeSum l = .ok e) :
    e.denote I = (l.map (Expr.denote I)).sum := by
  induction l using List.reverseRecOn generalizing e with
  | nil => cases h
  | append_singleton l r ih =>
    by_cases hl : l = []
    · subst hl; cases h; simp
    · obtain ⟨x, hx⟩ := makeSum_ok l hl
      rw [makeSum_snoc l r x hl hx] at h
      cases h
      rw [List.map_append, List.sum_append, ← ih x hx]
      unfold sumStep
      split
      · simp only [Expr.denote, hI.sub, denote_negate I hI]; simp
      · simp only [Expr.denote, hI.add]; simp

end

/-- **C17** In every commutative ring, for every meaning of the names, methods, literals and remaining operators,
`expand` preserves the value. -/
theorem C17_expand_value {R : Type} [CommRing R] (I : Interp R) (hI : RingLike I) :
    ∀ e e', expand e = .ok e' → e'.denote I = e.denote I := by
  have args : ∀ l : List Expr, (∀ a ∈ l, ∀ a', expandVisitor.visit a = .ok a' → a'.denote I = a.denote I) →
      ∀ l', expandVisitor.visitArgs l = .ok l' → Expr.denoteArgs I l' = Expr.denoteArgs I l := by
    intro l
    induction l with
    | nil => intro _ l' h; cases h; rfl
    | cons a as ih =>
      intro ha l' h
      rw [Visitor.visitArgs, Res.bind_eq_ok] at h
      obtain ⟨a', ha', h⟩ := h
      rw [Res.bind_eq_ok] at h
      obtain ⟨as', has', h⟩ := h
      cases h
      rw [Expr.denoteArgs, Expr.denoteArgs, ha a (by simp) a' ha', ih (fun b hb => ha b (by simp [hb])) as' has']
  unfold expand
  apply Expr.ind
  · intro op e _ e' ha
    rw [expand_visit_unary] at ha
    cases op with
    | deref => cases ha
    | not => cases ha
    | neg =>
      simp only [expandUnary, matchSum] at ha
      rw [denote_makeSum I hI _ _ ha, sum_matchSumAux I hI]
      have : (deparen e).denote I = e.denote I := by cases e <;> rfl
      simp [this, Expr.denote, hI.neg]
  · intro l op r _ _ e' h
    rw [expand_visit_binary] at h
    simp only [expandBinary, matchSum] at h
    rw [denote_makeSum I hI _ _ h, sum_matchSumAux I hI]
    simp
  · intro r m as ihr iha e' h
    rw [Visitor.visit, Res.bind_eq_ok] at h
    obtain ⟨a, ha, h⟩ := h
    rw [Res.bind_eq_ok] at h
    obtain ⟨b, hb, h⟩ := h
    cases h
    simp only [expandVisitor, id, Expr.denote]
    rw [ihr a ha, args as iha b hb]
  · intro e ih e' h
    rw [Visitor.visit, Res.bind_eq_ok] at h
    obtain ⟨a, ha, h⟩ := h
    cases h
    simp only [expandVisitor, id, Expr.denote]
    rw [ih a ha]
  · intro l e' h; cases h; rfl
  · intro p e' h; cases h; rfl
  · intro b m ih e' h
    rw [Visitor.visit, Res.bind_eq_ok] at h
    obtain ⟨a, ha, h⟩ := h
    cases h
    simp only [expandVisitor, id, Expr.denote]
    rw [ih a ha]
  · intro f as _ _ e' h; cases h
  · intro k e' h; cases h

/-- Integer polynomials in one unknown, for the example: evaluate at 7, methods and other operators are junk. -/
def exampleInterp : Interp ℤ where
  un := fun op a => match op with | .neg => -a | _ => 0
  bin := fun op a b => match op with | .add => a + b | .sub => a - b | .mul => a * b | _ => 0
  meth := fun _ a _ => a
  lit := fun _ => 1
  var := fun p => if p = ["x"] then 7 else 3
  field := fun _ a => a
  call := fun a _ => a
  other := fun _ => 0

example : RingLike exampleInterp := ⟨fun _ _ => rfl, fun _ _ => rfl, fun _ _ => rfl, fun _ => rfl⟩
example : expand (.binary (.paren (.binary (.path ["x"]) .add (.path ["y"]))) .mul
      (.paren (.binary (.path ["x"]) .sub (.path ["y"])))) =
    .ok (.binary (.binary (.binary (.binary (.path ["x"]) .mul (.path ["x"])) .add
      (.binary (.path ["x"]) .mul (.unary .neg (.path ["y"])))) .add
      (.binary (.path ["y"]) .mul (.path ["x"]))) .add
      (.binary (.path ["y"]) .mul (.unary .neg (.path ["y"])))) := rfl

/-! ## C19 -/

mutual
/-- Descending from the root through method calls, parentheses and fields, a `!` or `*` prefix or an unsupported
node is met. -/
def refused : Expr → Bool
  | .unary .neg _ => false
  | .unary _ _ => true
  | .binary _ _ _ => false
  | .methodCall r _ args => refused r || refusedArgs args
  | .paren e => refused e
  | .lit _ => false
  | .path _ => false
  | .field b _ => refused b
  | .call _ _ => true
  | .other _ => true

def refusedArgs : List Expr → Bool
  | [] => false
  | a :: as => refused a || refusedArgs as
end

/-- **C19** `expand` always returns: `Ok` when nothing refused is met, the error `UnsupportedExpr` otherwise; it
never panics. -/
theorem C19_expand_total : ∀ e : Expr,
    (refused e = false → ∃ e', expand e = .ok e') ∧ (refused e = true → expand e = .err .unsupportedExpr) := by
  have args : ∀ l : List Expr, (∀ a ∈ l, (refused a = false → ∃ e', expandVisitor.visit a = .ok e') ∧
      (refused a = true → expandVisitor.visit a = .err .unsupportedExpr)) →
      (refusedArgs l = false → ∃ l', expandVisitor.visitArgs l = .ok l') ∧
      (refusedArgs l = true → expandVisitor.visitArgs l = .err .unsupportedExpr) := by
    intro l
    induction l with
    | nil => intro _; exact ⟨fun _ => ⟨[], rfl⟩, fun h => by simp [refusedArgs] at h⟩
    | cons a as ih =>
      intro h
      have h1 := h a (by simp)
      have h2 := ih (fun b hb => h b (by simp [hb]))
      rw [refusedArgs, Visitor.visitArgs]
      constructor
      · intro hr
        simp only [Bool.or_eq_false_iff] at hr
        obtain ⟨a', ha'⟩ := h1.1 hr.1
        obtain ⟨as', has'⟩ := h2.1 hr.2
        exact ⟨_, by rw [ha', has']; rfl⟩
      · intro hr
        by_cases hra : refused a = true
        · rw [h1.2 hra]; rfl
        · rw [Bool.not_eq_true] at hra
          obtain ⟨a', ha'⟩ := h1.1 hra
          rw [ha', Res.ok_bind, h2.2 (by simpa [hra] using hr)]; rfl
  unfold expand
  apply Expr.ind
  · intro op e _
    cases op with
    | deref => exact ⟨fun h => by simp [refused] at h, fun _ => rfl⟩
    | not => exact ⟨fun h => by simp [refused] at h, fun _ => rfl⟩
    | neg =>
      refine ⟨fun _ => ?_, fun h => by simp [refused] at h⟩
      obtain ⟨x, hx⟩ := makeSum_ok (matchSum true (deparen e)) (matchSumAux_ne_nil _ _ _)
      exact ⟨x, by rw [expand_visit_unary]; exact hx⟩
  · intro l op r _ _
    refine ⟨fun _ => ?_, fun h => by simp [refused] at h⟩
    obtain ⟨x, hx⟩ := makeSum_ok (matchSum false (.binary l op r)) (matchSumAux_ne_nil _ _ _)
    exact ⟨x, by rw [expand_visit_binary]; exact hx⟩
  · intro r m as ihr iha
    have h2 := args as iha
    rw [refused, Visitor.visit]
    constructor
    · intro hr
      simp only [Bool.or_eq_false_iff] at hr
      obtain ⟨a', ha'⟩ := ihr.1 hr.1
      obtain ⟨as', has'⟩ := h2.1 hr.2
      exact ⟨_, by rw [ha', has']; rfl⟩
    · intro hr
      by_cases hra : refused r = true
      · rw [ihr.2 hra]; rfl
      · rw [Bool.not_eq_true] at hra
        obtain ⟨a', ha'⟩ := ihr.1 hra
        rw [ha', Res.ok_bind, h2.2 (by simpa [hra] using hr)]; rfl
  · intro e ih
    rw [refused, Visitor.visit]
    exact ⟨fun h => by obtain ⟨a, ha⟩ := ih.1 h; exact ⟨_, by rw [ha]; rfl⟩, fun h => by rw [ih.2 h]; rfl⟩
  · intro l; exact ⟨fun _ => ⟨_, rfl⟩, fun h => by simp [refused] at h⟩
  · intro p; exact ⟨fun _ => ⟨_, rfl⟩, fun h => by simp [refused] at h⟩
  · intro b m ih
    rw [refused, Visitor.visit]
    exact ⟨fun h => by obtain ⟨a, ha⟩ := ih.1 h; exact ⟨_, by rw [ha]; rfl⟩, fun h => by rw [ih.2 h]; rfl⟩
  · intro f as _ _; exact ⟨fun h => by simp [refused] at h, fun _ => rfl⟩
  · intro k; exact ⟨fun h => by simp [refused] at h, fun _ => rfl⟩

example : refused (.methodCall (.binary (.other "closure") .add (.path ["x"])) "sin" []) = false := rfl
example : refused (.paren (.unary .not (.path ["x"]))) = true := rfl

/-! ## C18 -/

/-- An atom: anything `expand` does not look into. -/
def isAtom : Expr → Bool
  | .paren _ => false
  | .unary .neg _ => false
  | .binary _ .add _ => false
  | .binary _ .sub _ => false
  | .binary _ .mul _ => false
  | _ => true

/-- Atoms combined with `+`, binary `-`, `*` and single parentheses. -/
def arith : Expr → Bool
  | .paren (.paren _) => false
  | .paren e => arith e
  | .binary l .add r => arith l && arith r
  | .binary l .sub r => arith l && arith r
  | .binary l .mul r => arith l && arith r
  | e => isAtom e

/-- A signed product: the sign (`true` is minus) and the factors in order. -/
abbrev Term := Bool × List Expr

/-- The terms of an expression by the distributive law, in order. -/
def distrib : Expr → List Term
  | .paren e => distrib e
  | .binary l .add r => distrib l ++ distrib r
  | .binary l .sub r => distrib l ++ (distrib r).map fun t => (!t.1, t.2)
  | .binary l .mul r => (distrib l).flatMap fun a => (distrib r).map fun b => (xor a.1 b.1, a.2 ++ b.2)
  | e => [(false, [e])]

/-- Read a product of possibly negated atoms; `none` if the expression is not one. -/
def readProduct : Expr → Option Term
  | .binary l .mul r => do
    let a ← readProduct l
    let b ← readProduct r
    pure (xor a.1 b.1, a.2 ++ b.2)
  | .unary .neg e => if isAtom e then some (true, [e]) else none
  | e => if isAtom e then some (false, [e]) else none

/-- Read a left-nested sum or difference of products; `none` if the expression is not one. -/
def readSum : Expr → Option (List Term)
  | .binary l .add r => do
    let ts ← readSum l
    let t ← readProduct r
    pure (ts ++ [t])
  | .binary l .sub r => do
    let ts ← readSum l
    let t ← readProduct r
    pure (ts ++ [(!t.1, t.2)])
  | e => (readProduct e).map fun t => [t]

theorem readProduct_negate (e : Expr) (h : isAtom e = true) : readProduct (negate e) = some (true, [e]) := by
  cases e with
  | unary op x => cases op <;> first | rfl | simp [isAtom] at h
  | binary l op r => cases op <;> first | rfl | simp [isAtom] at h
  | paren _ => simp [isAtom] at h
  | _ => rfl

theorem readProduct_atom (e : Expr) (h : isAtom e = true) : readProduct e = some (false, [e]) := by
  cases e with
  | unary op x => cases op <;> first | rfl | simp [isAtom] at h
  | binary l op r => cases op <;> first | rfl | simp [isAtom] at h
  | paren _ => simp [isAtom] at h
  | _ => rfl

theorem distrib_atom (e : Expr) (h : isAtom e = true) : distrib e = [(false, [e])] := by
  cases e with
  | unary op x => rfl
  | binary l op r => cases op <;> first | rfl | simp [isAtom] at h
  | paren _ => simp [isAtom] at h
  | _ => rfl

theorem matchSumAux_atom (e : Expr) (s n : Bool) (h : isAtom e = true) :
    matchSumAux s n e = if n then [negate e] else [e] := by
  cases e with
  | unary op x => rfl
  | binary l op r => cases op <;> first | rfl | simp [isAtom] at h
  | paren _ => simp [isAtom] at h
  | _ => rfl

theorem mapM_map_some {α β : Type} (f : α → Option β) (g : α → β) (l : List α) (h : ∀ a ∈ l, f a = some (g a)) :
    l.map f = l.map (fun a => some (g a)) := List.map_congr_left h

/-- Reading the terms `match_sum` produces gives the distributive law. -/
theorem read_matchSumAux : ∀ (e : Expr) (s n : Bool), arith e = true → (s = false → ∀ x, e ≠ .paren x) →
    (matchSumAux s n e).map readProduct = (distrib e).map (fun t => some (xor n t.1, t.2)) := by
  have leaf : ∀ (e : Expr) (s n : Bool), isAtom e = true →
      (matchSumAux s n e).map readProduct = (distrib e).map (fun t => some (xor n t.1, t.2)) := by
    intro e s n h
    rw [matchSumAux_atom e s n h, distrib_atom e h]
    cases n <;> simp [readProduct_atom e h, readProduct_negate e h]
  have prod : ∀ (l r : List Expr) (a b : List Term) (n : Bool),
      l.map readProduct = a.map (fun t => some (xor n t.1, t.2)) →
      r.map readProduct = b.map (fun t => some (xor false t.1, t.2)) →
      (l.flatMap fun lhs => r.map fun rhs => makeBinary lhs .mul rhs).map readProduct =
        (a.flatMap fun x => b.map fun y => (xor x.1 y.1, x.2 ++ y.2)).map (fun t => some (xor n t.1, t.2)) := by
    intro l r a b n hl hr
    induction l generalizing a with
    | nil =>
      cases a with
      | nil => rfl
      | cons _ _ => simp at hl
    | cons x xs ih =>
      cases a with
      | nil => simp at hl
      | cons t ts =>
        simp only [List.map_cons, List.cons.injEq] at hl
        rw [List.flatMap_cons, List.flatMap_cons, List.map_append, List.map_append, ih ts hl.2]
        congr 1
        clear ih
        induction r generalizing b with
        | nil =>
          cases b with
          | nil => rfl
          | cons _ _ => simp at hr
        | cons y ys ih2 =>
          cases b with
          | nil => simp at hr
          | cons u us =>
            simp only [List.map_cons, List.cons.injEq] at hr
            rw [List.map_cons, List.map_cons, List.map_cons, List.map_cons, ih2 us hr.2]
            simp only [makeBinary, readProduct, hl.1, hr.1]
            simp [Bool.xor_assoc]
  apply Expr.ind
  · intro op e _ s n h _
    cases op <;> exact leaf _ s n h
  · intro l op r ihl ihr s n h _
    by_cases h1 : op = .add
    · subst h1
      simp only [arith, Bool.and_eq_true] at h
      simp only [matchSumAux, distrib, List.map_append, ihl true n h.1 (by simp), ihr true n h.2 (by simp)]
    by_cases h2 : op = .sub
    · subst h2
      simp only [arith, Bool.and_eq_true] at h
      simp only [matchSumAux, distrib, List.map_append, ihl true n h.1 (by simp), ihr true _ h.2 (by simp), List.map_map]
      congr 1
      apply List.map_congr_left
      intro t _
      simp
    by_cases h3 : op = .mul
    · subst h3
      simp only [arith, Bool.and_eq_true] at h
      simp only [matchSumAux, distrib]
      exact prod _ _ _ _ n (ihl true n h.1 (by simp)) (ihr true false h.2 (by simp))
    · cases op <;> first | exact absurd rfl h1 | exact absurd rfl h2 | exact absurd rfl h3 | exact leaf _ s n h
  · intro r m args _ _ s n h _; exact leaf _ s n h
  · intro e ih s n h hs
    cases s with
    | false => exact absurd rfl (hs rfl e)
    | true =>
      have he : arith e = true := by
        cases e <;> first | exact h | simp [arith] at h
      have hne : ∀ x, e ≠ .paren x := by
        rintro x rfl; simp [arith] at h
      simp only [matchSumAux, if_true, distrib]
      exact ih false n he (fun _ => hne)
  all_goals (intros; exact leaf _ _ _ rfl)

theorem readSum_of_readProduct (e : Expr) (t : Term) (h : readProduct e = some t) : readSum e = some [t] := by
  have : readSum e = (readProduct e).map fun t => [t] := by
    cases e with
    | binary l op r => cases op <;> first | rfl | simp [readProduct, isAtom] at h
    | _ => rfl
  rw [this, h]; rfl

theorem readProduct_sumStep (x r : Expr) (ts : List Term) (t : Term) (hx : readSum x = some ts)
    (hr : readProduct r = some t) : readSum (sumStep x r) = some (ts ++ [t]) := by
  unfold sumStep
  by_cases h : isNegated r = true
  · rw [if_pos h]
    cases r with
    | unary op e =>
      cases op with
      | neg =>
        simp only [readProduct] at hr
        split at hr
        · rename_i ha
          cases hr
          simp only [negate, readSum, hx, readProduct_atom e ha]
          rfl
        · cases hr
      | _ => simp [isNegated] at h
    | _ => simp [isNegated] at h
  · rw [if_neg h]
    simp only [readSum, hx, hr]; rfl

theorem readSum_makeSum (l : List Expr) (ts : List Term) (e : Expr) (hl : l.map readProduct = ts.map some)
    (h : makeSum l = .ok e) : readSum e = some ts := by
  induction l using List.reverseRecOn generalizing e ts with
  | nil => cases h
  | append_singleton l r ih =>
    have hlen : (l.map readProduct).length + 1 = ts.length := by
      have := congrArg List.length hl; simpa using this
    obtain ⟨ts0, t, rfl⟩ : ∃ ts0 t, ts = ts0 ++ [t] := by
      rcases List.eq_nil_or_concat ts with rfl | ⟨a, b, rfl⟩
      · simp at hlen
      · exact ⟨a, b, by simp⟩
    simp only [List.map_append, List.map_cons, List.map_nil] at hl
    have hsplit := List.append_inj hl (by simp at hlen; simpa using hlen)
    have hr : readProduct r = some t := by simpa using hsplit.2
    by_cases hnil : l = []
    · subst hnil
      have : ts0 = [] := by simpa using hsplit.1
      subst this
      cases h
      exact readSum_of_readProduct r t hr
    · obtain ⟨x, hx⟩ := makeSum_ok l hnil
      rw [makeSum_snoc l r x hnil hx] at h
      cases h
      exact readProduct_sumStep x r ts0 t (ih ts0 x hsplit.1 hx) hr

/-- **C18** `expand` of an arithmetic sum, difference or product is a left-nested sum/difference of products of
(possibly negated) atoms, and its signed terms, in order, are those of the distributive law. -/
theorem C18_expand_terms (l r e' : Expr) (op : BinOp)
    (ha : arith (.binary l op r) = true) (h : expand (.binary l op r) = .ok e') :
    readSum e' = some (distrib (.binary l op r)) := by
  unfold expand at h
  rw [expand_visit_binary] at h
  refine readSum_makeSum _ _ _ ?_ h
  rw [matchSum]
  rw [read_matchSumAux _ _ _ ha (by simp)]
  apply List.map_congr_left
  intro t _
  simp

/-- **C18** The same for a negated arithmetic expression: all signs flip. -/
theorem C18_expand_negated_terms (x e' : Expr) (ha : arith x = true) (h : expand (.unary .neg x) = .ok e') :
    readSum e' = some ((distrib x).map fun t => (!t.1, t.2)) := by
  unfold expand at h
  rw [expand_visit_unary] at h
  refine readSum_makeSum _ _ _ ?_ h
  rw [matchSum]
  have hd : distrib (deparen x) = distrib x := by cases x <;> rfl
  have ha' : arith (deparen x) = true := by
    cases x with
    | paren e => cases e <;> first | exact ha | simp [arith] at ha
    | _ => exact ha
  rw [read_matchSumAux _ _ _ ha' (by simp), hd, List.map_map]
  apply List.map_congr_left
  intro t _
  simp

/-- **C18** A product has as many terms as the product of the numbers of terms; a sum or difference as many as the
sum. -/
theorem C18_term_count (l r e' : Expr) (op : BinOp)
    (ha : arith (.binary l op r) = true) (h : expand (.binary l op r) = .ok e') :
    ∃ ts, readSum e' = some ts ∧
      (op = .mul → ts.length = (distrib l).length * (distrib r).length) ∧
      (op = .add ∨ op = .sub → ts.length = (distrib l).length + (distrib r).length) := by
  refine ⟨_, C18_expand_terms l r e' op ha h, ?_, ?_⟩
  · rintro rfl
    simp [distrib, List.length_flatMap]
  · rintro (rfl | rfl) <;> simp [distrib]

/-- **C18** `expand` always succeeds on a binary operator. -/
theorem C18_expand_succeeds (l r : Expr) (op : BinOp) : ∃ e', expand (.binary l op r) = .ok e' :=
  (C19_expand_total (.binary l op r)).1 rfl

example : arith (.binary (.paren (.binary (.path ["x"]) .add (.path ["y"]))) .mul
      (.paren (.binary (.path ["x"]) .sub (.methodCall (.path ["y"]) "sin" [])))) = true := rfl

end Verif
