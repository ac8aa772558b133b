import Verif.Spec.Program
import Verif.Spec.Idents
import Verif.Model.Shipped

/-!
# The meaning of a program without recursion
-/

namespace Verif
variable {α : Type}

section
variable {mk : (String → List α → α) → RInterp α} {c c' : String → List α → α}

theorem CallsOnly.rest (h : CallsOnly mk) (c c' : String → List α → α) :
    (mk c).lit = (mk c').lit ∧ (mk c).un = (mk c').un ∧ (mk c).bin = (mk c').bin ∧ (mk c).meth = (mk c').meth ∧ (mk c).cast = (mk c').cast ∧
    (mk c).tuple = (mk c').tuple ∧ (mk c).test = (mk c').test ∧ (mk c).junk = (mk c').junk := by
  rw [← h.same c c']
  exact ⟨rfl, rfl, rfl, rfl, rfl, rfl, rfl, rfl⟩

mutual
/-- Only the functions called matter. -/
theorem denote_calls (h : CallsOnly mk) (env : Name → α) : (e : RExpr) → (∀ s, [s] ∈ e.called → c s = c' s) → e.denote (mk c) env = e.denote (mk c') env
  | .lit l, _ => by simp only [RExpr.denote, (h.rest c c').1]
  | .path p, _ => by simp only [RExpr.denote]
  | .unary op e, hs => by
    simp only [RExpr.called] at hs
    simp only [RExpr.denote, (h.rest c c').2.1, denote_calls h env e hs]
  | .binary l op r, hs => by
    simp only [RExpr.called, List.mem_append] at hs
    simp only [RExpr.denote, (h.rest c c').2.2.1, denote_calls h env l (fun s m => hs s (.inl m)), denote_calls h env r (fun s m => hs s (.inr m))]
  | .method r m args, hs => by
    simp only [RExpr.called, List.mem_append] at hs
    simp only [RExpr.denote, (h.rest c c').2.2.2.1, denote_calls h env r (fun s m => hs s (.inl m)), denoteArgs_calls h env args (fun s m => hs s (.inr m))]
  | .call f args, hs => by
    simp only [RExpr.called, List.mem_append] at hs
    have ha := denoteArgs_calls h env args (fun s m => hs s (.inr m))
    cases f with
    | path p =>
      simp only [RExpr.denote]
      rw [ha]
      exact h.call c c' p _ fun s hp => by rw [hs s (.inl (by simp [hp]))]
    | _ => simp only [RExpr.denote, (h.rest c c').2.2.2.2.2.2.2]
  | .paren e, hs => by
    simp only [RExpr.called] at hs
    simp only [RExpr.denote, denote_calls h env e hs]
  | .cast e ty, hs => by
    simp only [RExpr.called] at hs
    simp only [RExpr.denote, (h.rest c c').2.2.2.2.1, denote_calls h env e hs]
  | .ifThen _ _, _ => by simp only [RExpr.denote, (h.rest c c').2.2.2.2.2.2.2]
  | .ifElse x t f, hs => by
    simp only [RExpr.called, List.mem_append] at hs
    simp only [RExpr.denote, (h.rest c c').2.2.2.2.2.2.1, denote_calls h env x (fun s m => hs s (.inl (.inl m))),
      denoteBlock_calls h env t (fun s m => hs s (.inl (.inr m))), denote_calls h env f (fun s m => hs s (.inr m))]
  | .block b, hs => by
    simp only [RExpr.called] at hs
    simp only [RExpr.denote, denoteBlock_calls h env b hs]
  | .assign _ _, _ => by simp only [RExpr.denote, (h.rest c c').2.2.2.2.2.2.2]
  | .assignOp _ _ _, _ => by simp only [RExpr.denote, (h.rest c c').2.2.2.2.2.2.2]
  | .array _, _ => by simp only [RExpr.denote, (h.rest c c').2.2.2.2.2.2.2]
  | .tuple es, hs => by
    simp only [RExpr.called] at hs
    simp only [RExpr.denote, (h.rest c c').2.2.2.2.2.1, denoteArgs_calls h env es hs]
  | .verbatim, _ => by simp only [RExpr.denote, (h.rest c c').2.2.2.2.2.2.2]
  | .other _, _ => by simp only [RExpr.denote, (h.rest c c').2.2.2.2.2.2.2]

theorem denoteArgs_calls (h : CallsOnly mk) (env : Name → α) : (es : List RExpr) → (∀ s, [s] ∈ RExpr.calledArgs es → c s = c' s) →
    RExpr.denoteArgs (mk c) env es = RExpr.denoteArgs (mk c') env es
  | [], _ => by simp only [RExpr.denoteArgs]
  | e :: es, hs => by
    simp only [RExpr.calledArgs, List.mem_append] at hs
    simp only [RExpr.denoteArgs, denote_calls h env e (fun s m => hs s (.inl m)), denoteArgs_calls h env es (fun s m => hs s (.inr m))]

theorem denoteBlock_calls (h : CallsOnly mk) (env : Name → α) : (b : List RStmt) → (∀ s, [s] ∈ RStmt.calledBlock b → c s = c' s) →
    RStmt.denoteBlock (mk c) env b = RStmt.denoteBlock (mk c') env b
  | [], _ => by simp only [RStmt.denoteBlock, (h.rest c c').2.2.2.2.2.2.2]
  | .decl _ _ :: rest, hs => by
    simp only [RStmt.calledBlock] at hs
    simp only [RStmt.denoteBlock, denoteBlock_calls h env rest hs]
  | .letInit n _ e :: rest, hs => by
    simp only [RStmt.calledBlock, List.mem_append] at hs
    simp only [RStmt.denoteBlock, denote_calls h env e (fun s m => hs s (.inl m)), denoteBlock_calls h _ rest (fun s m => hs s (.inr m))]
  | .const n _ e :: rest, hs => by
    simp only [RStmt.calledBlock, List.mem_append] at hs
    simp only [RStmt.denoteBlock, denote_calls h env e (fun s m => hs s (.inl m)), denoteBlock_calls h _ rest (fun s m => hs s (.inr m))]
  | .semi e :: rest, hs => by
    simp only [RStmt.calledBlock, List.mem_append] at hs
    simp only [RStmt.denoteBlock, denoteBlock_calls h env rest (fun s m => hs s (.inr m))]
  | [.expr e], hs => by
    simp only [RStmt.calledBlock, List.mem_append] at hs
    simp only [RStmt.denoteBlock, denote_calls h env e (fun s m => hs s (.inl m))]
  | .expr e :: s' :: rest, hs => by
    simp only [RStmt.calledBlock, List.mem_append] at hs
    have := denoteBlock_calls h env (s' :: rest) (fun s m => hs s (.inr (by simpa only [List.mem_append] using m)))
    rw [RStmt.denoteBlock, RStmt.denoteBlock] <;> first | exact this | simp
end

theorem apply_calls (h : CallsOnly mk) (g : Name → α) (fn : RFn) (hs : ∀ s, [s] ∈ fn.called → c s = c' s) (args : List α) :
    fn.apply (mk c) g args = fn.apply (mk c') g args := denoteBlock_calls h _ _ hs

/-- Unfold calls `n` times. -/
def runFns (mk : (String → List α → α) → RInterp α) (g : Name → α) (junk : α) (fns : List RFn) : Nat → String → List α → α
  | 0, _, _ => junk
  | n + 1, name, args => match fns.find? (fun f => f.name == name) with
    | some fn => fn.apply (mk (runFns mk g junk fns n)) g args
    | none => junk

theorem find_name {fns : List RFn} (hn : (fns.map RFn.name).Nodup) {fn : RFn} (hf : fn ∈ fns) : fns.find? (fun f => f.name == fn.name) = some fn := by
  induction fns with
  | nil => cases hf
  | cons a l ih =>
    rw [List.map_cons, List.nodup_cons] at hn
    rcases List.mem_cons.1 hf with rfl | h
    · simp
    · have hne : a.name ≠ fn.name := fun he => hn.1 (he ▸ List.mem_map_of_mem h)
      rw [List.find?_cons_of_neg (by simpa using hne)]
      exact ih hn.2 h

variable {fns : List RFn} {rank : String → Nat} {g : Name → α} {junk : α}

theorem runFns_stable (h : CallsOnly mk) (hl : Layered fns rank) (n : Nat) : ∀ m, ∀ fn ∈ fns, rank fn.name < n → rank fn.name < m →
    runFns mk g junk fns n fn.name = runFns mk g junk fns m fn.name := by
  induction n with
  | zero => intro m fn _ h1; omega
  | succ n ih =>
    intro m fn hf h1 h2
    obtain ⟨m, rfl⟩ : ∃ k, m = k + 1 := ⟨m - 1, by omega⟩
    funext args
    simp only [runFns, find_name hl.nodup hf]
    refine apply_calls h g fn (fun s hs => ?_) args
    obtain ⟨h3, h4⟩ := hl.calls fn hf s hs
    obtain ⟨f', hf', rfl⟩ := List.mem_map.1 h3
    exact ih m f' hf' (by omega) (by omega)

theorem runFns_linked (h : CallsOnly mk) (hl : Layered fns rank) (n : Nat) (hn : ∀ fn ∈ fns, rank fn.name < n) :
    LinkedAll mk g fns (runFns mk g junk fns (n + 1)) := by
  intro fn hf args
  rw [runFns]
  simp only [find_name hl.nodup hf]
  refine apply_calls h g fn (fun s hs => ?_) args
  obtain ⟨h3, h4⟩ := hl.calls fn hf s hs
  obtain ⟨f', hf', rfl⟩ := List.mem_map.1 h3
  have h5 := hn f' hf'
  exact runFns_stable h hl _ _ f' hf' h5 (by omega)

theorem linked_unique (h : CallsOnly mk) (hl : Layered fns rank) (h1 : LinkedAll mk g fns c) (h2 : LinkedAll mk g fns c') :
    ∀ fn ∈ fns, c fn.name = c' fn.name := by
  have : ∀ n, ∀ fn ∈ fns, rank fn.name < n → c fn.name = c' fn.name := by
    intro n
    induction n with
    | zero => intro fn _ hr; omega
    | succ n ih =>
      intro fn hf hr
      funext args
      rw [h1 fn hf args, h2 fn hf args]
      refine apply_calls h g fn (fun s hs => ?_) args
      obtain ⟨h3, h4⟩ := hl.calls fn hf s hs
      obtain ⟨f', hf', rfl⟩ := List.mem_map.1 h3
      exact ih f' hf' (by omega)
  exact fun fn hf => this _ fn hf (Nat.lt_succ_self _)

end

/-! ## Code of polynomials -/

/-- What `parse_quote!` makes of a float contains no call and no identifier. -/
def BareLits (fx : FloatExt) : Prop := ∀ n e, fx.litF32 n = .ok e ∨ fx.litF64 n = .ok e → e.toR.called = [] ∧ ∀ bound, e.toR.free bound = []

theorem numberTypeLit_called {fx : FloatExt} (h : BareLits fx) {bits : Nat} (hb : bits = 32 ∨ bits = 64) {l : Lit} {ds : List Char} {e : Expr}
    (he : numberTypeLit fx "decimal" bits l ds = .ok e) : e.toR.called = [] ∧ ∀ bound, e.toR.free bound = [] := by
  unfold numberTypeLit at he
  obtain ⟨bd, -, he⟩ := Res.bind_eq_ok.1 he
  obtain ⟨b1, -, he⟩ := Res.bind_eq_ok.1 he
  obtain ⟨b2, -, he⟩ := Res.bind_eq_ok.1 he
  rcases hb with rfl | rfl
  · rw [if_pos ⟨rfl, rfl⟩] at he; exact h _ _ (.inl he)
  · rw [if_neg (by simp), if_pos ⟨rfl, rfl⟩] at he; exact h _ _ (.inr he)

mutual
theorem visit_called {fx : FloatExt} (h : BareLits fx) {bits : Nat} (hb : bits = 32 ∨ bits = 64) : (e : Expr) → {e' : Expr} →
    (useNumberTypeVisitor fx "decimal" bits).visit e = .ok e' → e'.toR.called = []
  | .unary op e, e', he => by
    rw [Visitor.visit] at he
    obtain ⟨x, hx, he⟩ := Res.bind_eq_ok.1 he
    cases he
    show x.toR.called = []
    exact visit_called h hb e hx
  | .binary l op r, e', he => by
    rw [Visitor.visit] at he
    obtain ⟨y, hy, he⟩ := Res.bind_eq_ok.1 he
    obtain ⟨z, hz, he⟩ := Res.bind_eq_ok.1 he
    cases he
    show y.toR.called ++ z.toR.called = []
    rw [visit_called h hb l hy, visit_called h hb r hz]; rfl
  | .methodCall r m args, e', he => by
    rw [Visitor.visit] at he
    obtain ⟨y, hy, he⟩ := Res.bind_eq_ok.1 he
    obtain ⟨z, hz, he⟩ := Res.bind_eq_ok.1 he
    cases he
    show y.toR.called ++ RExpr.calledArgs (Expr.toRArgs z) = []
    rw [visit_called h hb r hy, visitArgs_called h hb args hz]; rfl
  | .paren e, e', he => by
    rw [Visitor.visit] at he
    obtain ⟨y, hy, he⟩ := Res.bind_eq_ok.1 he
    cases he
    show y.toR.called = []
    exact visit_called h hb e hy
  | .lit l, e', he => by
    rw [Visitor.visit] at he
    obtain ⟨y, hy, he⟩ := Res.bind_eq_ok.1 he
    cases he
    cases l with
    | float ds s => exact (numberTypeLit_called h hb hy).1
    | int ds s => exact (numberTypeLit_called h hb hy).1
    | _ => cases hy; rfl
  | .path p, e', he => by
    rw [Visitor.visit] at he
    obtain ⟨y, hy, he⟩ := Res.bind_eq_ok.1 he
    cases he; cases hy; rfl
  | .field b m, e', he => by
    rw [Visitor.visit] at he
    obtain ⟨y, hy, he⟩ := Res.bind_eq_ok.1 he
    cases he; rfl
  | .call _ _, e', he => by rw [Visitor.visit] at he; cases he
  | .other _, e', he => by rw [Visitor.visit] at he; cases he

theorem visitArgs_called {fx : FloatExt} (h : BareLits fx) {bits : Nat} (hb : bits = 32 ∨ bits = 64) : (es : List Expr) → {es' : List Expr} →
    (useNumberTypeVisitor fx "decimal" bits).visitArgs es = .ok es' → RExpr.calledArgs (Expr.toRArgs es') = []
  | [], es', he => by rw [Visitor.visitArgs] at he; cases he; rfl
  | e :: es, es', he => by
    rw [Visitor.visitArgs] at he
    obtain ⟨y, hy, he⟩ := Res.bind_eq_ok.1 he
    obtain ⟨z, hz, he⟩ := Res.bind_eq_ok.1 he
    cases he
    show y.toR.called ++ RExpr.calledArgs (Expr.toRArgs z) = []
    rw [visit_called h hb e hy, visitArgs_called h hb es hz]; rfl
end

mutual
theorem visit_free {fx : FloatExt} (h : BareLits fx) {bits : Nat} (hb : bits = 32 ∨ bits = 64) (bound : List String) : (e : Expr) → {e' : Expr} →
    (useNumberTypeVisitor fx "decimal" bits).visit e = .ok e' → e.toR.free bound = [] → e'.toR.free bound = []
  | .unary op e, e', he, hf => by
    rw [Visitor.visit] at he
    obtain ⟨x, hx, he⟩ := Res.bind_eq_ok.1 he
    cases he
    show x.toR.free bound = []
    exact visit_free h hb bound e hx hf
  | .binary l op r, e', he, hf => by
    rw [Visitor.visit] at he
    obtain ⟨y, hy, he⟩ := Res.bind_eq_ok.1 he
    obtain ⟨z, hz, he⟩ := Res.bind_eq_ok.1 he
    cases he
    have hf := List.append_eq_nil_iff.1 (show l.toR.free bound ++ r.toR.free bound = [] from hf)
    show y.toR.free bound ++ z.toR.free bound = []
    rw [visit_free h hb bound l hy hf.1, visit_free h hb bound r hz hf.2]; rfl
  | .methodCall r m args, e', he, hf => by
    rw [Visitor.visit] at he
    obtain ⟨y, hy, he⟩ := Res.bind_eq_ok.1 he
    obtain ⟨z, hz, he⟩ := Res.bind_eq_ok.1 he
    cases he
    have hf := List.append_eq_nil_iff.1 (show r.toR.free bound ++ RExpr.freeArgs bound (Expr.toRArgs args) = [] from hf)
    show y.toR.free bound ++ RExpr.freeArgs bound (Expr.toRArgs z) = []
    rw [visit_free h hb bound r hy hf.1, visitArgs_free h hb bound args hz hf.2]; rfl
  | .paren e, e', he, hf => by
    rw [Visitor.visit] at he
    obtain ⟨y, hy, he⟩ := Res.bind_eq_ok.1 he
    cases he
    show y.toR.free bound = []
    exact visit_free h hb bound e hy hf
  | .lit l, e', he, _ => by
    rw [Visitor.visit] at he
    obtain ⟨y, hy, he⟩ := Res.bind_eq_ok.1 he
    cases he
    cases l with
    | float ds s => exact (numberTypeLit_called h hb hy).2 bound
    | int ds s => exact (numberTypeLit_called h hb hy).2 bound
    | _ => cases hy; rfl
  | .path p, e', he, hf => by
    rw [Visitor.visit] at he
    obtain ⟨y, hy, he⟩ := Res.bind_eq_ok.1 he
    cases he; cases hy; exact hf
  | .field b m, e', he, _ => by
    rw [Visitor.visit] at he
    obtain ⟨y, hy, he⟩ := Res.bind_eq_ok.1 he
    cases he; rfl
  | .call _ _, e', he, _ => by rw [Visitor.visit] at he; cases he
  | .other _, e', he, _ => by rw [Visitor.visit] at he; cases he

theorem visitArgs_free {fx : FloatExt} (h : BareLits fx) {bits : Nat} (hb : bits = 32 ∨ bits = 64) (bound : List String) : (es : List Expr) → {es' : List Expr} →
    (useNumberTypeVisitor fx "decimal" bits).visitArgs es = .ok es' → RExpr.freeArgs bound (Expr.toRArgs es) = [] → RExpr.freeArgs bound (Expr.toRArgs es') = []
  | [], es', he, _ => by rw [Visitor.visitArgs] at he; cases he; rfl
  | e :: es, es', he, hf => by
    rw [Visitor.visitArgs] at he
    obtain ⟨y, hy, he⟩ := Res.bind_eq_ok.1 he
    obtain ⟨z, hz, he⟩ := Res.bind_eq_ok.1 he
    cases he
    have hf := List.append_eq_nil_iff.1 (show e.toR.free bound ++ RExpr.freeArgs bound (Expr.toRArgs es) = [] from hf)
    show y.toR.free bound ++ RExpr.freeArgs bound (Expr.toRArgs z) = []
    rw [visit_free h hb bound e hy hf.1, visitArgs_free h hb bound es hz hf.2]; rfl
end

theorem quotedDec_free (bound : List String) (d : Dec) : (quotedDec d).toR.free bound = [] := by
  unfold quotedDec
  split_ifs <;> rfl

theorem mulAddChain_free (bound : List String) (v : Expr) (hv : v.toR.free bound = []) (hi : Dec) (cs : List Dec) : (mulAddChain v hi cs).toR.free bound = [] := by
  unfold mulAddChain
  have key : ∀ (cs : List Dec) (e : Expr), e.toR.free bound = [] →
      (cs.foldl (fun acc t => Expr.methodCall acc "mul_add" [v, quotedDec t]) e).toR.free bound = [] := by
    intro cs
    induction cs with
    | nil => intro e he; exact he
    | cons c cs ih =>
      intro e he
      refine ih _ ?_
      show e.toR.free bound ++ (v.toR.free bound ++ ((quotedDec c).toR.free bound ++ [])) = []
      rw [he, hv, quotedDec_free]; rfl
  exact key cs _ (quotedDec_free bound hi)

/-- The only identifier of a polynomial is its variable. -/
theorem mulAddPolynomial_free {terms : List Dec} {s : String} {parity : Parity} {e : Expr} (he : mulAddPolynomial terms [s] parity = .ok e) (bound : List String)
    (hb : s ∈ bound) : e.toR.free bound = [] := by
  have hx : (Expr.path [s]).toR.free bound = [] := by simp [Expr.toR, RExpr.free, freeName, hb]
  have hxx : (Expr.binary (.path [s]) .mul (.path [s])).toR.free bound = [] := by simp [Expr.toR, RExpr.free, freeName, hb]
  unfold mulAddPolynomial at he
  split at he
  · cases he
  · obtain ⟨hi, -, he⟩ := Res.bind_eq_ok.1 he
    cases parity with
    | odd =>
      simp only at he
      split at he
      · cases he
      · obtain ⟨cs, -, he⟩ := Res.bind_eq_ok.1 he
        cases he
        show RExpr.free bound (mulAddChain _ hi cs).toR ++ (Expr.path [s]).toR.free bound = []
        rw [mulAddChain_free bound _ hxx, hx]; rfl
    | even =>
      simp only at he
      split at he
      · cases he
      · obtain ⟨cs, -, he⟩ := Res.bind_eq_ok.1 he
        cases he
        exact mulAddChain_free bound _ hxx _ _
    | neither =>
      obtain ⟨cs, -, he⟩ := Res.bind_eq_ok.1 he
      cases he
      exact mulAddChain_free bound _ hx _ _

/-- The code of a shipped polynomial calls no function and knows no identifier but its variable. -/
theorem polynomialCode_called {ext : BdExt} {fx : FloatExt} (h : BareLits fx) {b32 : Bool} {s : ApproxSpec} {lo hi : Dec} {e : Expr}
    (he : polynomialCode ext fx b32 s lo hi = .ok e) : e.toR.called = [] ∧ ∀ bound, s.var ∈ bound → e.toR.free bound = [] := by
  obtain ⟨r, hr, he⟩ := Res.bind_eq_ok.1 he
  have hw : widthOf b32 = 32 ∨ widthOf b32 = 64 := by cases b32 <;> simp [widthOf]
  refine ⟨visit_called h hw r he, fun bound hb => visit_free h hw bound r he ?_⟩
  unfold approx at hr
  split at hr
  · cases hr
  · obtain ⟨_, -, hr⟩ := Res.bind_eq_ok.1 hr
    obtain ⟨_, -, hr⟩ := Res.bind_eq_ok.1 hr
    obtain ⟨_, -, hr⟩ := Res.bind_eq_ok.1 hr
    obtain ⟨_, -, hr⟩ := Res.bind_eq_ok.1 hr
    exact mulAddPolynomial_free hr bound hb

end Verif
