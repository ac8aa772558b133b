import Verif.Lemmas.SimdText
import Verif.Props.SimdGenerated

/-!
# C84: the printed Rust code is read as the program that was built
-/

namespace Verif

/-! ## The text of a program and its tree -/

/-- **C84** Nothing is read as two different programs: what has the same tokens has the same tree. -/
theorem C84_unique (e e' : RExpr) (h : rustLang.Reads e.toks e.tree) (h' : rustLang.Reads e'.toks e'.tree) (ht : e.toks = e'.toks) : e.tree = e'.tree :=
  h.unique (ht ▸ h')

/-! ## `#expr.cast::<T>()` -/

/-- **C84** What `attachMethod` returns is what the text `e.m()` is read as … -/
theorem C84_attach_reads (m : String) (e e' : RExpr) (h : attachMethod m e = .ok e') (he : rustLang.Reads e.toks e.tree) (hs : e.endsWell = true) :
    rustLang.Reads (e.toks ++ [.dot, .word (.meth m), .lpar, .rpar]) e'.tree := by
  have ht : ∀ e e' : RExpr, attachMethod m e = .ok e' → e'.toks = e.toks ++ [.dot, .word (.meth m), .lpar, .rpar] := by
    intro e
    induction e using RExpr.rec (motive_2 := fun _ => True) (motive_3 := fun _ => True) (motive_4 := fun _ => True) with
    | unary op e ih =>
      intro e' h
      simp only [attachMethod, Res.bind_eq_ok, Res.pure_eq, Res.ok.injEq] at h
      obtain ⟨e1, h1, rfl⟩ := h
      simp [RExpr.toks, ih e1 h1]
    | binary l op r _ ih | assign l r _ ih | assignOp l op r _ ih =>
      intro e' h
      simp only [attachMethod, Res.bind_eq_ok, Res.pure_eq, Res.ok.injEq] at h
      obtain ⟨e1, h1, rfl⟩ := h
      simp [RExpr.toks, ih e1 h1]
    | cast e ty => intro e' h; simp [attachMethod] at h
    | lit | path | method | call | paren | ifThen | ifElse | block | array | tuple | verbatim | other =>
      intro e' h
      simp only [attachMethod, Res.pure_eq, Res.ok.injEq] at h
      subst h
      simp [RExpr.toks, RExpr.toksArgs]
    | _ => trivial
  rw [← ht e e' h, rreads_iff, fits_iff]
  exact attach_fits m e e' h hs 0 ((fits_iff e 0).mp ((rreads_iff e).mp he))

/-- Look for a dot after a type: the state says whether the last token was a type. -/
def scanDots : Bool → List (PTok RWord) → Option Bool
  | p, [] => some p
  | p, .dot :: r => if p then none else scanDots false r
  | _, .ty _ :: r => scanDots true r
  | _, .word _ :: r | _, .op _ :: r | _, .lpar :: r | _, .rpar :: r | _, .comma :: r | _, .as :: r | _, .quest :: r | _, .colon :: r => scanDots false r

theorem scanDots_append (a b : List (PTok RWord)) : ∀ p, scanDots p (a ++ b) = (scanDots p a).bind fun q => scanDots q b := by
  induction a with
  | nil => intro p; rfl
  | cons t a ih =>
    intro p
    cases t <;> simp only [List.cons_append, scanDots, ih]
    split <;> simp

mutual
theorem scan_print (t : PExpr RWord) (k : ℕ) (h : t.fits rustLang k) (p : Bool) :
    ∃ q, scanDots p (t.print rustLang) = some q ∧ (11 ≤ k → q = false) := by
  match t with
  | .atom w => exact ⟨false, rfl, fun _ => rfl⟩
  | .unary o e =>
    obtain ⟨q, hq, h'⟩ := scan_print e 11 h.2.2 false
    exact ⟨q, by simpa [PExpr.print, scanDots] using hq, fun _ => h' le_rfl⟩
  | .binary l o r =>
    obtain ⟨j, hj, hk, hlr⟩ := h
    have hs := rustLang_sound.level o j hj
    have hj' : j < 11 := hs.1
    have hl : ∃ a, l.fits rustLang a := by split at hlr <;> first | exact ⟨_, hlr.1⟩ | exact hlr.elim
    have hr : ∃ a, r.fits rustLang a := by split at hlr <;> first | exact ⟨_, hlr.2⟩ | exact hlr.elim
    obtain ⟨a, ha⟩ := hl
    obtain ⟨b, hb⟩ := hr
    obtain ⟨q, hq, -⟩ := scan_print l a ha p
    obtain ⟨q', hq', -⟩ := scan_print r b hb false
    exact ⟨q', by simp [PExpr.print, scanDots_append, hq, scanDots, hq'], fun h => by omega⟩
  | .paren e =>
    obtain ⟨q, hq, -⟩ := scan_print e 0 h false
    exact ⟨false, by simp [PExpr.print, scanDots_append, hq, scanDots], fun _ => rfl⟩
  | .call f as =>
    obtain ⟨q, hq, -⟩ := scan_print f 12 h.1 p
    obtain ⟨q', hq'⟩ := scan_args as h.2.2 false
    exact ⟨false, by simp [PExpr.print, scanDots_append, hq, scanDots, hq'], fun _ => rfl⟩
  | .method r m as =>
    obtain ⟨q, hq, hf⟩ := scan_print r 12 h.1 p
    obtain rfl := hf (by norm_num)
    obtain ⟨q', hq'⟩ := scan_args as h.2 false
    exact ⟨false, by simp [PExpr.print, scanDots_append, hq, scanDots, hq'], fun _ => rfl⟩
  | .field b m =>
    obtain ⟨q, hq, hf⟩ := scan_print b 12 h p
    obtain rfl := hf (by norm_num)
    exact ⟨false, by simp [PExpr.print, scanDots_append, hq, scanDots], fun _ => rfl⟩
  | .cast e ty =>
    simp only [PExpr.fits] at h
    rw [if_neg (by decide)] at h
    obtain ⟨j, hj, hj', hk, he⟩ := h
    have hj'' : j < 11 := hj'
    obtain ⟨q, hq, -⟩ := scan_print e j he p
    exact ⟨true, by simp [PExpr.print, show rustLang.prefixCast = false from rfl, scanDots_append, hq, scanDots], fun h => by omega⟩
  | .ternary c t f =>
    obtain ⟨j, hj, hj', hk, hc, ht, hf⟩ := h
    have hj'' : j < 11 := hj'
    obtain ⟨q1, h1, -⟩ := scan_print c _ hc p
    obtain ⟨q2, h2, -⟩ := scan_print t _ ht false
    obtain ⟨q3, h3, -⟩ := scan_print f _ hf false
    exact ⟨q3, by simp [PExpr.print, scanDots_append, h1, scanDots, h2, h3], fun h => by omega⟩

theorem scan_args (as : List (PExpr RWord)) (h : PExpr.fitsAll rustLang as) (p : Bool) : ∃ q, scanDots p (PExpr.printArgs rustLang as) = some q := by
  match as with
  | [] => exact ⟨p, rfl⟩
  | e :: es =>
    obtain ⟨q, hq, -⟩ := scan_print e 0 h.1 p
    obtain ⟨q', hq'⟩ := scan_rest es h.2 q
    exact ⟨q', by simp [PExpr.printArgs, scanDots_append, hq, hq']⟩

theorem scan_rest (as : List (PExpr RWord)) (h : PExpr.fitsAll rustLang as) (p : Bool) : ∃ q, scanDots p (PExpr.printRest rustLang as) = some q := by
  match as with
  | [] => exact ⟨p, rfl⟩
  | e :: es =>
    obtain ⟨q, hq, -⟩ := scan_print e 0 h.1 false
    obtain ⟨q', hq'⟩ := scan_rest es h.2 q
    exact ⟨q', by simp [PExpr.printRest, scanDots_append, scanDots, hq, hq']⟩
end

/-- **C84** … and where it panics, the text is no expression at all: `x as T.m()`. -/
theorem C84_attach_fails (m : String) (e : RExpr) (h : attachMethod m e = .panic) (t : PExpr RWord) :
    ¬ rustLang.Reads (e.toks ++ [.dot, .word (.meth m), .lpar, .rpar]) t := by
  have hend : ∀ e : RExpr, attachMethod m e = .panic → ∃ a w, e.toks = a ++ [.ty w] := by
    intro e
    induction e using RExpr.rec (motive_2 := fun _ => True) (motive_3 := fun _ => True) (motive_4 := fun _ => True) with
    | unary op e ih =>
      intro h
      have h1 : attachMethod m e = .panic := by
        cases h' : attachMethod m e <;> simp_all [attachMethod]
      obtain ⟨a, w, ha⟩ := ih h1
      exact ⟨_ :: a, w, by simp only [RExpr.toks, ha]; rfl⟩
    | binary l op r _ ih | assign l r _ ih | assignOp l op r _ ih =>
      intro h
      have h1 : attachMethod m r = .panic := by
        cases h' : attachMethod m r <;> simp_all [attachMethod]
      obtain ⟨a, w, ha⟩ := ih h1
      exact ⟨l.toks ++ _ :: a, w, by simp only [RExpr.toks, ha]; simp; rfl⟩
    | cast e ty => exact fun _ => ⟨e.toks ++ [.as], .path ty, by simp [RExpr.toks]⟩
    | lit | path | method | call | paren | ifThen | ifElse | block | array | tuple | verbatim | other =>
      intro h; simp [attachMethod] at h
    | _ => trivial
  obtain ⟨a, w, ha⟩ := hend e h
  intro hr
  obtain ⟨hf, hp⟩ := (Lang.reads_iff rustLang rustLang_sound _ t).mp hr
  obtain ⟨q, hq, -⟩ := scan_print t 0 hf false
  rw [← hp, ha] at hq
  simp only [List.append_assoc, List.singleton_append, scanDots_append] at hq
  cases hs : scanDots false a <;> simp [hs, scanDots] at hq

/-- `-x` with a cast, and `x as usize` with one. -/
example : attachMethod "cast::<f32>" (.unary .neg (.path ["x"])) = .ok (.unary .neg (.method (.path ["x"]) "cast::<f32>" [])) ∧
    attachMethod "cast::<f32>" (.cast (.path ["x"]) ["usize"]) = .panic := ⟨rfl, rfl⟩

/-! ## The vectoriser -/

/-- The places of a method. -/
def SimdMethod.spots (m : SimdMethod) : List Spot := RStmt.parts m.body

theorem okAll_iff (ss : List Spot) : okAll ss = true ↔ ∀ s ∈ ss, s.Reads := by
  simp [okAll, List.all_eq_true, Spot.reads_iff]

theorem insertConsts_ok (b32 : Bool) (cs : List SimdConst) (hcs : ∀ c ∈ cs, (Spot.mk false c.value).ok = true ∧ okAll c.value.parts = true) :
    ∀ (used : List String) (body out : List RStmt), okAll (RStmt.parts body) = true → insertConsts b32 cs used body = .ok out → okAll (RStmt.parts out) = true := by
  induction cs with
  | nil => intro used body out hb h; simp only [insertConsts, Res.pure_eq, Res.ok.injEq] at h; exact h ▸ hb
  | cons c cs ih =>
    intro used body out hb h
    have ih' := ih fun c' hc' => hcs c' (List.mem_cons_of_mem _ hc')
    have hc := hcs c List.mem_cons_self
    simp only [insertConsts] at h
    split_ifs at h
    · simp only [Res.bind_eq_ok] at h
      obtain ⟨e, he, h⟩ := h
      have hk := simd_kept b32 c.value hc.2 e he
      exact ih' _ _ out (by simp [RStmt.parts, hk.spot _ hc.1, hk.parts, hb]) h
    · exact ih' _ _ out hb h

theorem simdItems_ok (b32 : Bool) (file : List RItem) (hf : ∀ it ∈ file, okAll it.spots = true) :
    ∀ (cs : List SimdConst), (∀ c ∈ cs, (Spot.mk false c.value).ok = true ∧ okAll c.value.parts = true) →
      ∀ ms, simdItems b32 file cs = .ok ms → ∀ m ∈ ms, okAll m.spots = true := by
  induction file with
  | nil => intro cs _ ms h; simp only [simdItems, Res.pure_eq, Res.ok.injEq] at h; subst h; simp
  | cons it file ih =>
    intro cs hcs ms h
    have ih' := ih fun i hi => hf i (List.mem_cons_of_mem _ hi)
    have hit := hf it List.mem_cons_self
    cases it with
    | const n t e =>
      simp only [RItem.spots, okAll_cons, Bool.and_eq_true] at hit
      simp only [simdItems] at h
      refine ih' (cs ++ [⟨n, t, e⟩]) ?_ ms h
      intro c hc
      rcases List.mem_append.mp hc with hc | hc
      · exact hcs c hc
      · rw [List.mem_singleton.mp hc]; exact hit
    | fn f =>
      simp only [simdItems, Res.bind_eq_ok, Res.pure_eq, Res.ok.injEq] at h
      obtain ⟨m, hm, ms', hms, rfl⟩ := h
      intro m' hm'
      rcases List.mem_cons.mp hm' with rfl | hm'
      · unfold simdFn at hm
        split at hm
        · cases hm
        · rename_i p ps _
          simp only [Res.bind_eq_ok, Res.pure_eq, Res.ok.injEq] at hm
          obtain ⟨body, hb, body', hb', rfl⟩ := hm
          refine insertConsts_ok b32 cs hcs _ body body' (simd_keptStmts b32 _ ?_ body hb) hb'
          have : okAll (RStmt.parts f.body) = true := hit
          simp only [RStmt.parts, okAll_cons, this, RExpr.parts, List.nil_append, Bool.and_true]
          rfl
      · exact ih' cs hcs ms' hms m' hm'
    | type n t => exact ih' cs hcs ms h
    | other k => exact ih' cs hcs ms h

/-- **C84** The vectoriser keeps the grouping: if every expression of a file is read as its tree, so is every expression of the methods it becomes. -/
theorem C84_vectorised (b32 : Bool) (file : List RItem) (ms : List SimdMethod) (h : toSimd b32 file = .ok ms) (hf : ∀ it ∈ file, ∀ s ∈ it.spots, s.Reads) :
    ∀ m ∈ ms, ∀ s ∈ m.spots, s.Reads := by
  intro m hm
  rw [← okAll_iff]
  exact simdItems_ok b32 file (fun it hit => (okAll_iff _).mpr (hf it hit)) [] (by simp) ms h m hm

/-! ## The library -/

/-- The inserted polynomials may stand to the left of `*` and at the beginning of a statement; so may the values stand alone. -/
structure ReadParts (P : Gen.Parts) : Prop where
  approx : ∀ n, (P.approx n).tree.fits rustLang 9
  starts : ∀ n, (P.approx n).startsBlock = false
  parts : ∀ n, ∀ s ∈ (P.approx n).parts, s.Reads
  value : ∀ n, ∀ s ∈ (RItem.const "" [] (P.value n)).spots, s.Reads

theorem fitsB_add (k : ℕ) (a b : RExpr) : (a + b).fitsB k = (decide (k ≤ 8) && a.fitsB 8 && b.fitsB 9) := rfl
theorem fitsB_sub (k : ℕ) (a b : RExpr) : (a - b).fitsB k = (decide (k ≤ 8) && a.fitsB 8 && b.fitsB 9) := rfl
theorem fitsB_mul (k : ℕ) (a b : RExpr) : (a * b).fitsB k = (decide (k ≤ 9) && a.fitsB 9 && b.fitsB 10) := rfl
theorem fitsB_div (k : ℕ) (a b : RExpr) : (a / b).fitsB k = (decide (k ≤ 9) && a.fitsB 9 && b.fitsB 10) := rfl
theorem fitsB_neg (k : ℕ) (a : RExpr) : (-a).fitsB k = (decide (k ≤ 11) && a.fitsB 11) := rfl
theorem parts_add (a b : RExpr) : (a + b).parts = a.parts ++ b.parts := by show RExpr.parts (.binary a .add b) = _; simp [RExpr.parts]
theorem parts_sub (a b : RExpr) : (a - b).parts = a.parts ++ b.parts := by show RExpr.parts (.binary a .sub b) = _; simp [RExpr.parts]
theorem parts_mul (a b : RExpr) : (a * b).parts = a.parts ++ b.parts := by show RExpr.parts (.binary a .mul b) = _; simp [RExpr.parts]
theorem parts_div (a b : RExpr) : (a / b).parts = a.parts ++ b.parts := by show RExpr.parts (.binary a .div b) = _; simp [RExpr.parts]
theorem parts_neg (a : RExpr) : (-a).parts = a.parts := by show RExpr.parts (.unary .neg a) = _; simp [RExpr.parts]
theorem starts_add (a b : RExpr) : (a + b).startsBlock = a.startsBlock := rfl
theorem starts_sub (a b : RExpr) : (a - b).startsBlock = a.startsBlock := rfl
theorem starts_mul (a b : RExpr) : (a * b).startsBlock = a.startsBlock := rfl
theorem starts_div (a b : RExpr) : (a / b).startsBlock = a.startsBlock := rfl
theorem starts_neg (a : RExpr) : (-a).startsBlock = false := rfl

theorem items_ok (b32 : Bool) (P : Gen.Parts) (hP : ReadParts P) (n : String) : ∀ it ∈ Gen.items b32 P n, okAll it.spots = true := by
  have h9 : ∀ n, (P.approx n).fitsB 9 = true := fun n => (fits_iff _ 9).mp (hP.approx n)
  have h8 : ∀ n, (P.approx n).fitsB 8 = true := fun n => fitsB_mono (by norm_num) _ (h9 n)
  have h0 : ∀ n, (P.approx n).fitsB 0 = true := fun n => fitsB_mono (by norm_num) _ (h9 n)
  have hs := hP.starts
  have hp : ∀ n, okAll (P.approx n).parts = true := fun n => (okAll_iff _).mpr (hP.parts n)
  have hv : ∀ n, (Spot.mk false (P.value n)).ok = true ∧ okAll (P.value n).parts = true := fun n => by
    have := (okAll_iff _).mpr (hP.value n)
    simpa [RItem.spots] using this
  unfold Gen.items
  split <;> (first | (cases b32 <;> decide) | skip) <;>
  simp [RItem.spots, Gen.evalConst, Gen.constItem, Gen.asin, Gen.acos, Gen.atan, Gen.atan2, Gen.exp2, Gen.exp_m1, Gen.log2, Gen.qnorm, Gen.sin, Gen.cos, Gen.tan,
    Gen.sinLike, RFn.ofFty, RStmt.parts, RStmt.letT, RStmt.letU, RExpr.parts, RExpr.partsArgs, RExpr.v, RExpr.cond, RExpr.gt, RExpr.lt, RExpr.ge, RExpr.num,
    RExpr.app, RExpr.as, RExpr.fromBits, Gen.scaleBits, Gen.insideLim, Gen.edgeArg, fitsB_add, fitsB_sub, fitsB_mul, fitsB_div, fitsB_neg, parts_add, parts_sub,
    parts_mul, parts_div, parts_neg, starts_add, starts_sub, starts_mul, starts_div, starts_neg, Spot.ok, RExpr.fitsB, RExpr.fitsBAll, RExpr.startsBlock,
    RExpr.blockLike, BinOp.lvl, BinOp.sides, Lit.signed, h9, h8, h0, hs, hp, hv] <;> (have := hv; simp_all [Spot.ok])

/-- **C84** Every expression of the generated library is read as its tree, for all polynomials and values inserted without parentheses. -/
theorem C84_library (b32 : Bool) (P : Gen.Parts) (hP : ReadParts P) (n : String) (it : RItem) (hit : it ∈ Gen.items b32 P n) : ∀ s ∈ it.spots, s.Reads :=
  (okAll_iff _).mp (items_ok b32 P hP n it hit)

/-- **C84** … and so is every expression of the vectorised library, for any request. -/
theorem C84_vector_library (b32 : Bool) (P : Gen.Parts) (hP : ReadParts P) (request : List String) (ms : List SimdMethod)
    (h : toSimd b32 (outputItems b32 P request) = .ok ms) : ∀ m ∈ ms, ∀ s ∈ m.spots, s.Reads := by
  refine C84_vectorised b32 _ ms h fun it hit => ?_
  unfold outputItems at hit
  split at hit
  · obtain ⟨f, _, hf⟩ := List.mem_flatMap.mp hit
    exact C84_library b32 P hP f.name it hf
  · simp at hit

/-- **C84** The condition on polynomials is needed: a sum in the place of `#approx` in `#approx * mul` is read differently. -/
theorem C84_sum_regroups (b32 : Bool) :
    ∃ P : Gen.Parts, (∀ n, rustLang.Reads (P.approx n).toks (P.approx n).tree) ∧ ∃ it ∈ Gen.items b32 P "exp2", ∃ s ∈ it.spots, ¬ s.Reads := by
  refine ⟨⟨fun _ => RExpr.v "a" + RExpr.v "x", fun _ => RExpr.v "c"⟩, fun n => by rw [rreads_iff, fits_iff]; rfl, _, List.mem_singleton.mpr rfl, ?_⟩
  refine ⟨⟨false, (RExpr.v "a" + RExpr.v "x") * RExpr.v "mul"⟩, ?_, ?_⟩
  · simp [RItem.spots, Gen.exp2, RFn.ofFty, RStmt.parts, RStmt.letT]
  · rw [Spot.reads_iff]; decide

/-! ## The polynomials -/

/-- Literals made from floats are literals, perhaps after a minus. -/
structure PlainLits (ext : FloatExt) : Prop where
  f32 : ∀ b e, ext.litF32 b = .ok e → ∃ l, e = .lit l ∨ e = .unary .neg (.lit l)
  f64 : ∀ b e, ext.litF64 b = .ok e → ∃ l, e = .lit l ∨ e = .unary .neg (.lit l)

/-- A leaf of a polynomial. -/
structure GoodLeaf (e : RExpr) : Prop where
  fits : e.fitsB 11 = true
  parts : e.parts = []
  starts : e.startsBlock = false

theorem lit_good (l : Lit) : GoodLeaf (.lit l) := ⟨by simp [RExpr.fitsB], rfl, rfl⟩
theorem neg_good (l : Lit) : GoodLeaf (.unary .neg (.lit l)) := ⟨by simp [RExpr.fitsB], rfl, rfl⟩
theorem bits_good (p : Name) (l : Lit) : GoodLeaf (.call (.path p) [.lit l]) := ⟨by simp [RExpr.fitsB, RExpr.fitsBAll], rfl, rfl⟩

theorem numberLit_good (ext : FloatExt) (hx : PlainLits ext) (ty : String) (bits : ℕ) (l : Lit) (ds : List Char) (e : Expr)
    (h : numberTypeLit ext ty bits l ds = .ok e) : GoodLeaf e.toR := by
  unfold numberTypeLit at h
  simp only [Res.bind_eq_ok] at h
  obtain ⟨d, _, a, _, b, _, h⟩ := h
  split_ifs at h
  · obtain ⟨l, rfl | rfl⟩ := hx.f32 _ _ h
    · exact lit_good l
    · exact neg_good l
  · obtain ⟨l, rfl | rfl⟩ := hx.f64 _ _ h
    · exact lit_good l
    · exact neg_good l
  · cases h; exact bits_good _ _
  · cases h; exact bits_good _ _
  · cases h; exact lit_good l

theorem chain_good (g : Lit → Expr) (hg : ∀ l, GoodLeaf (g l).toR) (u : Expr) (hu : (u.mapLeaves g .path).toR.fitsB 0 = true)
    (hup : (u.mapLeaves g .path).toR.parts = []) (hi : Dec) (cs : List Dec) :
    ((mulAddChain u hi cs).mapLeaves g .path).toR.fitsB 12 = true ∧ ((mulAddChain u hi cs).mapLeaves g .path).toR.parts = [] ∧
      ((mulAddChain u hi cs).mapLeaves g .path).toR.startsBlock = false := by
  induction cs using List.reverseRecOn with
  | nil =>
    obtain ⟨l, hl, -⟩ := quotedDec_lit hi
    have h0 := fitsB_mono (Nat.zero_le _) _ (hg l).fits
    simp [mulAddChain, hl, Expr.mapLeaves, Expr.toR, RExpr.fitsB, RExpr.parts, RExpr.startsBlock, RExpr.blockLike, h0, (hg l).parts]
  | append_singleton cs c ih =>
    obtain ⟨l, hl, -⟩ := quotedDec_lit c
    have h0 := fitsB_mono (Nat.zero_le _) _ (hg l).fits
    rw [mulAddChain_snoc]
    simp [Expr.mapLeaves, Expr.mapLeavesArgs, Expr.toR, Expr.toRArgs, RExpr.fitsB, RExpr.fitsBAll, RExpr.parts, RExpr.partsArgs, RExpr.startsBlock, hl, ih, hu, hup,
      h0, (hg l).parts]

/-- **C84** The polynomials of the generators meet the condition, whatever their coefficients, their signs and the form of number asked for. -/
theorem C84_polynomial (ext : FloatExt) (hx : PlainLits ext) (ty : String) (bits : ℕ) (terms : List Dec) (var : Name) (par : Parity) (e e' : Expr)
    (he : mulAddPolynomial terms var par = .ok e) (he' : useNumberType ext e ty bits = .ok e') :
    e'.toR.tree.fits rustLang 9 ∧ e'.toR.startsBlock = false ∧ e'.toR.parts = [] := by
  let vis := useNumberTypeVisitor ext ty bits
  let g : Lit → Expr := fun l => match vis.lit l with | .ok e => e | _ => .lit l
  have hleaves : e' = e.mapLeaves g .path := by
    refine Visitor.visit_leaves vis rfl rfl rfl _ .path ?_ ?_ e e' he'
    · intro l x hx; simp [g, hx]
    · intro p x hx; simpa [vis, useNumberTypeVisitor] using hx.symm
  have hg : ∀ l, GoodLeaf (g l).toR := by
    intro l
    cases hv : vis.lit l with
    | ok x =>
      simp only [g, hv]
      cases l with
      | int ds k => exact numberLit_good ext hx ty bits _ ds x hv
      | float ds k => exact numberLit_good ext hx ty bits _ ds x hv
      | bool b => cases hv; exact lit_good _
      | other t => cases hv; exact lit_good _
    | err _ => simp only [g, hv]; exact lit_good l
    | panic => simp only [g, hv]; exact lit_good l
    | diverge => simp only [g, hv]; exact lit_good l
  obtain ⟨u, hi, cs, hu, h, -⟩ := mulAdd_shape terms var par e he
  have hu1 : (u.mapLeaves g .path).toR.fitsB 0 = true ∧ (u.mapLeaves g .path).toR.parts = [] := by
    rcases hu with rfl | rfl <;> simp [Expr.mapLeaves, Expr.toR, RExpr.fitsB, RExpr.parts]
  obtain ⟨h1, h2, h3⟩ := chain_good g hg u hu1.1 hu1.2 hi cs
  have h9 := fitsB_mono (show 9 ≤ 12 by norm_num) _ h1
  rw [fits_iff, hleaves]
  rcases h with rfl | rfl
  · exact ⟨h9, h3, h2⟩
  · simp [Expr.mapLeaves, Expr.toR, RExpr.fitsB, RExpr.parts, RExpr.startsBlock, h2, h3, h9, BinOp.lvl, BinOp.sides]

/-- `(-0.5) * x + 1`, with the leading coefficient in parentheses: the sign does not slip. -/
example : ∃ e, mulAddPolynomial [⟨1, 0⟩, ⟨-5, 1⟩] ["x"] .neither = .ok e := ⟨_, rfl⟩

example : ReadParts holeParts :=
  ⟨fun n => by unfold holeParts; trivial, fun n => rfl, fun n s hs => by simp [holeParts, RExpr.parts] at hs,
    fun n => by rw [← okAll_iff]; rfl⟩

end Verif
