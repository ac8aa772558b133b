import Verif.Spec.CPlaces
import Verif.Props.CReads
import Verif.Props.CGenerated
import Verif.Props.RustReads

/-!
# C41 for the generated library

Every expression in the C text of the library is read by C as the tree that was meant, for all polynomials; the one exception is the pair in `sin_cos`.
-/

namespace Verif

mutual
/-- The expression can stand where level `k` is asked for in Rust. -/
def RExpr.parsedB : ℕ → RExpr → Bool
  | _, .lit _ => true
  | _, .path _ => true
  | k, .unary _ e => decide (k ≤ 11) && e.parsedB 11
  | k, .binary l op r => decide (k ≤ op.lvl) && l.parsedB op.sides.1 && r.parsedB op.sides.2
  | _, .method r _ args => r.parsedB 12 && RExpr.parsedBAll args
  | _, .call f args => f.parsedB 12 && RExpr.parsedBAll args
  | _, .paren e => e.parsedB 0
  | k, .cast e _ => decide (k ≤ 10) && e.parsedB 10
  | _, .ifElse c _ f => c.parsedB 0 && f.parsedB 0
  | k, .assign l r => decide (k ≤ 0) && l.parsedB 1 && r.parsedB 0
  | k, .assignOp l op r => decide (k ≤ op.lvl) && l.parsedB op.sides.1 && r.parsedB op.sides.2
  | _, _ => true

def RExpr.parsedBAll : List RExpr → Bool
  | [] => true
  | e :: es => e.parsedB 0 && RExpr.parsedBAll es
end

theorem cfits_binary (l r : PExpr CWord) (op : BinOp) (k : ℕ) :
    (PExpr.binary l op.sym r).fits rustLang k ↔ k ≤ op.lvl ∧ l.fits rustLang op.sides.1 ∧ r.fits rustLang op.sides.2 := by
  simp only [PExpr.fits, op.lvl_eq, Option.some.injEq, exists_eq_left']
  cases op <;> simp [BinOp.lvl, BinOp.sides, rustLang]

theorem cfits_assign (l r : PExpr CWord) (k : ℕ) :
    (PExpr.binary l "=" r).fits rustLang k ↔ k ≤ 0 ∧ l.fits rustLang 1 ∧ r.fits rustLang 0 := by
  have : rustLang.level "=" = some 0 := by decide
  simp only [PExpr.fits, this, Option.some.injEq, exists_eq_left']
  simp [rustLang]

theorem RExpr.rustTree_isField (e : RExpr) : e.rustTree.isField = false := by cases e <;> rfl

mutual
theorem parsed_iff (e : RExpr) (k : ℕ) : e.rustTree.fits rustLang k ↔ e.parsedB k = true := by
  match e with
  | .lit l => simp [RExpr.rustTree, PExpr.fits, RExpr.parsedB]
  | .path p => simp [RExpr.rustTree, PExpr.fits, RExpr.parsedB]
  | .unary op e => simp [RExpr.rustTree, PExpr.fits, RExpr.parsedB, UnOp.prefix_ok, show rustLang.height = 11 from rfl, parsed_iff e]
  | .binary l op r => simp [RExpr.rustTree, RExpr.parsedB, cfits_binary, parsed_iff l, parsed_iff r, and_assoc]
  | .method r m as => simp [RExpr.rustTree, PExpr.fits, RExpr.parsedB, show rustLang.height = 11 from rfl, parsed_iff r, parsedAll_iff as]
  | .call f as => simp [RExpr.rustTree, PExpr.fits, RExpr.parsedB, show rustLang.height = 11 from rfl, RExpr.rustTree_isField, parsed_iff f, parsedAll_iff as]
  | .paren e => simp [RExpr.rustTree, PExpr.fits, RExpr.parsedB, parsed_iff e]
  | .cast e ty =>
    simp only [RExpr.rustTree, PExpr.fits, RExpr.parsedB, Bool.and_eq_true, decide_eq_true_eq]
    rw [if_neg (by decide), ← parsed_iff e]
    constructor
    · rintro ⟨j, h1, h2, h3, h4⟩
      have hj : j = 10 := by
        simp only [rustLang] at h1
        split_ifs at h1 with a b c
        exact c
      subst hj
      exact ⟨h3, h4⟩
    · rintro ⟨h1, h2⟩
      exact ⟨10, by decide, by decide, h1, h2⟩
  | .ifElse c t f =>
    simp [RExpr.rustTree, PExpr.fits, PExpr.fitsAll, PExpr.isField, RExpr.parsedB, parsed_iff c, parsed_iff f]
  | .assign l r => simp [RExpr.rustTree, RExpr.parsedB, cfits_assign, parsed_iff l, parsed_iff r, and_assoc]
  | .assignOp l op r => simp [RExpr.rustTree, RExpr.parsedB, cfits_binary, parsed_iff l, parsed_iff r, and_assoc]
  | .ifThen c t | .block b | .array es | .tuple es | .verbatim | .other k => simp [RExpr.rustTree, PExpr.fits, RExpr.parsedB]

theorem parsedAll_iff (as : List RExpr) : PExpr.fitsAll rustLang (RExpr.rustTrees as) ↔ RExpr.parsedBAll as = true := by
  match as with
  | [] => simp [RExpr.rustTrees, PExpr.fitsAll, RExpr.parsedBAll]
  | a :: as => simp [RExpr.rustTrees, PExpr.fitsAll, RExpr.parsedBAll, parsed_iff a, parsedAll_iff as]
end

theorem parsedB_mono {j k : ℕ} (h : j ≤ k) (e : RExpr) (hk : e.parsedB k = true) : e.parsedB j = true :=
  (parsed_iff e j).mp (Lang.fits_mono rustLang h _ ((parsed_iff e k).mpr hk))

/-- The condition of C41, by computation. -/
def RExpr.cOk (e : RExpr) : Bool := e.cShape && e.parsedB 0 && e.cGroups

theorem RExpr.cOk_reads (o : COptions) (e : RExpr) (h : e.cOk = true) : e.CReadsRight o := by
  simp only [RExpr.cOk, Bool.and_eq_true] at h
  exact ⟨h.1.1, (C41_tokens_iff o e h.1.1 ((parsed_iff e 0).mpr h.1.2)).mpr h.2⟩

/-- What the inserted polynomials and values must be. -/
structure CReadParts (P : Gen.Parts) : Prop where
  approx : ∀ n, (P.approx n).cShape = true ∧ (P.approx n).rustTree.fits rustLang 9 ∧ (P.approx n).cGroups = true
  bare : ∀ n, (P.approx n).isIf = false ∧ (P.approx n).isBits = false
  parts : ∀ n, ∀ e ∈ (P.approx n).cParts, e.cOk = true
  value : ∀ n, (P.value n).cOk = true ∧ ∀ e ∈ (P.value n).cParts, e.cOk = true

def cOkAll (es : List RExpr) : Bool := es.all RExpr.cOk

theorem cOkAll_nil : cOkAll [] = true := rfl
theorem cOkAll_cons (e : RExpr) (es : List RExpr) : cOkAll (e :: es) = (e.cOk && cOkAll es) := rfl
theorem cOkAll_append (es fs : List RExpr) : cOkAll (es ++ fs) = (cOkAll es && cOkAll fs) := List.all_append

theorem isIf_lit (l : Lit) : (RExpr.lit l).isIf = false := rfl
theorem isIf_path (p : Name) : (RExpr.path p).isIf = false := rfl
theorem isIf_binary (op : BinOp) (e f : RExpr) : (RExpr.binary e op f).isIf = false := rfl
theorem isIf_method (e : RExpr) (m : String) (as : List RExpr) : (RExpr.method e m as).isIf = false := rfl
theorem isIf_call (e : RExpr) (as : List RExpr) : (RExpr.call e as).isIf = false := rfl
theorem isIf_paren (e : RExpr) : (RExpr.paren e).isIf = false := rfl
theorem isIf_cast (e : RExpr) (t : Name) : (RExpr.cast e t).isIf = false := rfl
theorem isBits_lit (l : Lit) : (RExpr.lit l).isBits = false := rfl
theorem isBits_path (p : Name) : (RExpr.path p).isBits = false := rfl
theorem isBits_method (e : RExpr) (m : String) (as : List RExpr) : (RExpr.method e m as).isBits = false := rfl
theorem isBits_binary (op : BinOp) (e f : RExpr) : (RExpr.binary e op f).isBits = (op == .bitOr || op == .bitXor || op == .bitAnd) := rfl

theorem radd_eq (a b : RExpr) : a + b = .binary a .add b := rfl
theorem rsub_eq (a b : RExpr) : a - b = .binary a .sub b := rfl
theorem rmul_eq (a b : RExpr) : a * b = .binary a .mul b := rfl
theorem rdiv_eq (a b : RExpr) : a / b = .binary a .div b := rfl
theorem rneg_eq (a : RExpr) : -a = .unary .neg a := rfl

theorem items_cOk (b32 : Bool) (P : Gen.Parts) (hP : CReadParts P) (n : String) (hn : n ≠ "sin_cos") :
    ∀ it ∈ Gen.items b32 P n, cOkAll it.cPlaces = true := by
  have hs := fun n => (hP.approx n).1
  have h9 : ∀ n, (P.approx n).parsedB 9 = true := fun n => (parsed_iff _ 9).mp (hP.approx n).2.1
  have h8 : ∀ n, (P.approx n).parsedB 8 = true := fun n => parsedB_mono (by norm_num) _ (h9 n)
  have h0 : ∀ n, (P.approx n).parsedB 0 = true := fun n => parsedB_mono (by norm_num) _ (h9 n)
  have hg := fun n => (hP.approx n).2.2
  have hi := fun n => (hP.bare n).1
  have hb := fun n => (hP.bare n).2
  have hp : ∀ n, cOkAll (P.approx n).cParts = true := fun n => List.all_eq_true.mpr (hP.parts n)
  have hv : ∀ n, (P.value n).cOk = true ∧ cOkAll (P.value n).cParts = true := fun n => ⟨(hP.value n).1, List.all_eq_true.mpr (hP.value n).2⟩
  unfold Gen.items
  split <;> (first | (cases b32 <;> decide) | exact absurd rfl hn | skip) <;>
  simp [RItem.cPlaces, Gen.evalConst, Gen.constItem, Gen.asin, Gen.acos, Gen.atan, Gen.atan2, Gen.exp2, Gen.exp_m1, Gen.log2, Gen.qnorm, Gen.sin, Gen.cos, Gen.tan,
    Gen.sinLike, RFn.ofFty, RStmt.cParts, RStmt.letT, RStmt.letU, RExpr.cParts, RExpr.cPartsAll, RExpr.v, RExpr.cond, RExpr.gt, RExpr.lt, RExpr.ge, RExpr.num,
    RExpr.app, RExpr.as, RExpr.fromBits, Gen.scaleBits, Gen.insideLim, Gen.edgeArg, radd_eq, rsub_eq, rmul_eq, rdiv_eq, rneg_eq, RExpr.cOk, RExpr.parsedB,
    RExpr.parsedBAll, RExpr.cShape, RExpr.cShapes, RExpr.cGroups, RExpr.cGroupsAll, BinOp.lvl, BinOp.sides, BinOp.assigns, BinOp.compares,
    Lit.isNumber, isFromBits, cOkAll_nil, cOkAll_cons, cOkAll_append, isIf_lit, isIf_path, isIf_binary, isIf_method, isIf_call, isIf_paren,
    isIf_cast, isBits_lit, isBits_path, isBits_method, isBits_binary, hs, h9, h8, h0, hg, hi, hb, hp, hv] <;> (have := hv; simp_all [RExpr.cOk])

/-- **C41** Every expression of the library in C is read as the tree meant, for all polynomials and values; `sin_cos`, which returns a pair, is the one
exception. -/
theorem C41_library (o : COptions) (b32 : Bool) (P : Gen.Parts) (hP : CReadParts P) (n : String) (hn : n ≠ "sin_cos") (it : RItem)
    (hit : it ∈ Gen.items b32 P n) : ∀ e ∈ it.cPlaces, e.CReadsRight o :=
  fun e he => e.cOk_reads o (List.all_eq_true.mp (items_cOk b32 P hP n hn it hit) e he)

/-- **C41** The exception: what `sin_cos` returns is not read as anything. -/
theorem C41_sin_cos (o : COptions) (b32 : Bool) (P : Gen.Parts) : ∃ it ∈ Gen.items b32 P "sin_cos", ∃ e ∈ it.cPlaces, ¬ e.CReadsRight o :=
  ⟨.fn Gen.sin_cos, List.mem_singleton.mpr rfl, .tuple [.app "sin" [.v "arg"], .app "cos" [.v "arg"]], by simp [RItem.cPlaces, Gen.sin_cos, RStmt.cParts], fun h => by simpa [RExpr.cShape] using h.1⟩

/-- **C41** … and so for a whole output file. -/
theorem C41_output (o : COptions) (b32 : Bool) (P : Gen.Parts) (hP : CReadParts P) (request : List String) (it : RItem)
    (hit : it ∈ outputItems b32 P request) (hn : it ≠ .fn Gen.sin_cos) : ∀ e ∈ it.cPlaces, e.CReadsRight o := by
  unfold outputItems at hit
  split at hit
  · obtain ⟨f, _, hf⟩ := List.mem_flatMap.mp hit
    refine C41_library o b32 P hP f.name (fun h => hn ?_) it hf
    rw [h] at hf
    simpa [Gen.items] using hf
  · simp at hit

/-! ## The polynomials -/

/-- A leaf of a polynomial. -/
structure CGoodLeaf (e : RExpr) : Prop where
  shape : e.cShape = true
  fits : e.parsedB 11 = true
  groups : e.cGroups = true
  bare : e.isIf = false ∧ e.isBits = false
  parts : ∀ x ∈ e.cParts, x.cOk = true

theorem clit_good (l : Lit) (h : l.isNumber = true) : CGoodLeaf (.lit l) := ⟨h, rfl, rfl, ⟨rfl, rfl⟩, by simp [RExpr.cParts]⟩

theorem cbits_good (p : Name) (l : Lit) (h : l.isNumber = true) : CGoodLeaf (.call (.path p) [.lit l]) :=
  ⟨by simpa [RExpr.cShape, RExpr.cShapes] using h, rfl, by simp [RExpr.cGroups, RExpr.cGroupsAll], ⟨rfl, rfl⟩, by
    intro x hx
    simp only [RExpr.cParts, RExpr.cPartsAll] at hx
    split at hx <;> simp at hx
    subst hx
    simp [RExpr.cOk, RExpr.cShape, RExpr.parsedB, RExpr.cGroups, h]⟩

theorem cnumberLit_good (ext : FloatExt) (hx : SuffixedLits ext) (ty : String) (bits : ℕ) (l : Lit) (hl : l.isNumber = true) (ds : List Char) (e : Expr)
    (h : numberTypeLit ext ty bits l ds = .ok e) : CGoodLeaf e.toR := by
  unfold numberTypeLit at h
  simp only [Res.bind_eq_ok] at h
  obtain ⟨d, _, a, _, b, _, h⟩ := h
  split_ifs at h
  · obtain ⟨ds, rfl⟩ := hx.f32 _ _ h; exact clit_good _ rfl
  · obtain ⟨ds, rfl⟩ := hx.f64 _ _ h; exact clit_good _ rfl
  · cases h; exact cbits_good _ _ rfl
  · cases h; exact cbits_good _ _ rfl
  · cases h; exact clit_good l hl

theorem cchain_good (g : Lit → Expr) (hg : ∀ l, l.isNumber = true → CGoodLeaf (g l).toR) (u : Expr) (hu : (u.mapLeaves g .path).toR.parsedB 0 = true)
    (hus : (u.mapLeaves g .path).toR.cShape = true) (hug : (u.mapLeaves g .path).toR.cGroups = true)
    (hup : (u.mapLeaves g .path).toR.cParts = []) (hi : Dec) (cs : List Dec) :
    let e := ((mulAddChain u hi cs).mapLeaves g .path).toR
    e.parsedB 12 = true ∧ e.cShape = true ∧ e.cGroups = true ∧ e.isIf = false ∧ e.isBits = false ∧ ∀ x ∈ e.cParts, x.cOk = true := by
  induction cs using List.reverseRecOn with
  | nil =>
    obtain ⟨l, hl, hn⟩ := quotedDec_lit hi
    have hl' : l.isNumber = true := by cases l <;> first | rfl | cases hn
    have h0 := parsedB_mono (Nat.zero_le _) _ (hg l hl').fits
    simp [mulAddChain, hl, Expr.mapLeaves, Expr.toR, RExpr.parsedB, RExpr.cShape, RExpr.cGroups, RExpr.isIf, RExpr.isBits, RExpr.cParts, h0, (hg l hl').shape,
      (hg l hl').groups]
    exact (hg l hl').parts
  | append_singleton cs c ih =>
    obtain ⟨l, hl, hn⟩ := quotedDec_lit c
    have hl' : l.isNumber = true := by cases l <;> first | rfl | cases hn
    have h0 := parsedB_mono (Nat.zero_le _) _ (hg l hl').fits
    obtain ⟨i1, i2, i3, i4, i5, i6⟩ := ih
    rw [mulAddChain_snoc]
    simp [Expr.mapLeaves, Expr.mapLeavesArgs, Expr.toR, Expr.toRArgs, RExpr.parsedB, RExpr.parsedBAll, RExpr.cShape, RExpr.cShapes, RExpr.cGroups,
      RExpr.cGroupsAll, RExpr.isIf, RExpr.isBits, RExpr.cParts, RExpr.cPartsAll, hl, i1, i2, i3, hu, hus, hug, hup, h0, (hg l hl').shape, (hg l hl').groups]
    rintro x (hx | hx)
    · exact i6 x hx
    · exact (hg l hl').parts x hx

/-- **C41** The polynomials of the generators meet the condition, whatever their coefficients, their signs and the form of number asked for. -/
theorem C41_polynomial (ext : FloatExt) (hx : SuffixedLits ext) (ty : String) (bits : ℕ) (terms : List Dec) (var : Name) (par : Parity) (e e' : Expr)
    (he : mulAddPolynomial terms var par = .ok e) (he' : useNumberType ext e ty bits = .ok e') :
    e'.toR.cShape = true ∧ e'.toR.rustTree.fits rustLang 9 ∧ e'.toR.cGroups = true ∧ e'.toR.isIf = false ∧ e'.toR.isBits = false ∧
      ∀ x ∈ e'.toR.cParts, x.cOk = true := by
  let vis := useNumberTypeVisitor ext ty bits
  let g : Lit → Expr := fun l => match vis.lit l with | .ok e => e | _ => .lit l
  have hleaves : e' = e.mapLeaves g .path := by
    refine Visitor.visit_leaves vis rfl rfl rfl _ .path ?_ ?_ e e' he'
    · intro l x hx; simp [g, hx]
    · intro p x hx; simpa [vis, useNumberTypeVisitor] using hx.symm
  have hg : ∀ l, l.isNumber = true → CGoodLeaf (g l).toR := by
    intro l hl
    cases hv : vis.lit l with
    | ok x =>
      simp only [g, hv]
      cases l with
      | int ds k => exact cnumberLit_good ext hx ty bits _ hl ds x hv
      | float ds k => exact cnumberLit_good ext hx ty bits _ hl ds x hv
      | bool b => cases hl
      | other t => cases hl
    | err _ => simp only [g, hv]; exact clit_good l hl
    | panic => simp only [g, hv]; exact clit_good l hl
    | diverge => simp only [g, hv]; exact clit_good l hl
  obtain ⟨u, hi, cs, hu, h, -⟩ := mulAdd_shape terms var par e he
  have hu1 : (u.mapLeaves g .path).toR.parsedB 0 = true ∧ (u.mapLeaves g .path).toR.cShape = true ∧ (u.mapLeaves g .path).toR.cGroups = true ∧
      (u.mapLeaves g .path).toR.cParts = [] := by
    rcases hu with rfl | rfl <;>
      simp [Expr.mapLeaves, Expr.toR, RExpr.parsedB, RExpr.cParts, RExpr.cShape, RExpr.cGroups, RExpr.isIf, BinOp.assigns, BinOp.compares]
  obtain ⟨h1, h2, h3, h4, h5, h6⟩ := cchain_good g hg u hu1.1 hu1.2.1 hu1.2.2.1 hu1.2.2.2 hi cs
  have h9 := parsedB_mono (show 9 ≤ 12 by norm_num) _ h1
  rw [parsed_iff, hleaves]
  rcases h with rfl | rfl
  · exact ⟨h2, h9, h3, h4, h5, h6⟩
  · simp [Expr.mapLeaves, Expr.toR, RExpr.parsedB, RExpr.cShape, RExpr.cGroups, isIf_path, isIf_binary, isBits_binary, RExpr.cParts, h2, h3, h4, h9, BinOp.lvl, BinOp.sides,
      BinOp.assigns, BinOp.compares]
    exact h6

example : CReadParts holeParts :=
  ⟨fun n => by simp only [holeParts, parsed_iff]; exact ⟨rfl, rfl, rfl⟩, fun n => ⟨rfl, rfl⟩, fun n e he => by simp [holeParts, RExpr.cParts] at he,
    fun n => ⟨rfl, by simp [holeParts, RExpr.num, RExpr.cParts]⟩⟩

/-- `cos` has places inside: the statements, and nothing else. -/
example : ((Gen.items true holeParts "cos").flatMap RItem.cPlaces).length = 3 := by decide

end Verif
