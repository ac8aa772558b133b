import Verif.Props.CCompiles
import Verif.Props.GenTypes
import Verif.Model.Main

/-!
# C85 for the polynomials that are inserted
-/

namespace Verif

/-- The options are those of the program. -/
theorem C85_options (o : Opt) (b32 : Bool) (hl : o.language = "c") (hb : o.numBits = if b32 then 32 else 64) :
    cOpts b32 = ⟨o.prefix, o.floatSuffix⟩ := by
  cases b32 <;> simp [cOpts, Opt.prefix, Opt.floatSuffix, hl, hb]

/-- Literals made from floats are numbers of C, perhaps after a minus. -/
structure CLits (ext : FloatExt) : Prop where
  f32 : ∀ b e, ext.litF32 b = .ok e → ∃ l, (e = .lit l ∨ e = .unary .neg (.lit l)) ∧ l.cTy.isSome = true
  f64 : ∀ b e, ext.litF64 b = .ok e → ∃ l, (e = .lit l ∨ e = .unary .neg (.lit l)) ∧ l.cTy.isSome = true

theorem clit_typed (o : COptions) (G : CGlobals) (L : CLocals) (e : Expr) (h : ∃ l, (e = .lit l ∨ e = .unary .neg (.lit l)) ∧ l.cTy.isSome = true) :
    ∃ t, e.toR.cTy o G L = some t := by
  obtain ⟨l, rfl | rfl, hl⟩ := h <;> obtain ⟨t, ht⟩ := Option.isSome_iff_exists.mp hl <;> exact ⟨t, by simpa [Expr.toR, RExpr.cTy] using ht⟩

theorem cchain_typed (o : COptions) (G : CGlobals) (L : CLocals) (g : Lit → Expr) (u : Expr) (hu : ∃ t, (u.mapLeaves g .path).toR.cTy o G L = some t) (hi : Dec)
    (cs : List Dec) (hg : ∀ d ∈ hi :: cs, ∃ t, ((quotedDec d).mapLeaves g .path).toR.cTy o G L = some t) :
    ∃ t, ((mulAddChain u hi cs).mapLeaves g .path).toR.cTy o G L = some t := by
  induction cs using List.reverseRecOn with
  | nil =>
    obtain ⟨t, ht⟩ := hg hi List.mem_cons_self
    exact ⟨t, by simpa [mulAddChain, Expr.mapLeaves, Expr.toR, RExpr.cTy] using ht⟩
  | append_singleton cs c ih =>
    obtain ⟨t, ht⟩ := ih fun d hd => hg d (by simp only [List.mem_cons, List.mem_append] at hd ⊢; tauto)
    obtain ⟨a, ha⟩ := hu
    obtain ⟨b, hb⟩ := hg c (by simp)
    rw [mulAddChain_snoc]
    exact ⟨(t.arith a).arith b, by simp [Expr.mapLeaves, Expr.mapLeavesArgs, Expr.toR, Expr.toRArgs, RExpr.cTy, RExpr.cTys, ht, ha, hb]⟩

/-- **C85** With decimal numbers every polynomial of the generators has a type in C, whatever its coefficients. -/
theorem C85_polynomial (ext : FloatExt) (hx : CLits ext) (o : COptions) (b32 : Bool) (terms : List Dec) (s : String) (par : Parity) (e e' : Expr)
    (he : mulAddPolynomial terms [s] par = .ok e) (he' : useNumberType ext e "decimal" (if b32 then 32 else 64) = .ok e') (G : CGlobals) (L : CLocals)
    (t : CTy) (c : Bool) (hs : L.lookup s = some (some (t, c))) : ∃ t, e'.toR.cTy o G L = some t := by
  let vis := useNumberTypeVisitor ext "decimal" (if b32 then 32 else 64)
  let g : Lit → Expr := fun l => match vis.lit l with | .ok e => e | _ => .lit (.float "1.0".toList "")
  have hleaves : e' = e.mapLeaves g .path := by
    refine Visitor.visit_leaves vis rfl rfl rfl _ .path ?_ ?_ e e' he'
    · intro l x hx; simp [g, hx]
    · intro p x hx; simpa [vis, useNumberTypeVisitor] using hx.symm
  have hone : ∃ t, (Expr.lit (.float "1.0".toList "")).toR.cTy o G L = some t := ⟨.double, rfl⟩
  have hnum : ∀ l ds x, numberTypeLit ext "decimal" (if b32 then 32 else 64) l ds = .ok x → ∃ t, x.toR.cTy o G L = some t := by
    intro l ds x h
    unfold numberTypeLit at h
    simp only [Res.bind_eq_ok] at h
    obtain ⟨d, _, a, _, b, _, h⟩ := h
    cases b32
    · exact clit_typed o G L x (hx.f64 _ _ (by simpa using h))
    · exact clit_typed o G L x (hx.f32 _ _ (by simpa using h))
  have hg : ∀ d, ∃ t, ((quotedDec d).mapLeaves g .path).toR.cTy o G L = some t := by
    intro d
    obtain ⟨l, hl, hn⟩ := quotedDec_lit d
    simp only [hl, Expr.mapLeaves]
    cases hv : vis.lit l with
    | ok x =>
      simp only [g, hv]
      cases l with
      | int ds k => exact hnum _ ds x hv
      | float ds k => exact hnum _ ds x hv
      | bool b => cases hn
      | other k => cases hn
    | err _ => simp only [g, hv]; exact hone
    | panic => simp only [g, hv]; exact hone
    | diverge => simp only [g, hv]; exact hone
  obtain ⟨u, hi, cs, hu, h, -⟩ := mulAdd_shape terms [s] par e he
  have hv : cNameTy G L (cPath [s]) = some t := by simp [cNameTy, cPath, hs]
  have hu1 : ∃ t, (u.mapLeaves g .path).toR.cTy o G L = some t := by
    rcases hu with rfl | rfl
    · exact ⟨t, by simpa [Expr.mapLeaves, Expr.toR, RExpr.cTy] using hv⟩
    · exact ⟨t.arith t, by simp [Expr.mapLeaves, Expr.toR, RExpr.cTy, hv, cBinTy]⟩
  obtain ⟨t', ht'⟩ := cchain_typed o G L g u hu1 hi cs fun d _ => hg d
  rw [hleaves]
  rcases h with rfl | rfl
  · exact ⟨t', ht'⟩
  · exact ⟨t'.arith t, by simp [Expr.mapLeaves, Expr.toR, RExpr.cTy, ht', hv, cBinTy]⟩

/-! ## Hexadecimal numbers -/

/-- The function that a number written by its bits calls in C. -/
def bitsName (o : COptions) : String := o.pre ++ "f32_from_bits"

theorem cchain_none (o : COptions) (G : CGlobals) (L : CLocals) (g : Lit → Expr) (u : Expr) (hi : Dec) (cs : List Dec)
    (hg : ((quotedDec hi).mapLeaves g .path).toR.cTy o G L = none) : ((mulAddChain u hi cs).mapLeaves g .path).toR.cTy o G L = none := by
  induction cs using List.reverseRecOn with
  | nil => simpa [mulAddChain, Expr.mapLeaves, Expr.toR, RExpr.cTy] using hg
  | append_singleton cs c ih =>
    rw [mulAddChain_snoc]
    simp [Expr.mapLeaves, Expr.toR, RExpr.cTy, ih]

/-- With hexadecimal numbers no polynomial has a type: `f32::from_bits` becomes a call of a function that nothing declares. -/
theorem hex_untyped (ext : FloatExt) (o : COptions) (b32 : Bool) (terms : List Dec) (v : Name) (par : Parity) (e e' : Expr)
    (he : mulAddPolynomial terms v par = .ok e) (he' : useNumberType ext e "hex" (if b32 then 32 else 64) = .ok e') (G : CGlobals) (L : CLocals)
    (hG : G.lookup (bitsName o) = none) : e'.toR.cTy o G L = none := by
  let vis := useNumberTypeVisitor ext "hex" (if b32 then 32 else 64)
  let g : Lit → Expr := fun l => match vis.lit l with | .ok e => e | _ => fromBits32Call 0 "u32"
  have hleaves : e' = e.mapLeaves g .path := by
    refine Visitor.visit_leaves vis rfl rfl rfl _ .path ?_ ?_ e e' he'
    · intro l x hx; simp [g, hx]
    · intro p x hx; simpa [vis, useNumberTypeVisitor] using hx.symm
  have hcall : ∀ n k, (fromBits32Call n k).toR.cTy o G L = none := by
    intro n k
    have h1 : isFromBits ["f32", "from_bits"] = false := by decide
    have h2 : ∀ j, cCallTy G L (o.pre ++ cPath ["f32", "from_bits"]) j = none := by
      intro j
      unfold cCallTy
      rw [show o.pre ++ cPath ["f32", "from_bits"] = bitsName o from rfl, hG]
      split <;> rfl
    simp [fromBits32Call, Expr.toR, Expr.toRArgs, RExpr.cTy, h1, h2]
  have hnum : ∀ l ds x, numberTypeLit ext "hex" (if b32 then 32 else 64) l ds = .ok x → x.toR.cTy o G L = none := by
    intro l ds x h
    unfold numberTypeLit at h
    simp only [Res.bind_eq_ok] at h
    obtain ⟨d, _, a, _, b, _, h⟩ := h
    cases b32
    · obtain rfl : fromBits32Call b "u64" = x := by simpa using h
      exact hcall _ _
    · obtain rfl : fromBits32Call a "u32" = x := by simpa using h
      exact hcall _ _
  have hg : ∀ d, ((quotedDec d).mapLeaves g .path).toR.cTy o G L = none := by
    intro d
    obtain ⟨l, hl, hn⟩ := quotedDec_lit d
    simp only [hl, Expr.mapLeaves]
    cases hv : vis.lit l with
    | ok x =>
      simp only [g, hv]
      cases l with
      | int ds k => exact hnum _ ds x hv
      | float ds k => exact hnum _ ds x hv
      | bool b => cases hn
      | other k => cases hn
    | err _ => simp only [g, hv]; exact hcall _ _
    | panic => simp only [g, hv]; exact hcall _ _
    | diverge => simp only [g, hv]; exact hcall _ _
  obtain ⟨u, hi, cs, hu, h, -⟩ := mulAdd_shape terms v par e he
  have hc := cchain_none o G L g u hi cs (hg hi)
  rw [hleaves]
  rcases h with rfl | rfl
  · exact hc
  · simp [Expr.mapLeaves, Expr.toR, RExpr.cTy, hc]

/-- The name an item declares. -/
def RItem.cName (o : COptions) : RItem → String
  | .const n _ _ => n
  | .type n _ => n
  | .fn f => o.pre ++ f.name
  | .other _ => ""

theorem cDecl_name (o : COptions) (G : CGlobals) (it : RItem) (d : String × CDecl) (h : it.cDecl o G = some d) : d.1 = it.cName o := by
  match it with
  | .const n t e =>
    simp only [RItem.cDecl, Option.bind_eq_some_iff] at h
    obtain ⟨a, -, h⟩ := h
    split_ifs at h
    simp only [Option.bind_eq_some_iff] at h
    obtain ⟨b, -, h⟩ := h
    cases h; rfl
  | .type n t =>
    simp only [RItem.cDecl, Option.bind_eq_some_iff] at h
    obtain ⟨a, -, h⟩ := h
    split_ifs at h
    cases h; rfl
  | .fn ⟨n, ps, some (.path r), b⟩ =>
    simp only [RItem.cDecl, Option.bind_eq_some_iff] at h
    obtain ⟨a, -, L, -, h⟩ := h
    split_ifs at h
    simp only [Option.bind_eq_some_iff] at h
    obtain ⟨b, -, h⟩ := h
    cases h; rfl
  | .fn ⟨n, ps, some (.tuple _), b⟩ | .fn ⟨n, ps, none, b⟩ | .other _ => simp [RItem.cDecl] at h

/-- Every item of a file that compiles is accepted where only earlier items are declared. -/
theorem cFile_item (o : COptions) (s : String) (its : List RItem) : ∀ (G G' : CGlobals), G.lookup s = none → (∀ it ∈ its, it.cName o ≠ s) →
    cFile o G its = some G' → ∀ it ∈ its, ∃ G'' d, G''.lookup s = none ∧ it.cDecl o G'' = some d := by
  induction its with
  | nil => intro _ _ _ _ _ it hit; cases hit
  | cons i its ih =>
    intro G G' hG hn h it hit
    simp only [cFile, Option.bind_eq_some_iff] at h
    obtain ⟨d, hd, h⟩ := h
    split_ifs at h
    rcases List.mem_cons.mp hit with rfl | hit
    · exact ⟨G, d, hG, hd⟩
    · refine ih (d :: G) G' ?_ (fun x hx => hn x (List.mem_cons_of_mem _ hx)) h it hit
      have hds : (s == d.1) = false := by
        rw [cDecl_name o G i d hd]
        exact beq_false_of_ne (hn i List.mem_cons_self).symm
      obtain ⟨k, v⟩ := d
      simp only [List.lookup, hds]
      exact hG

/-- A block with an initialiser that has no type is refused. -/
theorem cTys_refused (o : COptions) (G : CGlobals) (n : String) (ty : Name) (p : RExpr) (hp : ∀ L, p.cTy o G L = none) (ss : List RStmt) :
    ∀ L cur, RStmt.letInit n (some ty) p ∈ ss → RStmt.cTys o G L cur ss = none := by
  induction ss with
  | nil => intro _ _ h; cases h
  | cons s ss ih =>
    intro L cur h
    rcases List.mem_cons.mp h with rfl | h
    · simp only [RStmt.cTys, hp, Option.bind_none, ite_self]
      cases cTypeNamed G L (cType ty) <;> rfl
    · have ih := fun L cur => ih L cur h
      match s, ss with
      | .expr e, [] => cases h
      | .expr e, x :: xs => simp only [RStmt.cTys, ih]; cases e.cTy o G L <;> rfl
      | .semi e, ss => simp only [RStmt.cTys, ih]; cases e.cTy o G L <;> rfl
      | .decl m none, ss => simp only [RStmt.cTys, ih]; cases cNameTy G L m <;> rfl
      | .letInit m none e, ss => simp only [RStmt.cTys, ih]; cases e.cTy o G L <;> cases cAssignTy L m <;> rfl
      | .decl m (some t), ss => simp only [RStmt.cTys, ih, ite_self]; cases cTypeNamed G L (cType t) <;> rfl
      | .letInit m (some t) e, ss =>
        simp only [RStmt.cTys, ih]
        cases cTypeNamed G L (cType t) with
        | none => rfl
        | some a => simp only [Option.bind_some]; split <;> [cases e.cTy o G ((m, some (a, false)) :: L) <;> rfl; rfl]
      | .const m t e, ss =>
        simp only [RStmt.cTys, ih]
        cases cTypeNamed G L (cType t) with
        | none => rfl
        | some a => simp only [Option.bind_some]; split <;> [cases e.cTy o G ((m, some (a, true)) :: L) <;> rfl; rfl]

theorem cDecl_refused (o : COptions) (G : CGlobals) (f : RFn) (n : String) (ty : Name) (p : RExpr) (hm : RStmt.letInit n (some ty) p ∈ f.body)
    (hf : f.name ≠ "f32_from_bits") (hG : G.lookup (bitsName o) = none) (hp : ∀ G L, G.lookup (bitsName o) = none → p.cTy o G L = none) :
    (RItem.fn f).cDecl o G = none := by
  obtain ⟨fn, ps, r, b⟩ := f
  rcases r with _ | r | r
  · rfl
  · simp only [RItem.cDecl]
    have hne : (bitsName o == o.pre ++ fn) = false := by
      refine beq_false_of_ne fun h => hf ?_
      have := congrArg String.toList h
      simp only [bitsName, String.toList_append, List.append_cancel_left_eq] at this
      exact (String.toList_inj.mp this).symm
    cases cTypeNamed G [] (cType r) with
    | none => rfl
    | some t =>
      cases cParams G ps with
      | none => rfl
      | some L =>
        have := cTys_refused o ((o.pre ++ fn, .fn ps.length t) :: G) n ty p (fun L => hp _ L (by simp only [List.lookup, hne, hG])) b L [] hm
        simp [this]
  · rfl

/-- **C85** With hexadecimal numbers no function of the library compiles, not even the two that otherwise do. -/
theorem C85_hex_wrong (ext : FloatExt) (b32 : Bool) (P : Gen.Parts) (terms : List Dec) (v : Name) (par : Parity) (e e' : Expr)
    (he : mulAddPolynomial terms v par = .ok e) (he' : useNumberType ext e "hex" (if b32 then 32 else 64) = .ok e') (n : String) (hn : n ∈ ["asin", "acos"])
    (hP : P.approx n = e'.toR) (request : List String) (hr : n ∈ outputNames request) : ¬ CCompiles (cOpts b32) (outputItems b32 P request) := by
  rintro ⟨G', hG⟩
  rw [outputItems_names] at hG
  have hnames : ∀ it ∈ (outputNames request).flatMap (Gen.items b32 P), it.cName (cOpts b32) ≠ bitsName (cOpts b32) := by
    intro it hit
    obtain ⟨m, -, hm⟩ := List.mem_flatMap.mp hit
    revert hm
    unfold Gen.items
    split <;> intro hm <;> first
      | (simp only [List.not_mem_nil] at hm)
      | (obtain rfl := List.mem_singleton.mp hm; cases b32 <;> exact ne_of_beq_false rfl)
  have hmath : mathH.lookup (bitsName (cOpts b32)) = none := by cases b32 <;> decide +kernel
  have hit : ∃ f, Gen.items b32 P n = [.fn f] ∧ RStmt.letInit "y" (some ["fty"]) (P.approx n) ∈ f.body ∧ f.name ≠ "f32_from_bits" := by
    simp only [List.mem_cons, List.not_mem_nil, or_false] at hn
    rcases hn with rfl | rfl
    · exact ⟨_, rfl, by simp [Gen.asin, RFn.ofFty, RStmt.letT], by simp [Gen.asin, RFn.ofFty]⟩
    · exact ⟨_, rfl, by simp [Gen.acos, RFn.ofFty, RStmt.letT], by simp [Gen.acos, RFn.ofFty]⟩
  obtain ⟨f, hf, hy, hfn⟩ := hit
  obtain ⟨G, d, h1, h2⟩ := cFile_item (cOpts b32) (bitsName (cOpts b32)) _ mathH G' hmath hnames hG (.fn f)
    (List.mem_flatMap.mpr ⟨n, hr, by rw [hf]; exact List.mem_singleton.mpr rfl⟩)
  rw [cDecl_refused (cOpts b32) G f "y" ["fty"] (P.approx n) hy hfn h1
    (fun G L hG => by rw [hP]; exact hex_untyped ext (cOpts b32) b32 terms v par e e' he he' G L hG)] at h2
  cases h2

example (b32 : Bool) : CTypedParts b32 holeParts :=
  ⟨fun n hn G L h => ⟨ftyC b32, by
    simp only [List.mem_cons, List.not_mem_nil, or_false] at hn
    rcases hn with rfl | rfl <;> simp [holeParts, approxVar, RExpr.cTy, cNameTy, cPath, h]⟩, fun n => ⟨rfl, fun G => ⟨.double, rfl⟩⟩⟩

/-- The literals of the external world, for instance: a number with a point. -/
example : CLits exampleExt := ⟨fun _ _ h => ⟨_, .inl (Res.ok.inj h).symm, rfl⟩, fun _ _ h => ⟨_, .inl (Res.ok.inj h).symm, rfl⟩⟩

/-- A whole number beyond 64 bits is not a number of C, although it is one of Rust. -/
example : (Lit.float "1000000000000000000000".toList "f32").cTy = none := by decide +kernel

end Verif
