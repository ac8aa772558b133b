import Verif.Lemmas.Main
import Verif.Props.Functions

/-!
# C86: what a run of `libmgen` writes
-/

namespace Verif

variable {τ : Type}

/-- The line printed by `--debug`. -/
def debugLine (P : Pieces τ) (o : Opt) : List Eff := if o.debug then [.out ("opt=" ++ P.showOpt o ++ "\n")] else []

theorem debug_effs (P : Pieces τ) (o : Opt) :
    (debugNote P o).effs = debugLine P o ∧ (debugNote P o).res = .ok () := by
  unfold debugLine debugNote
  cases o.debug <;> simp

/-- C86: without `-f` the run says so on standard error and does nothing else, whatever the other options are. -/
theorem C86_no_request (P : Pieces τ) (tbl : List FnDef) (fuel : Nat) (o : Opt) (h : o.functions = "") :
    (libmgen P tbl fuel o).res = .ok () ∧
    (libmgen P tbl fuel o).effs = debugLine P o ++ [.err "re-run with -f or -h\n"] := by
  unfold libmgen
  rw [Act.bind_res, Act.bind_effs_ok _ (debug_effs P o).2, (debug_effs P o).1, (debug_effs P o).2]
  simp [h]

theorem forM_println (l : List FnDef) :
    ((l.forM (fun f => println f.name) : Act Unit)).res = .ok () ∧
    ((l.forM (fun f => println f.name) : Act Unit)).effs = l.map (fun f => .out (f.name ++ "\n")) := by
  induction l with
  | nil => exact ⟨rfl, rfl⟩
  | cons f l ih =>
    show ((println f.name >>= fun _ => l.forM (fun f => println f.name)) : Act Unit).res = _ ∧
      ((println f.name >>= fun _ => l.forM (fun f => println f.name)) : Act Unit).effs = _
    rw [Act.bind_res, Act.bind_effs_ok _ (println_res _)]
    exact ⟨ih.1, by rw [ih.2]; rfl⟩

/-- C86: `-f help` prints the names of the table, one per line and in order. -/
theorem C86_help (P : Pieces τ) (tbl : List FnDef) (fuel : Nat) (o : Opt) (h : o.functions = "help") :
    (libmgen P tbl fuel o).res = .ok () ∧
    (libmgen P tbl fuel o).effs = debugLine P o ++ tbl.map (fun f => .out (f.name ++ "\n")) := by
  unfold libmgen
  rw [Act.bind_res, Act.bind_effs_ok _ (debug_effs P o).2, (debug_effs P o).1, (debug_effs P o).2]
  have h1 : o.functions ≠ "" := by rw [h]; decide
  simp only [if_neg h1, if_pos h, Res.ok_bind]
  exact ⟨(forM_println tbl).1, by rw [(forM_println tbl).2]⟩

/-- C86: the names listed by `-f help` can all be requested, and each is listed once. -/
theorem C86_help_names : (functionTable.map (·.name)).Nodup ∧
    ∀ f ∈ functionTable, splitNames f.name = [f.name] ∧ f.name ≠ "" ∧ f.name ≠ "help" := by decide +kernel

/-- C86: what is said about names.  Each requested name and each dependency of a chosen entry is looked at once per occurrence;
excluded ones are announced on standard output, unknown ones on standard error. -/
theorem C86_messages (tbl : List FnDef) (names exclude : List String) (fuel : Nat) (hf : fuelFor tbl names ≤ fuel) (l : List FnDef)
    (hl : Selected tbl names exclude l) :
    (getFunctionsAct tbl fuel names exclude).res = .ok l ∧
    (getFunctionsAct tbl fuel names exclude).effs.Perm ((names ++ l.flatMap (·.deps)).filterMap (noteOn tbl exclude)) := by
  have h := (selected_iff tbl names exclude fuel hf l).1 hl
  exact ⟨by rw [getFunctionsAct_res]; exact h, getFunctionsAct_effs tbl fuel names exclude l h⟩

example : (getFunctionsAct functionTable 1000 ["sin", "nosuch"] ["round", "cos"]).effs =
    [.err "function nosuch not found\n", .out "ignoring round\n"] := by decide +kernel

theorem met_iff {tbl : List FnDef} {names exclude : List String} {l : List FnDef} (hl : Selected tbl names exclude l) (s : String) :
    Met tbl names exclude s ↔ s ∈ names ++ l.flatMap (·.deps) := by
  obtain ⟨ps, rfl, _, hm⟩ := hl
  unfold Met
  rw [List.mem_append, List.mem_flatMap]
  constructor
  · rintro (h | ⟨i, f, h1, h2, h3⟩)
    · exact Or.inl h
    · exact Or.inr ⟨f, List.mem_map.2 ⟨(i, f), (hm _).2 ⟨h1, h2⟩, rfl⟩, h3⟩
  · rintro (h | ⟨f, h1, h3⟩)
    · exact Or.inl h
    · obtain ⟨p, hp, rfl⟩ := List.mem_map.1 h1
      exact Or.inr ⟨p.1, p.2, ((hm p).1 hp).1, ((hm p).1 hp).2, h3⟩

/-- Where the text goes. -/
def sink (o : Opt) (text : String) : Eff :=
  match o.output with
  | some path => .file path text
  | none => .out text

/-- C86: a run that is asked for functions in a language with a back end succeeds exactly if there is a library for the request and
the file can be written; then it has written the messages and that library, to the file or to standard output. -/
theorem C86_writes (P : Pieces τ) (tbl : List FnDef) (fuel : Nat) (o : Opt) (ho : o.Proper) (hl : o.language ∈ languages)
    (hf : fuelFor tbl (splitNames o.functions) ≤ fuel) :
    ((libmgen P tbl fuel o).res = .ok () ↔ (∃ text, TextFor P tbl o text) ∧ ∀ path, o.output = some path → P.canWrite path = true) ∧
    ∀ text, TextFor P tbl o text → (∀ path, o.output = some path → P.canWrite path = true) →
      (libmgen P tbl fuel o).effs = debugLine P o ++
        (getFunctionsAct tbl fuel (splitNames o.functions) (splitNames o.exclude)).effs ++ [sink o text] := by
  have hback : ∀ toks, ∃ r, backEnd P o.numBits o.language toks = some r := by
    intro toks
    simp only [languages, List.mem_cons, List.not_mem_nil, or_false] at hl
    unfold backEnd
    rcases hl with h | h | h <;> simp [h]
  have hw : ∀ text, (writeText P o text).res = .ok () ↔ ∀ path, o.output = some path → P.canWrite path = true := by
    intro text
    unfold writeText
    cases o.output with
    | none => simp
    | some path => cases hc : P.canWrite path <;> simp [hc]
  have hw2 : ∀ text, (∀ path, o.output = some path → P.canWrite path = true) → (writeText P o text).effs = [sink o text] := by
    intro text h
    unfold writeText sink
    cases ho : o.output with
    | none => simp
    | some path => simp [h path ho]
  rw [libmgen_proper P tbl fuel o ho]
  constructor
  · rw [Act.bind_res, (debug_effs P o).2, Res.ok_bind, Act.bind_res, getFunctionsAct_res]
    constructor
    · intro h
      obtain ⟨l, h1, h2⟩ := Res.bind_eq_ok.1 h
      rw [Act.bind_res, Act.lift_res] at h2
      obtain ⟨toks, h3, h4⟩ := Res.bind_eq_ok.1 h2
      obtain ⟨r, hr⟩ := hback toks
      rw [hr] at h4
      dsimp only at h4
      rw [Act.bind_res, Act.lift_res] at h4
      obtain ⟨text, h5, h6⟩ := Res.bind_eq_ok.1 h4
      exact ⟨⟨text, l, toks, (selected_iff _ _ _ _ hf _).2 h1, (allTokens_ok _ _ _ _).1 h3, by rw [hr, h5]⟩, (hw text).1 h6⟩
    · rintro ⟨⟨text, l, toks, h1, h3, h4⟩, hp⟩
      rw [(selected_iff _ _ _ _ hf _).1 h1, Res.ok_bind, Act.bind_res, Act.lift_res, (allTokens_ok _ _ _ _).2 h3, Res.ok_bind, h4]
      dsimp only
      rw [Act.bind_res, Act.lift_res, Res.ok_bind]
      exact (hw text).2 hp
  · rintro text ⟨l, toks, h1, h3, h4⟩ hp
    rw [Act.bind_effs_ok _ (debug_effs P o).2, (debug_effs P o).1,
      Act.bind_effs_ok _ (by rw [getFunctionsAct_res]; exact (selected_iff _ _ _ _ hf _).1 h1),
      Act.bind_effs_ok _ (by rw [Act.lift_res]; exact (allTokens_ok _ _ _ _).2 h3), h4]
    dsimp only
    rw [Act.bind_effs_ok _ (by rw [Act.lift_res]), hw2 text hp]
    simp

theorem stdoutOf_append (a b : List Eff) : stdoutOf (a ++ b) = stdoutOf a ++ stdoutOf b := by
  unfold stdoutOf
  induction a with
  | nil => simp
  | cons e a ih => cases e <;> simp [ih, String.append_assoc]

theorem filesOf_append (a b : List Eff) : filesOf (a ++ b) = filesOf a ++ filesOf b := List.filterMap_append

theorem notes_no_files (tbl : List FnDef) (ex : List String) (es : List Eff) (ns : List String)
    (h : es.Perm (ns.filterMap (noteOn tbl ex))) : filesOf es = [] := by
  unfold filesOf
  rw [List.filterMap_eq_nil_iff]
  intro e he
  obtain ⟨s, _, hs⟩ := List.mem_filterMap.1 (h.mem_iff.1 he)
  unfold noteOn at hs
  split at hs
  · obtain rfl := Option.some.inj hs; rfl
  · split at hs
    · obtain rfl := Option.some.inj hs; rfl
    · simp at hs

theorem debug_no_files (P : Pieces τ) (o : Opt) : filesOf (debugLine P o) = [] := by
  unfold debugLine; split <;> rfl

/-- C86: with `-o` the library is the only thing written to a file, and it is the whole file. -/
theorem C86_file (P : Pieces τ) (tbl : List FnDef) (fuel : Nat) (o : Opt) (ho : o.Proper) (hl : o.language ∈ languages)
    (hf : fuelFor tbl (splitNames o.functions) ≤ fuel) (text : String) (ht : TextFor P tbl o text) (path : String)
    (hp : o.output = some path) (hc : P.canWrite path = true) :
    filesOf (libmgen P tbl fuel o).effs = [(path, text)] := by
  rw [(C86_writes P tbl fuel o ho hl hf).2 text ht (fun p h => by rw [hp] at h; rw [← Option.some.inj h]; exact hc)]
  obtain ⟨l, toks, h1, -, -⟩ := ht
  rw [filesOf_append, filesOf_append, debug_no_files, notes_no_files _ _ _ _ (C86_messages tbl _ _ fuel hf l h1).2]
  simp [sink, hp, filesOf]

theorem stdout_notes_nil (tbl : List FnDef) (ex : List String) (es : List Eff) (ns : List String)
    (h : es.Perm (ns.filterMap (noteOn tbl ex))) : stdoutOf es = "" ↔ ∀ s ∈ ns, s ∉ ex := by
  constructor
  · intro he s hs hex
    have hm : Eff.out ("ignoring " ++ s ++ "\n") ∈ es :=
      h.mem_iff.2 (List.mem_filterMap.2 ⟨s, hs, by rw [noteOn, if_pos hex]⟩)
    have key : ∀ es : List Eff, Eff.out ("ignoring " ++ s ++ "\n") ∈ es → stdoutOf es ≠ "" := by
      intro es
      induction es with
      | nil => simp
      | cons e es ih =>
        intro hm heq
        rcases List.mem_cons.1 hm with rfl | hm
        · have := congrArg String.length heq
          simp [stdoutOf, String.length_append] at this
        · refine ih hm ?_
          cases e with
          | out t =>
            have := congrArg String.length heq
            simp only [stdoutOf, List.foldr_cons, String.length_append, String.length_empty, Nat.add_eq_zero_iff] at this
            exact String.length_eq_zero_iff.1 this.2
          | err t => exact heq
          | file p t => exact heq
    exact key es hm he
  · intro hn
    have : ∀ e ∈ es, ∃ t, e = .err t := by
      intro e he
      obtain ⟨s, hs, hs2⟩ := List.mem_filterMap.1 (h.mem_iff.1 he)
      rw [noteOn, if_neg (hn s hs)] at hs2
      split at hs2
      · exact ⟨_, (Option.some.inj hs2).symm⟩
      · simp at hs2
    clear h
    induction es with
    | nil => rfl
    | cons e es ih =>
      obtain ⟨t, rfl⟩ := this e List.mem_cons_self
      exact ih (fun e he => this e (List.mem_cons_of_mem _ he))

/-- C86, exact condition: without `-o` and `--debug`, standard output is the library and nothing else exactly if no excluded name is
looked at. -/
theorem C86_stdout_iff (P : Pieces τ) (tbl : List FnDef) (fuel : Nat) (o : Opt) (ho : o.Proper) (hl : o.language ∈ languages)
    (hf : fuelFor tbl (splitNames o.functions) ≤ fuel) (text : String) (ht : TextFor P tbl o text) (hp : o.output = none)
    (hd : o.debug = false) :
    stdoutOf (libmgen P tbl fuel o).effs = text ↔
      ∀ s, Met tbl (splitNames o.functions) (splitNames o.exclude) s → s ∉ splitNames o.exclude := by
  rw [(C86_writes P tbl fuel o ho hl hf).2 text ht (fun p h => by rw [hp] at h; simp at h)]
  obtain ⟨l, toks, h1, -, -⟩ := ht
  have hm := C86_messages tbl _ _ fuel hf l h1
  have hdl : debugLine P o = [] := by unfold debugLine; rw [hd]; rfl
  rw [hdl, List.nil_append, stdoutOf_append]
  have hs : stdoutOf [sink o text] = text := by simp [sink, hp, stdoutOf]
  rw [hs]
  have hlen : ∀ a : String, a ++ text = text ↔ a = "" := by
    intro a
    constructor
    · intro h
      have := congrArg String.length h
      rw [String.length_append] at this
      exact String.length_eq_zero_iff.1 (by omega)
    · rintro rfl; simp
  rw [hlen, stdout_notes_nil _ _ _ _ hm.2]
  constructor
  · intro h s hs; exact h s ((met_iff h1 s).1 hs)
  · intro h s hs; exact h s ((met_iff h1 s).2 hs)

/-- Pieces that show where the tokens come from: names of functions, joined. -/
def plainPieces : Pieces String where
  showOpt _ := "Opt"
  gen bits _ f n := .ok [f.name ++ "/" ++ toString bits ++ "/" ++ toString n ++ ";"]
  testFunction _ _ := .ok ["test;"]
  tests _ _ f := .ok ["test_" ++ f.name ++ ";"]
  rust ts := .ok (String.join ts)
  c p s ts := .ok (p ++ s ++ ":" ++ String.join ts)
  simd _ ts := .ok (String.join ts)
  canWrite p := p != ""

/-- The hypotheses of `C86_writes`, `C86_file` and `C86_stdout_iff` are met by a plain request. -/
example : Opt.Proper { functions := "cos" } ∧ "rust" ∈ languages ∧ fuelFor functionTable (splitNames "cos") ≤ 1000 ∧
    TextFor plainPieces functionTable { functions := "cos" } "fty/64/0;ity/64/0;round/64/0;RECIP_2PI/64/0;cos/64/25;" := by
  refine ⟨⟨by decide, by decide⟩, by decide, by decide +kernel, ?_⟩
  obtain ⟨l, hl⟩ : ∃ l, getFunctionsAndDeps functionTable 1000 (splitNames "cos") (splitNames "") = .ok l ∧
      allTokens plainPieces { functions := "cos" } l = .ok ["fty/64/0;", "ity/64/0;", "round/64/0;", "RECIP_2PI/64/0;", "cos/64/25;"] :=
    ⟨functionTable.filter (fun f => f.name ∈ ["fty", "ity", "round", "RECIP_2PI", "cos"]), by decide +kernel, by decide +kernel⟩
  exact ⟨l, _, (selected_iff _ _ _ 1000 (by decide +kernel) _).2 hl.1, (allTokens_ok _ _ _ _).1 hl.2, by decide +kernel⟩

/-- C86 is false as stated: `-f cos -x round` puts a message in front of the library on standard output. -/
theorem C86_exclude_on_stdout :
    (libmgen plainPieces functionTable 1000 { functions := "cos", exclude := "round" }).res = .ok () ∧
    TextFor plainPieces functionTable { functions := "cos", exclude := "round" } "fty/64/0;RECIP_2PI/64/0;cos/64/25;" ∧
    stdoutOf (libmgen plainPieces functionTable 1000 { functions := "cos", exclude := "round" }).effs =
      "ignoring round\nfty/64/0;RECIP_2PI/64/0;cos/64/25;" := by
  refine ⟨by decide +kernel, ?_, by decide +kernel⟩
  obtain ⟨l, hl⟩ : ∃ l, getFunctionsAndDeps functionTable 1000 (splitNames "cos") (splitNames "round") = .ok l ∧
      allTokens plainPieces { functions := "cos", exclude := "round" } l = .ok ["fty/64/0;", "RECIP_2PI/64/0;", "cos/64/25;"] :=
    ⟨functionTable.filter (fun f => f.name ∈ ["fty", "RECIP_2PI", "cos"]), by decide +kernel, by decide +kernel⟩
  exact ⟨l, _, (selected_iff _ _ _ 1000 (by decide +kernel) _).2 hl.1, (allTokens_ok _ _ _ _).1 hl.2, by decide +kernel⟩

/-- C86: it happens without `-x` as well.  No exclusion is read as the exclusion of the empty name, and a comma too many in the
request asks for that name. -/
theorem C86_comma_on_stdout :
    splitNames ({} : Opt).exclude = [""] ∧ splitNames "cos," = ["cos", ""] ∧
    stdoutOf (libmgen plainPieces functionTable 1000 { functions := "cos," }).effs =
      "ignoring \nfty/64/0;ity/64/0;round/64/0;RECIP_2PI/64/0;cos/64/25;" := by decide +kernel

/-- C86, the part that holds: with no exclusion and no empty name in the request, standard output is the library.  (No entry of the
table has an empty dependency.) -/
theorem C86_stdout_partial (P : Pieces τ) (fuel : Nat) (o : Opt) (ho : o.Proper) (hl : o.language ∈ languages)
    (hf : fuelFor functionTable (splitNames o.functions) ≤ fuel) (text : String) (ht : TextFor P functionTable o text)
    (hp : o.output = none) (hd : o.debug = false) (hx : o.exclude = "") (hn : "" ∉ splitNames o.functions) :
    stdoutOf (libmgen P functionTable fuel o).effs = text := by
  rw [C86_stdout_iff P functionTable fuel o ho hl hf text ht hp hd]
  intro s hs hex
  rw [hx] at hex
  have : splitNames "" = [""] := by decide +kernel
  rw [this, List.mem_singleton] at hex
  subst hex
  rcases hs with h | ⟨i, f, h1, -, h3⟩
  · exact hn h
  · have : ∀ f ∈ functionTable, "" ∉ f.deps := by decide +kernel
    exact this f (List.mem_of_getElem? h1.1) h3

/-- C86: in another language nothing but messages is written: the run still goes through the generators, then lists the languages or
reports the language. -/
theorem C86_other_language (P : Pieces τ) (tbl : List FnDef) (fuel : Nat) (o : Opt) (ho : o.Proper) (hl : o.language ∉ languages)
    (hf : fuelFor tbl (splitNames o.functions) ≤ fuel) (l : List FnDef)
    (h1 : Selected tbl (splitNames o.functions) (splitNames o.exclude) l) :
    (((libmgen P tbl fuel o).res = .ok ()) ↔ ∃ toks, TokensFor P o l toks) ∧
    ∀ toks, TokensFor P o l toks → (libmgen P tbl fuel o).effs = debugLine P o ++
        (getFunctionsAct tbl fuel (splitNames o.functions) (splitNames o.exclude)).effs ++
        if o.language = "help" then
          [.err "Available languages:\n", .err "    rust\n", .err "    c\n", .err "    portable-simd\n"]
        else [.err ("invalid language " ++ o.language ++ " use \"help\" to list valid options.\n")] := by
  have hback : ∀ toks, backEnd P o.numBits o.language toks = none := by
    intro toks
    simp only [languages, List.mem_cons, List.not_mem_nil, or_false, not_or] at hl
    unfold backEnd
    rw [if_neg hl.1, if_neg hl.2.1, if_neg hl.2.2]
  have hsel := (selected_iff _ _ _ _ hf _).1 h1
  have hlast : ∀ (b : Bool), (if b then (do
          eprintln "Available languages:"
          eprintln "    rust"
          eprintln "    c"
          eprintln "    portable-simd" : Act Unit)
        else eprintln ("invalid language " ++ o.language ++ " use \"help\" to list valid options.")).res = .ok () := by
    intro b; cases b <;> rfl
  rw [libmgen_proper P tbl fuel o ho]
  constructor
  · rw [Act.bind_res, (debug_effs P o).2, Res.ok_bind, Act.bind_res, getFunctionsAct_res, hsel, Res.ok_bind, Act.bind_res,
      Act.lift_res]
    constructor
    · intro h
      obtain ⟨toks, h3, -⟩ := Res.bind_eq_ok.1 h
      exact ⟨toks, (allTokens_ok _ _ _ _).1 h3⟩
    · rintro ⟨toks, h3⟩
      rw [(allTokens_ok _ _ _ _).2 h3, Res.ok_bind, hback]
      simpa using hlast (decide (o.language = "help"))
  · intro toks h3
    rw [Act.bind_effs_ok _ (debug_effs P o).2, (debug_effs P o).1,
      Act.bind_effs_ok _ (by rw [getFunctionsAct_res]; exact hsel),
      Act.bind_effs_ok _ (by rw [Act.lift_res]; exact (allTokens_ok _ _ _ _).2 h3), hback]
    by_cases hh : o.language = "help"
    · simp only [hh, if_true]; rw [List.append_assoc]; rfl
    · simp only [if_neg hh]
      rw [List.append_assoc]
      simp [String.append_assoc]

/-- C86: `--language help` alone does not list the languages. -/
theorem C86_language_help (P : Pieces τ) (tbl : List FnDef) (fuel : Nat) :
    (libmgen P tbl fuel { language := "help" }).effs = [.err "re-run with -f or -h\n"] :=
  (C86_no_request P tbl fuel { language := "help" } rfl).2

/-- C86: the library depends only on the set of names requested and the set of names excluded; repetition and order change nothing. -/
theorem C86_request_set (P : Pieces τ) (tbl : List FnDef) (o : Opt) (fs xs : String)
    (hn : ∀ s, s ∈ splitNames o.functions ↔ s ∈ splitNames fs) (he : ∀ s, s ∈ splitNames o.exclude ↔ s ∈ splitNames xs)
    (text : String) : TextFor P tbl o text ↔ TextFor P tbl { o with functions := fs, exclude := xs } text := by
  have key : ∀ l, Selected tbl (splitNames o.functions) (splitNames o.exclude) l ↔ Selected tbl (splitNames fs) (splitNames xs) l := by
    intro l
    rw [selected_iff _ _ _ (max (fuelFor tbl (splitNames o.functions)) (fuelFor tbl (splitNames fs))) (le_max_left _ _),
      selected_iff _ _ _ (max (fuelFor tbl (splitNames o.functions)) (fuelFor tbl (splitNames fs))) (le_max_right _ _),
      C48_request_set tbl _ _ _ _ hn he _ _ (le_max_left _ _) (le_max_right _ _)]
  unfold TextFor
  simp only [key]
  rfl

example : ∀ s, s ∈ splitNames "sin,cos,sin" ↔ s ∈ splitNames "cos,sin" := by
  have h1 : splitNames "sin,cos,sin" = ["sin", "cos", "sin"] := by decide +kernel
  have h2 : splitNames "cos,sin" = ["cos", "sin"] := by decide +kernel
  rw [h1, h2]; intro s; simp; tauto

/-- C86: unknown names change nothing in the library. -/
theorem C86_unknown_names (P : Pieces τ) (tbl : List FnDef) (o : Opt) (fs : String)
    (h1 : ∀ s ∈ splitNames o.functions, s ∈ splitNames fs)
    (h2 : ∀ s ∈ splitNames fs, s ∈ splitNames o.functions ∨ ∀ f ∈ tbl, f.name ≠ s) (text : String) :
    TextFor P tbl o text ↔ TextFor P tbl { o with functions := fs } text := by
  have need : ∀ s, Needed tbl (splitNames fs) (splitNames o.exclude) s →
      Needed tbl (splitNames o.functions) (splitNames o.exclude) s ∨ ∀ f ∈ tbl, f.name ≠ s := by
    intro s hs
    induction hs with
    | root hm hx =>
      rcases h2 _ hm with h | h
      · exact Or.inl (.root h hx)
      · exact Or.inr h
    | @dep f i d _ hf hd hx ih =>
      rcases ih with ih | ih
      · exact Or.inl (.dep ih hf hd hx)
      · exact absurd rfl (ih f (List.mem_of_getElem? hf.1))
  have key : ∀ l, Selected tbl (splitNames o.functions) (splitNames o.exclude) l ↔ Selected tbl (splitNames fs) (splitNames o.exclude) l := by
    intro l
    unfold Selected
    have : ∀ p : Nat × FnDef, (IsEntry tbl p.1 p.2 ∧ Needed tbl (splitNames o.functions) (splitNames o.exclude) p.2.name) ↔
        (IsEntry tbl p.1 p.2 ∧ Needed tbl (splitNames fs) (splitNames o.exclude) p.2.name) := by
      intro p
      refine and_congr_right (fun hp => ⟨Needed.mono h1 (fun x h => h), fun h => ?_⟩)
      rcases need _ h with h | h
      · exact h
      · exact absurd rfl (h p.2 (List.mem_of_getElem? hp.1))
    simp only [this]
  unfold TextFor
  simp only [key]
  rfl

/-- C86: `--function-prefix` has no effect. -/
theorem C86_unused_prefix (P : Pieces τ) (tbl : List FnDef) (fuel : Nat) (o : Opt) (hd : o.debug = false) (fp : String) :
    libmgen P tbl fuel { o with functionPrefix := fp } = libmgen P tbl fuel o := by
  unfold libmgen debugNote
  simp only [hd]
  rfl

/-- C86: every number of bits other than 32 takes the term counts, the prefix and the suffix for 64 bits. -/
theorem C86_other_widths (o : Opt) (h : o.numBits ≠ 32) (f : FnDef) (P : Pieces τ) :
    genOne P o.numBits o.numberType f = (if f.hasGen then P.gen o.numBits o.numberType f f.terms.2 else .ok []) ∧
    o.prefix = (if o.language = "c" then "ds64_" else "") ∧ o.floatSuffix = "" := by
  refine ⟨by rw [genOne, if_neg h], by rw [Opt.prefix, if_neg h], ?_⟩
  rw [Opt.floatSuffix, if_neg h]; split <;> rfl

theorem files_bind {α β : Type} (x : Act α) (f : α → Act β) (h1 : filesOf x.effs = [])
    (h2 : ∀ a, x.res = .ok a → filesOf (f a).effs = []) : filesOf (x >>= f).effs = [] := by
  show filesOf (Act.bind x f).effs = []
  unfold Act.bind
  cases hx : x.res with
  | ok a => dsimp only; rw [filesOf_append, h1, h2 a hx]; rfl
  | err e => exact h1
  | panic => exact h1
  | diverge => exact h1

/-- C86: if writing is refused, no file is written and the run fails, after all the work is done. -/
theorem C86_refused (P : Pieces τ) (tbl : List FnDef) (fuel : Nat) (o : Opt) (ho : o.Proper) (hl : o.language ∈ languages)
    (hf : fuelFor tbl (splitNames o.functions) ≤ fuel) (path : String) (hp : o.output = some path) (hc : P.canWrite path = false) :
    (libmgen P tbl fuel o).res ≠ .ok () ∧ filesOf (libmgen P tbl fuel o).effs = [] := by
  constructor
  · intro h
    have := ((C86_writes P tbl fuel o ho hl hf).1.1 h).2 path hp
    rw [hc] at this
    exact Bool.noConfusion this
  · obtain ⟨l, hsel, -⟩ := getFunctions_positions tbl (splitNames o.functions) (splitNames o.exclude) fuel hf
    rw [libmgen_proper P tbl fuel o ho]
    refine files_bind _ _ (by rw [(debug_effs P o).1, debug_no_files]) (fun _ _ => ?_)
    refine files_bind _ _ (notes_no_files _ _ _ _ (getFunctionsAct_effs _ _ _ _ _ hsel)) (fun _ _ => ?_)
    refine files_bind _ _ rfl (fun toks _ => ?_)
    cases backEnd P o.numBits o.language toks with
    | some r =>
      refine files_bind _ _ rfl (fun text _ => ?_)
      unfold writeText
      simp [hp, hc, filesOf]
    | none => dsimp only; split <;> rfl

end Verif
