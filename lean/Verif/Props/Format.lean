import Mathlib.Data.List.Basic
import Mathlib.Data.Nat.Notation
import Verif.Model.Format

/-!
# C43, C44, C77: the Rust formatter
-/

namespace Verif

mutual
/-- The pieces a token is written as: a brace group is taken apart, everything else is written as one piece. -/
def Tok.pieces (toStr : Tok → List Char) : Tok → List (List Char)
  | .group .brace ts => ['{'] :: (Tok.piecesAll toStr ts ++ [['}']])
  | .group .bracket ts => [toStr (.group .bracket ts)]
  | .group .paren ts => [toStr (.group .paren ts)]
  | .group .none ts => [toStr (.group .none ts)]
  | .ident s => [toStr (.ident s)]
  | .punct c => [toStr (.punct c)]
  | .lit s => [toStr (.lit s)]

def Tok.piecesAll (toStr : Tok → List Char) : List Tok → List (List Char)
  | [] => []
  | t :: ts => t.pieces toStr ++ Tok.piecesAll toStr ts
end

mutual
/-- How deeply brace groups are nested, not counting those inside other groups. -/
def Tok.braceDepth : Tok → ℕ
  | .group .brace ts => Tok.braceDepthAll ts + 1
  | _ => 0

def Tok.braceDepthAll : List Tok → ℕ
  | [] => 0
  | t :: ts => max t.braceDepth (Tok.braceDepthAll ts)
end

/-- Nothing but white space. -/
def Blank (s : List Char) : Prop := ∀ c ∈ s, c.isWhitespace = true

/-- The pieces in order, each followed by white space. -/
inductive Spaced : List (List Char) → List Char → Prop
  | nil : Spaced [] []
  | cons {p ps s rest} : Blank s → Spaced ps rest → Spaced (p :: ps) (p ++ s ++ rest)

theorem Spaced.append {ps qs : List (List Char)} {a b : List Char} (h : Spaced ps a) (h' : Spaced qs b) : Spaced (ps ++ qs) (a ++ b) := by
  induction h with
  | nil => simpa using h'
  | cons hs _ ih => simpa using Spaced.cons hs ih

theorem Spaced.one {p s : List Char} (h : Blank s) : Spaced [p] (p ++ s) := by
  simpa using Spaced.cons h .nil

theorem blank_append {a b : List Char} (ha : Blank a) (hb : Blank b) : Blank (a ++ b) := by
  intro c hc
  rcases List.mem_append.1 hc with h | h
  · exact ha c h
  · exact hb c h

theorem blank_spaces (n : ℕ) : Blank (List.replicate n ' ') := by
  intro c hc
  rw [List.eq_of_mem_replicate hc]; rfl

theorem blank_newline : Blank ['\n'] := by
  intro c hc; simp at hc; subst hc; rfl

theorem blank_nil : Blank [] := by intro c hc; simp at hc

theorem indent_eq (d : ℕ) : indent d = if d ≤ 30 then .ok (List.replicate (d * 2) ' ') else .panic := by
  unfold indent
  by_cases h : d ≤ 30
  · rw [if_pos (by omega), if_pos h]
  · rw [if_neg (by omega), if_neg h]

theorem appendOther_spec (text : List Char) (depth : ℕ) (hd : depth ≤ 30) (tok : List Char) :
    ∃ s, appendOther text depth tok = .ok (text ++ (tok ++ s)) ∧ Blank s := by
  unfold appendOther
  simp only [indent_eq, if_pos hd]
  by_cases h : tok = ";".toList
  · rw [if_pos h]
    by_cases h0 : depth = 0
    · refine ⟨"\n".toList ++ "\n".toList ++ List.replicate (depth * 2) ' ', by simp [h0], ?_⟩
      exact blank_append (blank_append blank_newline blank_newline) (blank_spaces _)
    · refine ⟨"\n".toList ++ List.replicate (depth * 2) ' ', by simp [h0], ?_⟩
      exact blank_append blank_newline (blank_spaces _)
  · rw [if_neg h]
    exact ⟨[], by simp, blank_nil⟩

mutual
theorem appendToken_spec (toStr : Tok → List Char) (text : List Char) (depth : ℕ) (hd : depth ≤ 30) (t : Tok) :
    if depth + t.braceDepth ≤ 30 then ∃ out, appendToken toStr text depth t = .ok (text ++ out) ∧ Spaced (t.pieces toStr) out
    else appendToken toStr text depth t = .panic := by
  have whole : ∀ (p s : List Char), Blank s → ∃ out, (Res.ok (text ++ (p ++ s)) : Res (List Char)) = .ok (text ++ out) ∧ Spaced [p] out :=
    fun p s hs => ⟨_, rfl, Spaced.one hs⟩
  match t with
  | .ident s =>
    rw [if_pos (by simpa [Tok.braceDepth] using hd)]
    have : Blank " ".toList := blank_spaces 1
    simpa [appendToken, Tok.pieces] using whole (toStr (.ident s)) _ this
  | .punct c =>
    rw [if_pos (by simpa [Tok.braceDepth] using hd)]
    obtain ⟨s, h, hs⟩ := appendOther_spec text depth hd (toStr (.punct c))
    simpa [appendToken, Tok.pieces, h] using whole (toStr (.punct c)) s hs
  | .lit s =>
    rw [if_pos (by simpa [Tok.braceDepth] using hd)]
    obtain ⟨s', h, hs⟩ := appendOther_spec text depth hd (toStr (.lit s))
    simpa [appendToken, Tok.pieces, h] using whole (toStr (.lit s)) s' hs
  | .group .paren ts =>
    rw [if_pos (by simpa [Tok.braceDepth] using hd)]
    simpa [appendToken, Tok.pieces] using whole (toStr (.group .paren ts)) [] blank_nil
  | .group .none ts =>
    rw [if_pos (by simpa [Tok.braceDepth] using hd)]
    simpa [appendToken, Tok.pieces] using whole (toStr (.group .none ts)) [] blank_nil
  | .group .bracket ts =>
    rw [if_pos (by simpa [Tok.braceDepth] using hd)]
    by_cases h0 : depth = 0
    · simpa [appendToken, Tok.pieces, h0] using whole (toStr (.group .bracket ts)) _ blank_newline
    · simpa [appendToken, Tok.pieces, h0] using whole (toStr (.group .bracket ts)) [] blank_nil
  | .group .brace ts =>
    by_cases hd1 : depth + 1 ≤ 30
    · have ih := appendTokens_spec toStr (text ++ "{\n".toList ++ List.replicate ((depth + 1) * 2) ' ') (depth + 1) hd1 ts
      by_cases hb : depth + 1 + Tok.braceDepthAll ts ≤ 30
      · rw [if_pos hb] at ih
        obtain ⟨out, h1, h2⟩ := ih
        rw [if_pos (by simp only [Tok.braceDepth]; omega)]
        have open' : Spaced [['{']] (['{'] ++ ("\n".toList ++ List.replicate ((depth + 1) * 2) ' ')) :=
          Spaced.one (blank_append blank_newline (blank_spaces _))
        -- the blank before `}` belongs to the last piece before it
        have key : ∀ (ps : List (List Char)) (a s : List Char), ps ≠ [] → Spaced ps a → Blank s → Spaced ps (a ++ s) := by
          intro ps a s hne h hs
          induction h with
          | nil => exact absurd rfl hne
          | @cons p ps s' rest hb' hr ih =>
            by_cases hps : ps = []
            · subst hps
              cases hr
              simpa using Spaced.one (p := p) (blank_append hb' hs)
            · simpa using Spaced.cons (p := p) hb' (ih hps)
        have body : Spaced (['{'] :: Tok.piecesAll toStr ts) ((['{'] ++ ("\n".toList ++ List.replicate ((depth + 1) * 2) ' ')) ++ out ++
            ("\n".toList ++ List.replicate (depth * 2) ' ')) :=
          key _ _ _ (by simp) (open'.append h2) (blank_append blank_newline (blank_spaces _))
        by_cases h0 : depth = 0
        · have close : Spaced [['}']] (['}'] ++ ("\n".toList ++ List.replicate (depth * 2) ' ' ++ "\n".toList)) :=
            Spaced.one (blank_append (blank_append blank_newline (blank_spaces _)) blank_newline)
          refine ⟨_, ?_, by simpa [Tok.pieces] using body.append close⟩
          subst h0
          simp only [appendToken, indent_eq]
          simp at h1
          simp [h1]
        · have close : Spaced [['}']] (['}'] ++ ("\n".toList ++ List.replicate (depth * 2) ' ')) :=
            Spaced.one (blank_append blank_newline (blank_spaces _))
          refine ⟨_, ?_, by simpa [Tok.pieces] using body.append close⟩
          simp only [appendToken, indent_eq, if_pos hd1, if_pos hd, if_neg h0]
          simp at h1
          simp [h1]
      · rw [if_neg hb] at ih
        rw [if_neg (by simp only [Tok.braceDepth]; omega)]
        simp at ih
        simp only [appendToken, indent_eq, if_pos hd1]
        simp [ih]
    · rw [if_neg (by simp only [Tok.braceDepth]; omega)]
      simp only [appendToken, indent_eq, if_neg hd1]
      rfl

theorem appendTokens_spec (toStr : Tok → List Char) (text : List Char) (depth : ℕ) (hd : depth ≤ 30) (ts : List Tok) :
    if depth + Tok.braceDepthAll ts ≤ 30 then
      ∃ out, appendTokens toStr text depth ts = .ok (text ++ out) ∧ Spaced (Tok.piecesAll toStr ts) out
    else appendTokens toStr text depth ts = .panic := by
  match ts with
  | [] =>
    rw [if_pos (by simpa [Tok.braceDepthAll] using hd)]
    exact ⟨[], by simp [appendTokens], by simpa [Tok.piecesAll] using Spaced.nil⟩
  | t :: ts =>
    have h1 := appendToken_spec toStr text depth hd t
    by_cases ht : depth + t.braceDepth ≤ 30
    · rw [if_pos ht] at h1
      obtain ⟨a, ha, hs⟩ := h1
      have h2 := appendTokens_spec toStr (text ++ a) depth hd ts
      by_cases hts : depth + Tok.braceDepthAll ts ≤ 30
      · rw [if_pos hts] at h2
        obtain ⟨b, hb, hs'⟩ := h2
        rw [if_pos (by simp only [Tok.braceDepthAll]; omega)]
        refine ⟨a ++ b, ?_, by simpa [Tok.piecesAll] using hs.append hs'⟩
        simp only [appendTokens, ha]
        simpa using hb
      · rw [if_neg hts] at h2
        rw [if_neg (by simp only [Tok.braceDepthAll]; omega)]
        simp only [appendTokens, ha]
        simpa using h2
    · rw [if_neg ht] at h1
      rw [if_neg (by simp only [Tok.braceDepthAll]; omega)]
      simp only [appendTokens, h1]
      rfl
end

/-- **C43** The text is made of the pieces of the tokens in order, with white space added after some of them. -/
theorem C43_pieces (toStr : Tok → List Char) (ts : List Tok) (text : List Char) (h : formatTokenStream toStr ts = .ok text) :
    Spaced (Tok.piecesAll toStr ts) text := by
  have := appendTokens_spec toStr [] 0 (by omega) ts
  split at this
  · obtain ⟨out, h1, h2⟩ := this
    rw [formatTokenStream, h1] at h
    simpa [← Res.ok.inj h] using h2
  · rw [formatTokenStream, this] at h; cases h

/-- Text without its white space. -/
def squeeze (s : List Char) : List Char := s.filter fun c => !c.isWhitespace

mutual
/-- The tokens written one after the other. -/
def Tok.flat : Tok → List Char
  | .ident s => s
  | .punct c => [c]
  | .lit s => s
  | .group .paren ts => '(' :: (Tok.flatAll ts ++ [')'])
  | .group .bracket ts => '[' :: (Tok.flatAll ts ++ [']'])
  | .group .brace ts => '{' :: (Tok.flatAll ts ++ ['}'])
  | .group .none ts => Tok.flatAll ts

def Tok.flatAll : List Tok → List Char
  | [] => []
  | t :: ts => t.flat ++ Tok.flatAll ts
end

theorem squeeze_append (a b : List Char) : squeeze (a ++ b) = squeeze a ++ squeeze b := by simp [squeeze]

theorem squeeze_blank {s : List Char} (h : Blank s) : squeeze s = [] := by
  simp only [squeeze, List.filter_eq_nil_iff]
  intro c hc
  simp [h c hc]

theorem Spaced.squeeze {ps : List (List Char)} {a : List Char} (h : Spaced ps a) : Verif.squeeze a = Verif.squeeze ps.flatten := by
  induction h with
  | nil => rfl
  | cons hs _ ih => simp [squeeze_append, squeeze_blank hs, ih]

mutual
theorem squeeze_pieces (toStr : Tok → List Char) (hT : ∀ t, squeeze (toStr t) = squeeze t.flat) (t : Tok) :
    squeeze (t.pieces toStr).flatten = squeeze t.flat := by
  match t with
  | .group .brace ts =>
    have ih := squeeze_piecesAll toStr hT ts
    have e1 : (Tok.pieces toStr (.group .brace ts)).flatten = ['{'] ++ (Tok.piecesAll toStr ts).flatten ++ ['}'] := by simp [Tok.pieces]
    have e2 : (Tok.group .brace ts).flat = ['{'] ++ Tok.flatAll ts ++ ['}'] := by simp [Tok.flat]
    rw [e1, e2, squeeze_append, squeeze_append, squeeze_append, squeeze_append, ih]
  | .ident s => simpa [Tok.pieces] using hT (.ident s)
  | .punct s => simpa [Tok.pieces] using hT (.punct s)
  | .lit s => simpa [Tok.pieces] using hT (.lit s)
  | .group .paren ts => simpa [Tok.pieces] using hT (.group .paren ts)
  | .group .bracket ts => simpa [Tok.pieces] using hT (.group .bracket ts)
  | .group .none ts => simpa [Tok.pieces] using hT (.group .none ts)

theorem squeeze_piecesAll (toStr : Tok → List Char) (hT : ∀ t, squeeze (toStr t) = squeeze t.flat) (ts : List Tok) :
    squeeze (Tok.piecesAll toStr ts).flatten = squeeze (Tok.flatAll ts) := by
  match ts with
  | [] => rfl
  | t :: ts =>
    have h1 := squeeze_pieces toStr hT t
    have h2 := squeeze_piecesAll toStr hT ts
    simp only [Tok.piecesAll, Tok.flatAll, List.flatten_append, squeeze_append, h1, h2]
end

/-- **C43** Up to white space the text is the tokens one after the other, when that is so for `to_string`. -/
theorem C43_white_space_only (toStr : Tok → List Char) (hT : ∀ t, squeeze (toStr t) = squeeze t.flat) (ts : List Tok) (text : List Char)
    (h : formatTokenStream toStr ts = .ok text) : squeeze text = squeeze (Tok.flatAll ts) := by
  rw [(C43_pieces toStr ts text h).squeeze, squeeze_piecesAll toStr hT]

/-- **C44** Formatting panics exactly when some brace group lies inside thirty others, and otherwise returns. -/
theorem C44_panics_iff (toStr : Tok → List Char) (ts : List Tok) : formatTokenStream toStr ts = .panic ↔ 30 < Tok.braceDepthAll ts := by
  have := appendTokens_spec toStr [] 0 (by omega) ts
  split at this
  · obtain ⟨out, h1, _⟩ := this
    rw [formatTokenStream, h1]
    constructor
    · intro h; cases h
    · intro h; omega
  · rw [formatTokenStream, this]
    constructor
    · intro _; omega
    · intro _; rfl

theorem C44_returns (toStr : Tok → List Char) (ts : List Tok) (h : Tok.braceDepthAll ts ≤ 30) : ∃ text, formatTokenStream toStr ts = .ok text := by
  have := appendTokens_spec toStr [] 0 (by omega) ts
  rw [if_pos (by omega)] at this
  obtain ⟨out, h1, _⟩ := this
  exact ⟨_, h1⟩

/-- `const X : f32 = 1 ;  fn f ( ) { X }`. -/
def exampleToks : List Tok := [.ident "const".toList, .ident "X".toList, .punct ':', .ident "f32".toList, .punct '=', .lit "1".toList, .punct ';',
  .ident "fn".toList, .ident "f".toList, .group .paren [], .group .brace [.ident "X".toList]]

example : formatTokenStream Tok.flat exampleToks = .ok "const X :f32 =1;\n\nfn f (){\n  X \n}\n\n".toList := by rfl

example : ∀ t, squeeze (Tok.flat t) = squeeze t.flat := fun _ => rfl

/-! ## C77: the tokens stay apart -/

/-- The first word of a text, up to the first character that cannot be in a word or number: what Rust's lexer takes as a number literal together with
its suffix, when the text begins with a digit. -/
def firstWord (s : List Char) : List Char := s.takeWhile fun c => c.isAlphanum || c == '_'

/-- **C77** (identifiers.)  An identifier is read back as itself, whatever follows.
Full claim: the same for every token; false for literals, see `C77_literal_joins`. -/
theorem C77_ident_partial (toStr : Tok → List Char) (s : List Char) (hs : ∀ c ∈ toStr (.ident s), (c.isAlphanum || c == '_') = true) (ts : List Tok)
    (text : List Char) (h : formatTokenStream toStr (.ident s :: ts) = .ok text) : firstWord text = toStr (.ident s) := by
  have := appendTokens_spec toStr (toStr (.ident s) ++ " ".toList) 0 (by omega) ts
  simp only [formatTokenStream, appendTokens, appendToken, Res.pure_eq, Res.bind_eq_ok, List.nil_append] at h
  obtain ⟨t, h1, h⟩ := h
  cases h1
  split at this
  · obtain ⟨out, h2, _⟩ := this
    rw [h2] at h
    rw [← Res.ok.inj h, firstWord, List.append_assoc, List.takeWhile_append_of_pos hs]
    simp [Char.isAlphanum, Char.isAlpha, Char.isUpper, Char.isLower, Char.isDigit]
  · rw [this] at h; cases h

/-- **C77** is false: after a literal there is none, so a number followed by `as` is read as a number with the suffix `as`. -/
theorem C77_literal_joins (depth : ℕ) (hd : depth ≤ 30) :
    ∃ text, appendTokens Tok.flat [] depth [.lit "1".toList, .ident "as".toList, .ident "u32".toList] = .ok text ∧
      firstWord text = "1as".toList ∧ firstWord text ≠ (Tok.lit "1".toList).flat := by
  refine ⟨"1as u32 ".toList, ?_, by decide, by decide⟩
  rfl

end Verif
