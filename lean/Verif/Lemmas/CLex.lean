import Verif.Spec.CTokens
import Verif.Lemmas.Grammar
import Mathlib.Tactic.Lemma

/-!
# The lexer on the text of the C generator
-/

namespace Verif

variable {tys : List String}

/-- The text ends here, or goes on with a character that is part of no word. -/
def WordEnd (s : List Char) : Prop := s = [] ∨ ∃ c r, s = c :: r ∧ c ∈ [' ', '\n', ')', ',', '(']

theorem wordEnd_cons {c : Char} {r : List Char} (h : c ∈ [' ', '\n', ')', ',', '(']) : WordEnd (c :: r) := .inr ⟨c, r, rfl, h⟩

theorem wordEnd_not_ident {c : Char} (h : c ∈ [' ', '\n', ')', ',', '(']) : isIdentChar c = false ∧ c ≠ '.' ∧ c ≠ '+' ∧ c ≠ '-' := by
  revert h
  simp only [List.mem_cons, List.not_mem_nil, or_false]
  rintro (rfl | rfl | rfl | rfl | rfl) <;> decide

theorem lexes_nil : LexesTo tys [] [] := ⟨0, fun n _ => by cases n <;> simp [lexC]⟩

theorem lexes_step {c : Char} {cs r : List Char} {ts : List (PTok CWord)} {f : List (PTok CWord) → List (PTok CWord)} (hr : LexesTo tys r ts)
    (h : ∀ n, lexC tys (n + 1) (c :: cs) = (lexC tys n r).map f) : LexesTo tys (c :: cs) (f ts) := by
  obtain ⟨n₀, hn⟩ := hr
  refine ⟨n₀ + 1, fun n hge => ?_⟩
  obtain ⟨m, rfl⟩ : ∃ m, n = m + 1 := ⟨n - 1, by omega⟩
  rw [h, hn m (by omega)]
  rfl

theorem lexes_space {c : Char} {r : List Char} {ts : List (PTok CWord)} (hc : c = ' ' ∨ c = '\n') (hr : LexesTo tys r ts) : LexesTo tys (c :: r) ts := by
  refine lexes_step (f := id) hr fun n => ?_
  rw [lexC, if_pos hc]
  simp

theorem takeWhile_ident (w rest : List Char) (hw : w.all isIdentChar = true) (hr : WordEnd rest) :
    (w ++ rest).takeWhile isIdentChar = w ∧ (w ++ rest).dropWhile isIdentChar = rest := by
  have h0 : rest.takeWhile isIdentChar = [] ∧ rest.dropWhile isIdentChar = rest := by
    rcases hr with rfl | ⟨c, r, rfl, hc⟩
    · simp
    · simp [(wordEnd_not_ident hc).1]
  have hw' : ∀ a ∈ w, isIdentChar a = true := by simpa using hw
  rw [List.takeWhile_append_of_pos hw', List.dropWhile_append_of_pos hw', h0.1, h0.2]
  simp

theorem identStart_char {c : Char} (h : isIdentStart c = true) : isIdentChar c = true ∧ c ≠ ' ' ∧ c ≠ '\n' := by
  refine ⟨?_, ?_, ?_⟩
  · simp only [isIdentStart, isIdentChar, Char.isAlphanum, Bool.or_eq_true] at h ⊢
    tauto
  · rintro rfl; revert h; decide
  · rintro rfl; revert h; decide

/-- What makes a string an identifier. -/
theorem ident_parts {s : String} (h : (match s.toList with
  | [] => false
  | c :: cs => isIdentStart c && cs.all isIdentChar) = true) :
    ∃ c cs, s.toList = c :: cs ∧ isIdentStart c = true ∧ (c :: cs).all isIdentChar = true := by
  cases hs : s.toList with
  | nil => simp [hs] at h
  | cons c cs =>
    simp only [hs, Bool.and_eq_true] at h
    refine ⟨c, cs, rfl, h.1, ?_⟩
    simp only [List.all_cons, Bool.and_eq_true]
    exact ⟨(identStart_char h.1).1, h.2⟩

theorem lexes_word (w : String) (rest : List Char) (ts : List (PTok CWord)) (hw : (match w.toList with
  | [] => false
  | c :: cs => isIdentStart c && cs.all isIdentChar) = true) (hd : WordEnd rest) (hr : LexesTo tys rest ts) :
    LexesTo tys (w.toList ++ rest) (if w ∈ cTypeWords ∨ w ∈ tys then consType w ts else .word (.text w) :: ts) := by
  obtain ⟨c, cs, h1, h2, h3⟩ := ident_parts hw
  have ht := takeWhile_ident (c :: cs) rest h3 hd
  have hofl : String.ofList (c :: cs) = w := by rw [← h1, String.ofList_toList]
  rw [h1, List.cons_append]
  rw [List.cons_append] at ht
  by_cases hty : w ∈ cTypeWords ∨ w ∈ tys
  · rw [if_pos hty]
    refine lexes_step hr fun n => ?_
    rw [lexC, if_neg (by simp [(identStart_char h2).2]), if_pos h2]
    simp only [ht.1, ht.2, hofl]
    rw [if_pos hty]
  · rw [if_neg hty]
    refine lexes_step hr fun n => ?_
    rw [lexC, if_neg (by simp [(identStart_char h2).2]), if_pos h2]
    simp only [ht.1, ht.2, hofl]
    rw [if_neg hty]

theorem lexes_ident (w : String) (rest : List Char) (ts : List (PTok CWord)) (hw : isCIdent tys w = true) (hd : WordEnd rest) (hr : LexesTo tys rest ts) :
    LexesTo tys (w.toList ++ rest) (.word (.text w) :: ts) := by
  simp only [isCIdent, Bool.and_eq_true, Bool.not_eq_true', List.contains_eq_mem, decide_eq_false_iff_not] at hw
  have := lexes_word w rest ts hw.1.1 hd hr
  rwa [if_neg (by tauto)] at this

theorem takeNumber_append (e : Bool) (ds rest : List Char) (h : (takeNumber e ds).2.isEmpty = true) (hd : WordEnd rest) :
    takeNumber e (ds ++ rest) = (ds, rest) := by
  induction ds generalizing e with
  | nil =>
    rcases hd with rfl | ⟨c, r, rfl, hc⟩
    · rfl
    · have := wordEnd_not_ident hc
      simp [takeNumber, this]
  | cons c cs ih =>
    rw [takeNumber] at h
    rw [List.cons_append, takeNumber]
    split at h
    · rename_i hcond
      rw [if_pos hcond, ih _ h]
    · simp at h

theorem digit_facts {c : Char} (h : c.isDigit = true) : isIdentStart c = false ∧ c ≠ ' ' ∧ c ≠ '\n' := by
  refine ⟨?_, ?_, ?_⟩
  · simp only [isIdentStart, Bool.or_eq_false_iff, beq_eq_false_iff_ne]
    refine ⟨?_, ?_⟩
    · simp only [Char.isDigit, Char.isAlpha, Char.isUpper, Char.isLower, Bool.and_eq_true, decide_eq_true_eq, Bool.or_eq_false_iff, Bool.and_eq_false_imp,
        decide_eq_false_iff_not, ge_iff_le, UInt32.le_iff_toNat_le, UInt32.lt_iff_toNat_lt, not_le] at h ⊢
      simp only [Char.toNat_val] at h ⊢
      have h0 : '0'.toNat = 48 := rfl
      have h9 : '9'.toNat = 57 := rfl
      have hA : 'A'.toNat = 65 := rfl
      have hZ : 'Z'.toNat = 90 := rfl
      have ha : 'a'.toNat = 97 := rfl
      have hz : 'z'.toNat = 122 := rfl
      constructor <;> omega
    · rintro rfl; revert h; decide
  · rintro rfl; revert h; decide
  · rintro rfl; revert h; decide

theorem lexes_number (ds rest : List Char) (ts : List (PTok CWord)) (h : isCNumber ds = true) (hd : WordEnd rest) (hr : LexesTo tys rest ts) :
    LexesTo tys (ds ++ rest) (.word (.text (String.ofList ds)) :: ts) := by
  cases ds with
  | nil => simp [isCNumber] at h
  | cons c cs =>
    simp only [isCNumber, Bool.and_eq_true] at h
    have hf := digit_facts h.1
    have ht := takeNumber_append false (c :: cs) rest h.2 hd
    rw [List.cons_append] at ht ⊢
    refine lexes_step hr fun n => ?_
    rw [lexC, if_neg (by simp [hf.2]), if_neg (by simp [hf.1]), if_pos h.1]
    simp only [ht]

theorem lexes_punct (c : Char) (cs r : List Char) (p : String) (ts : List (PTok CWord)) (h1 : c ≠ ' ' ∧ c ≠ '\n') (h2 : isIdentStart c = false)
    (h3 : c.isDigit = false) (h4 : ¬ (c = '/' ∧ (cs.head? = some '/' ∨ cs.head? = some '*'))) (h5 : takePunct (c :: cs) = some (p, r)) (hr : LexesTo tys r ts) :
    LexesTo tys (c :: cs) (punctTok p :: ts) := by
  refine lexes_step hr fun n => ?_
  rw [lexC, if_neg (by simp [h1]), if_neg (by simp [h2]), if_neg (by simp [h3]), if_neg h4, h5]

theorem lexes_lpar (r : List Char) (ts : List (PTok CWord)) (hr : LexesTo tys r ts) : LexesTo tys ('(' :: r) (.lpar :: ts) :=
  lexes_punct '(' r r "(" ts (by decide) (by decide) (by decide) (by simp) rfl hr

theorem lexes_rpar (r : List Char) (ts : List (PTok CWord)) (hr : LexesTo tys r ts) : LexesTo tys (')' :: r) (.rpar :: ts) :=
  lexes_punct ')' r r ")" ts (by decide) (by decide) (by decide) (by simp) rfl hr

theorem lexes_comma (r : List Char) (ts : List (PTok CWord)) (hr : LexesTo tys r ts) : LexesTo tys (',' :: r) (.comma :: ts) :=
  lexes_punct ',' r r "," ts (by decide) (by decide) (by decide) (by simp) rfl hr

theorem binop_punct (op : BinOp) : ∃ c cs, op.sym.toList = c :: cs ∧ (c ≠ ' ' ∧ c ≠ '\n') ∧ isIdentStart c = false ∧ c.isDigit = false ∧
    ¬ (c = '/' ∧ ((cs ++ [' ']).head? = some '/' ∨ (cs ++ [' ']).head? = some '*')) ∧
    (∀ r : List Char, takePunct (c :: (cs ++ ' ' :: r)) = some (op.sym, ' ' :: r)) ∧ punctTok op.sym = .op op.sym := by
  cases op <;> exact ⟨_, _, rfl, by decide, by decide, by decide, by decide, fun _ => rfl, by simp [punctTok, BinOp.sym]⟩

/-- Infix operators, between spaces. -/
theorem lexes_binop (op : BinOp) (r : List Char) (ts : List (PTok CWord)) (hr : LexesTo tys r ts) :
    LexesTo tys (op.sym.toList ++ ' ' :: r) (.op op.sym :: ts) := by
  obtain ⟨c, cs, h0, h1, h2, h3, h4, h5, h6⟩ := binop_punct op
  rw [h0, List.cons_append]
  have h7 : (cs ++ ' ' :: r).head? = (cs ++ [' ']).head? := by cases cs <;> rfl
  have := lexes_punct c (cs ++ ' ' :: r) _ _ ts h1 h2 h3 (h7 ▸ h4) (h5 r) (lexes_space (.inl rfl) hr)
  rwa [h6] at this

theorem lexes_assign (r : List Char) (ts : List (PTok CWord)) (hr : LexesTo tys r ts) : LexesTo tys ('=' :: ' ' :: r) (.op "=" :: ts) :=
  lexes_punct _ _ _ "=" ts (by decide) (by decide) (by decide) (by simp) rfl (lexes_space (.inl rfl) hr)

/-- Prefix operators; what follows must not extend them. -/
theorem lexes_unop (op : UnOp) (c : Char) (r : List Char) (ts : List (PTok CWord)) (h1 : c ≠ '=') (h2 : c ≠ '>') (h3 : op = .neg → c ≠ '-')
    (hr : LexesTo tys (c :: r) ts) : LexesTo tys (op.sym.toList ++ c :: r) (.op op.sym :: ts) := by
  have e1 : ['='].isPrefixOf (c :: r) = false := by simpa [List.isPrefixOf] using h1.symm
  have e2 : ['>'].isPrefixOf (c :: r) = false := by simpa [List.isPrefixOf] using h2.symm
  cases op with
  | deref =>
    refine lexes_punct '*' _ (c :: r) "*" ts (by decide) (by decide) (by decide) (by simp) ?_ hr
    simp only [takePunct, cPuncts, List.find?, List.isPrefixOf, String.reduceToList]
    simp [e1]
    rfl
  | not =>
    refine lexes_punct '!' _ (c :: r) "!" ts (by decide) (by decide) (by decide) (by simp) ?_ hr
    simp only [takePunct, cPuncts, List.find?, List.isPrefixOf, String.reduceToList]
    simp [e1]
    rfl
  | neg =>
    refine lexes_punct '-' _ (c :: r) "-" ts (by decide) (by decide) (by decide) (by simp) ?_ hr
    have e3 : ['-'].isPrefixOf (c :: r) = false := by simpa [List.isPrefixOf] using (h3 rfl).symm
    simp only [takePunct, cPuncts, List.find?, List.isPrefixOf, String.reduceToList]
    simp [e1, e2, e3]
    rfl

/-- Types, before a closing parenthesis. -/
theorem lexes_type (t : String) (r : List Char) (ts : List (PTok CWord)) (ht : isCType tys t = true) (hr : LexesTo tys (')' :: r) (.rpar :: ts)) :
    LexesTo tys (t.toList ++ ')' :: r) (.ty (.text t) :: .rpar :: ts) := by
  have hd : WordEnd (')' :: r) := wordEnd_cons (by decide)
  have hb : ∀ (w : String) (s : List Char) (us : List (PTok CWord)), (match w.toList with
      | [] => false
      | c :: cs => isIdentStart c && cs.all isIdentChar) = true → w ∈ cTypeWords → WordEnd s → LexesTo tys s us → LexesTo tys (w.toList ++ s) (consType w us) := by
    intro w s us h1 h2 h3 h4
    have := lexes_word w s us h1 h3 h4
    rwa [if_pos (.inl h2)] at this
  have hsp : ∀ s : List Char, WordEnd (' ' :: s) := fun s => wordEnd_cons (by decide)
  simp only [isCType, Bool.or_eq_true, Bool.and_eq_true, List.contains_eq_mem, decide_eq_true_eq] at ht
  rcases ht with h | ⟨h1, h2⟩
  · simp only [List.mem_cons, List.not_mem_nil, or_false] at h
    rcases h with rfl | rfl | rfl | rfl | rfl | rfl
    · exact hb "int" _ _ rfl (by decide) hd hr
    · exact hb "long" _ _ rfl (by decide) (hsp _) (lexes_space (.inl rfl) (hb "long" _ _ rfl (by decide) hd hr))
    · exact hb "unsigned" _ _ rfl (by decide) (hsp _) (lexes_space (.inl rfl) (hb "int" _ _ rfl (by decide) hd hr))
    · exact hb "unsigned" _ _ rfl (by decide) (hsp _) (lexes_space (.inl rfl) (hb "long" _ _ rfl (by decide) (hsp _)
        (lexes_space (.inl rfl) (hb "long" _ _ rfl (by decide) hd hr))))
    · exact hb "float" _ _ rfl (by decide) hd hr
    · exact hb "double" _ _ rfl (by decide) hd hr
  · have := lexes_word t _ _ h1 hd hr
    rwa [if_pos (.inr h2)] at this

/-- The text of further arguments. -/
def restText : List String → List Char
  | [] => []
  | s :: ss => ',' :: ' ' :: (s.toList ++ restText ss)

theorem intercalate_rest (s : String) (ss : List String) : (", ".intercalate (s :: ss)) = s ++ String.ofList (restText ss) := by
  induction ss generalizing s with
  | nil => simp [restText]
  | cons a ss ih =>
    rw [String.intercalate_cons_cons, ih]
    apply String.toList_injective
    simp [restText]

theorem wordEnd_rest (o : COptions) (es : List RExpr) (rest : List Char) : WordEnd (restText (RExpr.cTexts o es) ++ ')' :: rest) := by
  cases es with
  | nil => exact wordEnd_cons (by decide)
  | cons e es => exact wordEnd_cons (by decide)

theorem cText_call (o : COptions) (p : Name) (args : List RExpr) (h : "_".intercalate p ≠ "fty_from_bits") :
    (RExpr.call (.path p) args).cText o = o.pre ++ "_".intercalate p ++ "(" ++ ", ".intercalate (RExpr.cTexts o args) ++ ")" := by
  have : (RExpr.path p).cText o = "_".intercalate p := rfl
  rw [RExpr.cText, if_neg (this ▸ h), this]

/-- The first character of the text of an expression. -/
theorem cText_head (o : COptions) (e : RExpr) (hw : e.cWords tys o = true) (hs : e.cShape = true) : ∃ c cs, (e.cText o).toList = c :: cs ∧
    (isIdentStart c = true ∨ c.isDigit = true ∨ c ∈ ['(', '!', '*', '-']) ∧ (c = '-' → e.leadsMinus = true) := by
  have hidm : ∀ c, isIdentStart c = true → c = '-' → False := by rintro c h rfl; revert h; decide
  have hdm : ∀ c, Char.isDigit c = true → c = '-' → False := by rintro c h rfl; revert h; decide
  have hid : ∀ (s : String) (t : List Char) (P : Prop), isCIdent tys s = true → ∃ c cs, s.toList ++ t = c :: cs ∧
      (isIdentStart c = true ∨ c.isDigit = true ∨ c ∈ ['(', '!', '*', '-']) ∧ (c = '-' → P) := by
    intro s t P h
    simp only [isCIdent, Bool.and_eq_true] at h
    obtain ⟨c, cs, h1, h2, _⟩ := ident_parts h.1.1
    exact ⟨c, cs ++ t, by rw [h1]; rfl, .inl h2, fun h => (hidm c h2 h).elim⟩
  have hnum : ∀ (ds : List Char) (P : Prop), isCNumber ds = true → ∃ c cs, ds = c :: cs ∧
      (isIdentStart c = true ∨ c.isDigit = true ∨ c ∈ ['(', '!', '*', '-']) ∧ (c = '-' → P) := by
    intro ds P h
    cases ds with
    | nil => simp [isCNumber] at h
    | cons c cs =>
      simp only [isCNumber, Bool.and_eq_true] at h
      exact ⟨c, cs, rfl, .inr (.inl h.1), fun h' => (hdm c h.1 h').elim⟩
  match e with
  | .lit l =>
    simp only [RExpr.cWords] at hw
    cases l with
    | int ds s =>
      simp only [RExpr.cText, cLit, String.toList_ofList, RExpr.leadsMinus]
      unfold Lit.cWords at hw
      split at hw
      · rename_i h; cases h; exact ⟨'-', _, rfl, .inr (.inr (by decide)), fun _ => rfl⟩
      · rename_i h; cases h
      · rename_i h; cases h; exact hnum _ _ hw
      · rename_i h; cases h
      · cases hw
    | float ds s =>
      simp only [RExpr.cText, cLit, String.toList_ofList, RExpr.leadsMinus]
      unfold Lit.cWords at hw
      split at hw
      · rename_i h; cases h
      · rename_i h; cases h; exact ⟨'-', _, rfl, .inr (.inr (by decide)), fun _ => rfl⟩
      · rename_i h; cases h
      · rename_i h; cases h; exact hnum _ _ hw
      · cases hw
    | bool b => simp [Lit.cWords] at hw
    | other k => simp [Lit.cWords] at hw
  | .path p =>
    simp only [RExpr.cWords] at hw
    have := hid _ [] ((RExpr.path p).leadsMinus = true) hw
    simpa [RExpr.cText, cPath] using this
  | .unary op e =>
    cases op with
    | deref => exact ⟨'*', _, by simp [RExpr.cText, cUnOp]; rfl, .inr (.inr (by decide)), fun h => absurd h (by decide)⟩
    | not => exact ⟨'!', _, by simp [RExpr.cText, cUnOp]; rfl, .inr (.inr (by decide)), fun h => absurd h (by decide)⟩
    | neg => exact ⟨'-', _, by simp [RExpr.cText, cUnOp]; rfl, .inr (.inr (by decide)), fun _ => rfl⟩
  | .binary l op r =>
    simp only [RExpr.cWords, Bool.and_eq_true] at hw
    simp only [RExpr.cShape, Bool.and_eq_true] at hs
    obtain ⟨c, cs, h1, h2, h3⟩ := cText_head o l hw.1 hs.1.2
    exact ⟨c, _, by simp only [RExpr.cText, String.toList_append, h1, List.cons_append]; rfl, h2, h3⟩
  | .method r m args =>
    simp only [RExpr.cWords, Bool.and_eq_true, Bool.or_eq_true, beq_iff_eq] at hw
    simp only [RExpr.cShape, Bool.and_eq_true] at hs
    simp only [RExpr.cText]
    by_cases hm : m = "round"
    · subst hm
      rw [if_pos rfl]
      have hi := hw.2.resolve_left (by decide)
      rw [if_pos rfl] at hi
      have := hid _ (("(" ++ ", ".intercalate (r.cText o :: RExpr.cTexts o args) ++ ")").toList) ((RExpr.method r "round" args).leadsMinus = true) hi
      simpa only [String.append_assoc, String.toList_append, List.append_assoc] using this
    · rw [if_neg hm]
      by_cases hm' : m = "mul_add"
      · rw [if_pos hm']
        have hlen : args.length = 2 := by simpa [hm'] using hs.2
        match args with
        | [b, c] => exact ⟨'(', _, by simp [RExpr.cTexts]; rfl, .inr (.inr (by decide)), fun h => absurd h (by decide)⟩
      · rw [if_neg hm']
        have hi := hw.2.resolve_left hm'
        rw [if_neg hm] at hi
        have := hid _ (("(" ++ ", ".intercalate (r.cText o :: RExpr.cTexts o args) ++ ")").toList) ((RExpr.method r m args).leadsMinus = true) hi
        simpa only [String.append_assoc, String.toList_append, List.append_assoc] using this
  | .call (.path p) args =>
    simp only [RExpr.cWords, Bool.and_eq_true] at hw
    rw [cText_call o p args (by simpa [isFromBits] using hw.1.1)]
    have := hid _ (("(" ++ ", ".intercalate (RExpr.cTexts o args) ++ ")").toList) ((RExpr.call (.path p) args).leadsMinus = true) hw.1.2
    simpa only [String.append_assoc, String.toList_append, List.append_assoc] using this
  | .paren e => exact ⟨'(', _, by simp [RExpr.cText]; rfl, .inr (.inr (by decide)), fun h => absurd h (by decide)⟩
  | .cast e t => exact ⟨'(', _, by simp [RExpr.cText]; rfl, .inr (.inr (by decide)), fun h => absurd h (by decide)⟩
  | .assign l r =>
    have hl : l.cShape = true := by cases l <;> simp_all [RExpr.cShape]
    simp only [RExpr.cWords, Bool.and_eq_true] at hw
    obtain ⟨c, cs, h1, h2, h3⟩ := cText_head o l hw.1 hl
    exact ⟨c, _, by simp only [RExpr.cText, String.toList_append, h1, List.cons_append]; rfl, h2, h3⟩
  | .assignOp l op r =>
    have hl : l.cShape = true := by cases l <;> simp_all [RExpr.cShape]
    simp only [RExpr.cWords, Bool.and_eq_true] at hw
    obtain ⟨c, cs, h1, h2, h3⟩ := cText_head o l hw.1 hl
    exact ⟨c, _, by simp only [RExpr.cText, String.toList_append, h1, List.cons_append]; rfl, h2, h3⟩
  | .ifElse .. | .block .. | .ifThen .. | .array .. | .tuple .. | .verbatim | .other .. => simp [RExpr.cWords] at hw
  | .call (.lit _) _ | .call (.unary ..) _ | .call (.binary ..) _ | .call (.method ..) _ | .call (.call ..) _ | .call (.paren _) _ | .call (.cast ..) _
  | .call (.ifThen ..) _ | .call (.ifElse ..) _ | .call (.block _) _ | .call (.assign ..) _ | .call (.assignOp ..) _ | .call (.array _) _ | .call (.tuple _) _
  | .call .verbatim _ | .call (.other _) _ => simp [RExpr.cShape] at hs

theorem head_safe {c : Char} (h : isIdentStart c = true ∨ c.isDigit = true ∨ c ∈ ['(', '!', '*', '-']) : c ≠ '=' ∧ c ≠ '>' := by
  constructor <;> (rintro rfl; revert h; decide)

theorem cUnOp_sym (op : UnOp) : cUnOp op = op.sym := by cases op <;> rfl

theorem cBinOp_sym (op : BinOp) : cBinOp op = op.sym := by cases op <;> rfl

theorem lexes_lit (l : Lit) (rest : List Char) (ts : List (PTok CWord)) (hw : l.cWords = true) (hd : WordEnd rest) (hr : LexesTo tys rest ts) :
    LexesTo tys ((cLit l).toList ++ rest) (l.cTree.print cLang ++ ts) := by
  have hneg : ∀ ds : List Char, isCNumber ds = true →
      LexesTo tys (('-' :: ds) ++ rest) (.op "-" :: .word (.text (String.ofList ds)) :: ts) := by
    intro ds h
    have h1 := lexes_number (tys := tys) ds rest ts h hd hr
    cases ds with
    | nil => simp [isCNumber] at h
    | cons c cs =>
      simp only [isCNumber, Bool.and_eq_true] at h
      have hs := head_safe (c := c) (.inr (.inl h.1))
      exact lexes_unop .neg c (cs ++ rest) _ hs.1 hs.2 (by rintro _ rfl; exact absurd h.1 (by decide)) h1
  unfold Lit.cWords at hw
  split at hw
  · simpa [cLit, Lit.cTree, PExpr.print] using hneg _ hw
  · simpa [cLit, Lit.cTree, PExpr.print] using hneg _ hw
  · rename_i ds s hne
    have : Lit.cTree (.int ds s) = .atom (.text (String.ofList ds)) := by
      unfold Lit.cTree
      split
      · rename_i h; cases h; exact (hne _ rfl).elim
      · rename_i h; cases h
      · rename_i h; cases h; rfl
      · rename_i h; cases h
      · rename_i h _; exact absurd rfl (h _ _)
    rw [this]
    simpa [cLit, PExpr.print] using lexes_number ds rest ts hw hd hr
  · rename_i ds s hne
    have : Lit.cTree (.float ds s) = .atom (.text (String.ofList ds)) := by
      unfold Lit.cTree
      split
      · rename_i h; cases h
      · rename_i h; cases h; exact (hne _ rfl).elim
      · rename_i h; cases h
      · rename_i h; cases h; rfl
      · rename_i h; exact absurd rfl (h _ _)
    rw [this]
    simpa [cLit, PExpr.print] using lexes_number ds rest ts hw hd hr
  · cases hw

mutual
/-- The text of an expression has the tokens of its C tree. -/
theorem lexes_expr (o : COptions) (e : RExpr) (hw : e.cWords tys o = true) (hs : e.cShape = true) (rest : List Char) (ts : List (PTok CWord)) (hd : WordEnd rest)
    (hr : LexesTo tys rest ts) : LexesTo tys ((e.cText o).toList ++ rest) ((e.cTree o).print cLang ++ ts) := by
  match e with
  | .lit l => exact lexes_lit l rest ts (by simpa [RExpr.cWords] using hw) hd hr
  | .path p =>
    simp only [RExpr.cWords] at hw
    exact lexes_ident _ rest ts hw hd hr
  | .unary op e =>
    simp only [RExpr.cWords, Bool.and_eq_true, Bool.not_eq_true', Bool.and_eq_false_imp, beq_iff_eq] at hw
    simp only [RExpr.cShape] at hs
    have ih := lexes_expr o e hw.1 hs rest ts hd hr
    obtain ⟨c, cs, h1, h2, h3⟩ := cText_head o e hw.1 hs
    simp only [RExpr.cText, RExpr.cTree, PExpr.print, String.toList_append, cUnOp_sym, List.append_assoc, List.cons_append]
    rw [h1, List.cons_append] at ih ⊢
    refine lexes_unop op c _ _ (head_safe h2).1 (head_safe h2).2 ?_ ih
    intro hop hc
    have := hw.2 hop
    rw [h3 hc] at this
    cases this
  | .binary l op r =>
    simp only [RExpr.cWords, Bool.and_eq_true] at hw
    simp only [RExpr.cShape, Bool.and_eq_true] at hs
    have ihr := lexes_expr o r hw.2 hs.2 rest ts hd hr
    have hop := lexes_space (.inl rfl) (lexes_binop op _ _ ihr)
    have ihl := lexes_expr o l hw.1 hs.1.2 _ _ (wordEnd_cons (by decide)) hop
    simpa [RExpr.cText, RExpr.cTree, PExpr.print, cBinOp_sym, List.append_assoc] using ihl
  | .method r m args =>
    simp only [RExpr.cWords, Bool.and_eq_true, Bool.or_eq_true, beq_iff_eq] at hw
    simp only [RExpr.cShape, Bool.and_eq_true] at hs
    have hcall : ∀ name : String, isCIdent tys name = true →
        LexesTo tys ((name ++ "(" ++ ", ".intercalate (r.cText o :: RExpr.cTexts o args) ++ ")").toList ++ rest)
          (PTok.word (.text name) :: .lpar :: ((r.cTree o).print cLang ++ (PExpr.printRest cLang (RExpr.cTrees o args) ++ .rpar :: ts))) := by
      intro name hn
      have hrest := lexes_rest o args hw.1.2 hs.1.2 rest ts (lexes_rpar _ _ hr)
      have ihr := lexes_expr o r hw.1.1 hs.1.1 _ _ (wordEnd_rest o args rest) hrest
      have := lexes_ident name _ _ hn (wordEnd_cons (by decide)) (lexes_lpar _ _ ihr)
      rw [intercalate_rest]
      simpa [List.append_assoc] using this
    simp only [RExpr.cText, RExpr.cTree]
    by_cases hm : m = "round"
    · subst hm
      have hi := hw.2.resolve_left (by decide)
      rw [if_pos rfl] at hi
      rw [if_pos rfl, if_neg (by decide), if_pos rfl]
      simpa [PExpr.print, PExpr.printArgs, List.append_assoc] using hcall _ hi
    · rw [if_neg hm]
      by_cases hm' : m = "mul_add"
      · rw [if_pos hm', if_pos hm']
        have hlen : args.length = 2 := by simpa [hm'] using hs.2
        match args with
        | [b, c] =>
          simp only [RExpr.cWordsAll, Bool.and_eq_true] at hw
          simp only [RExpr.cShapes, Bool.and_eq_true] at hs
          have h1 := lexes_expr o c hw.1.2.2.1 hs.1.2.2.1 _ _ (wordEnd_cons (by decide)) (lexes_rpar _ _ (lexes_rpar _ _ hr))
          have h2 := lexes_rpar _ _ (lexes_space (.inl rfl) (lexes_binop .add _ _ (lexes_lpar _ _ h1)))
          have h3 := lexes_expr o b hw.1.2.1 hs.1.2.1 _ _ (wordEnd_cons (by decide)) h2
          have h4 := lexes_space (.inr rfl) (lexes_rpar _ _ (lexes_space (.inl rfl) (lexes_binop .mul _ _ (lexes_lpar _ _ h3))))
          have h5 := lexes_lpar _ _ (lexes_lpar _ _ (lexes_expr o r hw.1.1 hs.1.1 _ _ (wordEnd_cons (by decide)) h4))
          simpa [RExpr.cTexts, RExpr.cTrees, PExpr.print, List.append_assoc, BinOp.sym] using h5
      · rw [if_neg hm', if_neg hm', if_neg hm]
        have hi := hw.2.resolve_left hm'
        rw [if_neg hm] at hi
        simpa [PExpr.print, PExpr.printArgs, List.append_assoc] using hcall _ hi
  | .call (.path p) args =>
    simp only [RExpr.cWords, Bool.and_eq_true] at hw
    simp only [RExpr.cShape] at hs
    have hb : isFromBits p = false := by simpa using hw.1.1
    have ha := lexes_args o args hw.2 hs rest ts (lexes_rpar _ _ hr)
    have := lexes_ident _ _ _ hw.1.2 (wordEnd_cons (by decide)) (lexes_lpar _ _ ha)
    rw [cText_call o p args (by simpa [isFromBits] using hb)]
    simpa [RExpr.cTree, hb, PExpr.print, List.append_assoc] using this
  | .paren e =>
    simp only [RExpr.cWords] at hw
    simp only [RExpr.cShape] at hs
    have ih := lexes_lpar _ _ (lexes_expr o e hw hs _ _ (wordEnd_cons (by decide)) (lexes_rpar _ _ hr))
    simpa [RExpr.cText, RExpr.cTree, PExpr.print, List.append_assoc] using ih
  | .cast e t =>
    simp only [RExpr.cWords, Bool.and_eq_true] at hw
    simp only [RExpr.cShape] at hs
    have ih := lexes_lpar _ _ (lexes_type _ _ _ hw.2 (lexes_rpar _ _ (lexes_expr o e hw.1 hs rest ts hd hr)))
    simpa [RExpr.cText, RExpr.cTree, PExpr.print, List.append_assoc, cLang] using ih
  | .assign l r =>
    have hs' : l.cShape = true ∧ r.cShape = true := by cases l <;> simp_all [RExpr.cShape]
    simp only [RExpr.cWords, Bool.and_eq_true] at hw
    have ihr := lexes_expr o r hw.2 hs'.2 rest ts hd hr
    have hop := lexes_space (.inl rfl) (lexes_assign _ _ ihr)
    have ihl := lexes_expr o l hw.1 hs'.1 _ _ (wordEnd_cons (by decide)) hop
    simpa [RExpr.cText, RExpr.cTree, PExpr.print, List.append_assoc] using ihl
  | .assignOp l op r =>
    have hs' : l.cShape = true ∧ r.cShape = true := by cases l <;> simp_all [RExpr.cShape]
    simp only [RExpr.cWords, Bool.and_eq_true] at hw
    have ihr := lexes_expr o r hw.2 hs'.2 rest ts hd hr
    have hop := lexes_space (.inl rfl) (lexes_binop op _ _ ihr)
    have ihl := lexes_expr o l hw.1 hs'.1 _ _ (wordEnd_cons (by decide)) hop
    simpa [RExpr.cText, RExpr.cTree, PExpr.print, cBinOp_sym, List.append_assoc] using ihl
  | .ifElse .. | .block .. | .ifThen .. | .array .. | .tuple .. | .verbatim | .other .. => simp [RExpr.cWords] at hw
  | .call (.lit _) _ | .call (.unary ..) _ | .call (.binary ..) _ | .call (.method ..) _ | .call (.call ..) _ | .call (.paren _) _ | .call (.cast ..) _
  | .call (.ifThen ..) _ | .call (.ifElse ..) _ | .call (.block _) _ | .call (.assign ..) _ | .call (.assignOp ..) _ | .call (.array _) _ | .call (.tuple _) _
  | .call .verbatim _ | .call (.other _) _ => simp [RExpr.cShape] at hs

theorem lexes_args (o : COptions) (es : List RExpr) (hw : RExpr.cWordsAll tys o es = true) (hs : RExpr.cShapes es = true) (rest : List Char)
    (ts : List (PTok CWord)) (hr : LexesTo tys (')' :: rest) (.rpar :: ts)) :
    LexesTo tys ((", ".intercalate (RExpr.cTexts o es)).toList ++ ')' :: rest) (PExpr.printArgs cLang (RExpr.cTrees o es) ++ .rpar :: ts) := by
  match es with
  | [] => simpa [RExpr.cTexts, RExpr.cTrees, PExpr.printArgs] using hr
  | e :: es =>
    simp only [RExpr.cWordsAll, Bool.and_eq_true] at hw
    simp only [RExpr.cShapes, Bool.and_eq_true] at hs
    have hrest := lexes_rest o es hw.2 hs.2 rest ts hr
    have ih := lexes_expr o e hw.1 hs.1 _ _ (wordEnd_rest o es rest) hrest
    simp only [RExpr.cTexts, RExpr.cTrees, PExpr.printArgs]
    rw [intercalate_rest]
    simpa [List.append_assoc] using ih

theorem lexes_rest (o : COptions) (es : List RExpr) (hw : RExpr.cWordsAll tys o es = true) (hs : RExpr.cShapes es = true) (rest : List Char)
    (ts : List (PTok CWord)) (hr : LexesTo tys (')' :: rest) (.rpar :: ts)) :
    LexesTo tys (restText (RExpr.cTexts o es) ++ ')' :: rest) (PExpr.printRest cLang (RExpr.cTrees o es) ++ .rpar :: ts) := by
  match es with
  | [] => simpa [RExpr.cTexts, RExpr.cTrees, PExpr.printRest, restText] using hr
  | e :: es =>
    simp only [RExpr.cWordsAll, Bool.and_eq_true] at hw
    simp only [RExpr.cShapes, Bool.and_eq_true] at hs
    have hrest := lexes_rest o es hw.2 hs.2 rest ts hr
    have ih := lexes_comma _ _ (lexes_space (.inl rfl) (lexes_expr o e hw.1 hs.1 _ _ (wordEnd_rest o es rest) hrest))
    simpa [RExpr.cTexts, RExpr.cTrees, PExpr.printRest, restText, List.append_assoc] using ih
end

end Verif
