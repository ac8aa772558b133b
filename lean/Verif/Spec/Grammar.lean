import Mathlib.Data.Nat.Notation
import Mathlib.Order.Basic
import Mathlib.Tactic.SplitIfs

/-!
# Expression grammars with precedence levels

A reader for expressions, for any table of operators: the textbook grammar with one rule per precedence level.  It is the independent reading against which
printed text is judged: `rustLang` and `cLang` are the tables of the two languages.
-/

namespace Verif

/-- Tokens; `α` are the words: identifiers, paths and numbers. -/
inductive PTok (α : Type) where
  | word (w : α)
  | op (s : String)
  | lpar | rpar | comma | dot | as | quest | colon
  | ty (w : α)
  deriving DecidableEq, Repr

/-- Syntax trees; parentheses are kept. -/
inductive PExpr (α : Type) where
  | atom (w : α)
  | unary (op : String) (e : PExpr α)
  | binary (l : PExpr α) (op : String) (r : PExpr α)
  | paren (e : PExpr α)
  | call (f : PExpr α) (args : List (PExpr α))
  | method (r : PExpr α) (m : α) (args : List (PExpr α))
  | field (b : PExpr α) (m : α)
  | cast (e : PExpr α) (ty : α)
  | ternary (c t f : PExpr α)
  deriving Repr

/-- What a precedence level is made of: left or right associative operators, operators that do not associate, `e as T`, `c ? t : f`. -/
inductive LevelKind where
  | left | right | non | cast | ternary
  deriving DecidableEq, Repr

/-- A language: `height` levels of infix operators, from loose to tight; the level of each operator; prefix operators; are casts `(T) e` or `e as T`? -/
structure Lang where
  height : ℕ
  kind : ℕ → LevelKind
  level : String → Option ℕ
  isPrefix : String → Bool
  prefixCast : Bool

variable {α : Type}

/-- Does the text begin with an operator of level `k`? -/
def Lang.atOp (L : Lang) (k : ℕ) : List (PTok α) → Bool
  | .op o :: _ => L.level o = some k
  | _ => false

mutual
/-- Read an expression of level `k` or tighter.  Level `height` are prefix operators, beyond it the postfix forms. -/
def Lang.read (L : Lang) : ℕ → ℕ → List (PTok α) → Option (PExpr α × List (PTok α))
  | 0, _, _ => none
  | n + 1, k, ts =>
    if k < L.height then
      match L.read n (k + 1) ts with
      | some (l, r) => L.readTail n k l r
      | none => none
    else if k = L.height then
      match ts with
      | .op o :: r =>
        if L.isPrefix o then
          match L.read n L.height r with
          | some (e, r') => some (.unary o e, r')
          | none => none
        else none
      | .lpar :: .ty t :: .rpar :: r =>
        if L.prefixCast then
          match L.read n L.height r with
          | some (e, r') => some (.cast e t, r')
          | none => none
        else none
      | ts => L.read n (k + 1) ts
    else
      match ts with
      | .word w :: r => L.readPost n (.atom w) r
      | .lpar :: r =>
        match L.read n 0 r with
        | some (e, .rpar :: r') => L.readPost n (.paren e) r'
        | _ => none
      | _ => none

/-- Having read `l`, go on with the operators of level `k`. -/
def Lang.readTail (L : Lang) : ℕ → ℕ → PExpr α → List (PTok α) → Option (PExpr α × List (PTok α))
  | 0, _, _, _ => none
  | n + 1, k, l, ts =>
    match L.kind k with
    | .left =>
      match ts with
      | .op o :: r =>
        if L.level o = some k then
          match L.read n (k + 1) r with
          | some (b, r') => L.readTail n k (.binary l o b) r'
          | none => none
        else some (l, .op o :: r)
      | ts => some (l, ts)
    | .right =>
      match ts with
      | .op o :: r =>
        if L.level o = some k then
          match L.read n k r with
          | some (b, r') => some (.binary l o b, r')
          | none => none
        else some (l, .op o :: r)
      | ts => some (l, ts)
    | .non =>
      match ts with
      | .op o :: r =>
        if L.level o = some k then
          match L.read n (k + 1) r with
          | some (b, r') => if L.atOp k r' then none else some (.binary l o b, r')
          | none => none
        else some (l, .op o :: r)
      | ts => some (l, ts)
    | .cast =>
      match ts with
      | .as :: .ty t :: r => L.readTail n k (.cast l t) r
      | .as :: _ => none
      | ts => some (l, ts)
    | .ternary =>
      match ts with
      | .quest :: r =>
        match L.read n 0 r with
        | some (t, .colon :: r') =>
          match L.read n k r' with
          | some (f, r'') => some (.ternary l t f, r'')
          | none => none
        | _ => none
      | ts => some (l, ts)

/-- Having read `a`, go on with calls, method calls and fields. -/
def Lang.readPost (L : Lang) : ℕ → PExpr α → List (PTok α) → Option (PExpr α × List (PTok α))
  | 0, _, _ => none
  | n + 1, a, ts =>
    match ts with
    | .lpar :: r =>
      match L.readArgs n r with
      | some (as, r') => L.readPost n (.call a as) r'
      | none => none
    | .dot :: .word m :: .lpar :: r =>
      match L.readArgs n r with
      | some (as, r') => L.readPost n (.method a m as) r'
      | none => none
    | .dot :: .word m :: r => L.readPost n (.field a m) r
    | .dot :: _ => none
    | ts => some (a, ts)

/-- Arguments up to the closing parenthesis. -/
def Lang.readArgs (L : Lang) : ℕ → List (PTok α) → Option (List (PExpr α) × List (PTok α))
  | 0, _ => none
  | n + 1, ts =>
    match ts with
    | .rpar :: r => some ([], r)
    | ts => L.readArgs1 n ts

/-- One or more arguments up to the closing parenthesis. -/
def Lang.readArgs1 (L : Lang) : ℕ → List (PTok α) → Option (List (PExpr α) × List (PTok α))
  | 0, _ => none
  | n + 1, ts =>
    match L.read n 0 ts with
    | some (e, .rpar :: r) => some ([e], r)
    | some (e, .comma :: r) =>
      match L.readArgs1 n r with
      | some (es, r') => some (e :: es, r')
      | none => none
    | _ => none
end

/-- The tokens read as the tree, with nothing left over: so for all sufficient fuel. -/
def Lang.Reads (L : Lang) (ts : List (PTok α)) (e : PExpr α) : Prop := ∃ n₀, ∀ n ≥ n₀, L.read n 0 ts = some (e, [])

/-- No tokens read as two different trees. -/
theorem Lang.Reads.unique {L : Lang} {ts : List (PTok α)} {e e' : PExpr α} (h : L.Reads ts e) (h' : L.Reads ts e') : e = e' := by
  obtain ⟨n, hn⟩ := h
  obtain ⟨m, hm⟩ := h'
  have := (hn (max n m) (Nat.le_max_left _ _)).symm.trans (hm (max n m) (Nat.le_max_right _ _))
  simpa using this

mutual
/-- The tokens of a tree. -/
def PExpr.print (L : Lang) : PExpr α → List (PTok α)
  | .atom w => [.word w]
  | .unary o e => .op o :: e.print L
  | .binary l o r => l.print L ++ .op o :: r.print L
  | .paren e => .lpar :: (e.print L ++ [.rpar])
  | .call f as => f.print L ++ .lpar :: (PExpr.printArgs L as ++ [.rpar])
  | .method r m as => r.print L ++ .dot :: .word m :: .lpar :: (PExpr.printArgs L as ++ [.rpar])
  | .field b m => b.print L ++ [.dot, .word m]
  | .cast e t => if L.prefixCast then .lpar :: .ty t :: .rpar :: e.print L else e.print L ++ [.as, .ty t]
  | .ternary c t f => c.print L ++ .quest :: (t.print L ++ .colon :: f.print L)

def PExpr.printArgs (L : Lang) : List (PExpr α) → List (PTok α)
  | [] => []
  | e :: es => e.print L ++ PExpr.printRest L es

def PExpr.printRest (L : Lang) : List (PExpr α) → List (PTok α)
  | [] => []
  | e :: es => .comma :: (e.print L ++ PExpr.printRest L es)
end

def PExpr.isField : PExpr α → Bool
  | .field _ _ => true
  | _ => false

mutual
/-- The tree can stand where the grammar asks for level `k`: operands of operators are tight enough. -/
def PExpr.fits (L : Lang) : ℕ → PExpr α → Prop
  | _, .atom _ => True
  | k, .unary o e => k ≤ L.height ∧ L.isPrefix o = true ∧ e.fits L L.height
  | k, .binary l o r => ∃ j, L.level o = some j ∧ k ≤ j ∧
      match L.kind j with
      | .left => l.fits L j ∧ r.fits L (j + 1)
      | .right => l.fits L (j + 1) ∧ r.fits L j
      | .non => l.fits L (j + 1) ∧ r.fits L (j + 1)
      | _ => False
  | _, .paren e => e.fits L 0
  | _, .call f as => f.fits L (L.height + 1) ∧ f.isField = false ∧ PExpr.fitsAll L as
  | _, .method r _ as => r.fits L (L.height + 1) ∧ PExpr.fitsAll L as
  | _, .field b _ => b.fits L (L.height + 1)
  | k, .cast e _ => if L.prefixCast then k ≤ L.height ∧ e.fits L L.height else ∃ j, L.kind j = .cast ∧ j < L.height ∧ k ≤ j ∧ e.fits L j
  | k, .ternary c t f => ∃ j, L.kind j = .ternary ∧ j < L.height ∧ k ≤ j ∧ c.fits L (j + 1) ∧ t.fits L 0 ∧ f.fits L j

def PExpr.fitsAll (L : Lang) : List (PExpr α) → Prop
  | [] => True
  | e :: es => e.fits L 0 ∧ PExpr.fitsAll L es
end

/-- A table makes sense: operators have a level of infix operators; there is at most one level of casts and one of conditionals. -/
structure Lang.Sound (L : Lang) : Prop where
  level : ∀ o j, L.level o = some j → j < L.height ∧ (L.kind j = .left ∨ L.kind j = .right ∨ L.kind j = .non)
  cast : ∀ i j, i < L.height → j < L.height → L.kind i = .cast → L.kind j = .cast → i = j
  ternary : ∀ i j, i < L.height → j < L.height → L.kind i = .ternary → L.kind j = .ternary → i = j
  castStyle : L.prefixCast = true → ∀ i < L.height, L.kind i ≠ .cast

/-! ## The two languages -/

/-- Rust: `=` and compound assignments, `||`, `&&`, comparisons, `|`, `^`, `&`, shifts, `+ -`, `* / %`, `as`, prefix operators.
(The Rust Reference, "Expression precedence".) -/
def rustLang : Lang where
  height := 11
  kind := fun k => if k = 0 then .right else if k = 3 then .non else if k = 10 then .cast else .left
  level := fun o =>
    if o ∈ ["=", "+=", "-=", "*=", "/=", "%=", "^=", "&=", "|=", "<<=", ">>="] then some 0
    else if o = "||" then some 1 else if o = "&&" then some 2
    else if o ∈ ["==", "!=", "<", "<=", ">", ">="] then some 3
    else if o = "|" then some 4 else if o = "^" then some 5 else if o = "&" then some 6
    else if o ∈ ["<<", ">>"] then some 7 else if o ∈ ["+", "-"] then some 8 else if o ∈ ["*", "/", "%"] then some 9
    else none
  isPrefix := fun o => o ∈ ["-", "!", "*"]
  prefixCast := false

/-- C: assignments, `?:`, `||`, `&&`, `|`, `^`, `&`, `== !=`, `< <= > >=`, shifts, `+ -`, `* / %`, then casts and prefix operators.
(ISO C, 6.5.) -/
def cLang : Lang where
  height := 12
  kind := fun k => if k = 0 then .right else if k = 1 then .ternary else .left
  level := fun o =>
    if o ∈ ["=", "+=", "-=", "*=", "/=", "%=", "^=", "&=", "|=", "<<=", ">>="] then some 0
    else if o = "||" then some 2 else if o = "&&" then some 3
    else if o = "|" then some 4 else if o = "^" then some 5 else if o = "&" then some 6
    else if o ∈ ["==", "!="] then some 7 else if o ∈ ["<", "<=", ">", ">="] then some 8
    else if o ∈ ["<<", ">>"] then some 9 else if o ∈ ["+", "-"] then some 10 else if o ∈ ["*", "/", "%"] then some 11
    else none
  isPrefix := fun o => o ∈ ["-", "!", "*", "--"]
  prefixCast := true

theorem rustLang_sound : rustLang.Sound := by
  refine ⟨?_, ?_, ?_, ?_⟩
  · intro o j h
    simp only [rustLang] at h
    repeat' split at h
    all_goals first | (simp only [Option.some.injEq] at h; subst h; decide) | simp at h
  · intro i j _ _ hi hj
    simp only [rustLang] at hi hj
    split_ifs at hi hj
    omega
  · intro i j _ _ hi
    simp only [rustLang] at hi
    repeat' split at hi
    all_goals simp at hi
  · intro h; cases h

theorem cLang_sound : cLang.Sound := by
  refine ⟨?_, ?_, ?_, ?_⟩
  · intro o j h
    simp only [cLang] at h
    repeat' split at h
    all_goals first | (simp only [Option.some.injEq] at h; subst h; decide) | simp at h
  · intro i j _ _ hi
    simp only [cLang] at hi
    repeat' split at hi
    all_goals simp at hi
  · intro i j _ _ hi hj
    simp only [cLang] at hi hj
    split_ifs at hi hj
    omega
  · intro _ i _ hi
    simp only [cLang] at hi
    split_ifs at hi

end Verif
