import Verif.Spec.CText
import Verif.Spec.RustTokens

/-!
# Reading C text

A lexer for C expressions (ISO C, 6.4: identifiers, preprocessing numbers, punctuators; the longest token is taken), the C tree meant by a Rust expression,
and the tree Rust reads.
-/

namespace Verif

/-- A word of C text; the statements of a statement expression count as one word, and so do those that stand for `fty::from_bits` with its arguments. -/
inductive CWord where
  | text (s : String)
  | stmts (b : List RStmt)
  | fromBits (args : List RExpr)

/-! ## The lexer -/

def isIdentStart (c : Char) : Bool := c.isAlpha || c == '_'

def isIdentChar (c : Char) : Bool := c.isAlphanum || c == '_'

/-- Take the characters of a number: letters, digits, `_` and `.`, and a sign just after `e` or `E`.  The flag says that the last character was an `e`. -/
def takeNumber : Bool → List Char → List Char × List Char
  | _, [] => ([], [])
  | e, c :: cs =>
    if isIdentChar c || c == '.' || (e && (c == '+' || c == '-')) then
      ((c :: (takeNumber (c == 'e' || c == 'E') cs).1), (takeNumber (c == 'e' || c == 'E') cs).2)
    else ([], c :: cs)

/-- Punctuators of three, two and one characters. -/
def cPuncts : List String :=
  ["<<=", ">>=", "...", "->", "++", "--", "<<", ">>", "<=", ">=", "==", "!=", "&&", "||", "*=", "/=", "%=", "+=", "-=", "&=", "^=", "|=", "##", "[", "]",
   "(", ")", "{", "}", ".", "&", "*", "+", "-", "~", "!", "/", "%", "<", ">", "^", "|", "?", ":", ";", "=", ",", "#"]

/-- The first of the punctuators that the text begins with; longer ones come first. -/
def takePunct (s : List Char) : Option (String × List Char) :=
  (cPuncts.find? fun p => p.toList.isPrefixOf s).map fun p => (p, s.drop p.length)

def punctTok (p : String) : PTok CWord :=
  if p = "(" then .lpar else if p = ")" then .rpar else if p = "," then .comma else if p = "." then .dot else if p = "?" then .quest
  else if p = ":" then .colon else .op p

/-- The words of C types. -/
def cTypeWords : List String := ["int", "long", "unsigned", "float", "double", "char", "short", "signed", "void"]

/-- Adjacent words of a type are one type. -/
def consType (w : String) : List (PTok CWord) → List (PTok CWord)
  | .ty (.text w') :: ts => .ty (.text (w ++ " " ++ w')) :: ts
  | ts => .ty (.text w) :: ts

/-- The tokens of C text; `tys` are the names declared with `typedef`.  Comments do not occur in generated text and are refused. -/
def lexC (tys : List String) : ℕ → List Char → Option (List (PTok CWord))
  | _, [] => some []
  | 0, _ => none
  | n + 1, c :: cs =>
    if c = ' ' ∨ c = '\n' then lexC tys n cs
    else if isIdentStart c then
      let w := String.ofList ((c :: cs).takeWhile isIdentChar)
      let r := (c :: cs).dropWhile isIdentChar
      if w ∈ cTypeWords ∨ w ∈ tys then (lexC tys n r).map (consType w) else (lexC tys n r).map (.word (.text w) :: ·)
    else if c.isDigit then
      let p := takeNumber false (c :: cs)
      (lexC tys n p.2).map (.word (.text (String.ofList p.1)) :: ·)
    else if c = '/' ∧ (cs.head? = some '/' ∨ cs.head? = some '*') then none
    else
      match takePunct (c :: cs) with
      | some (p, r) => (lexC tys n r).map (punctTok p :: ·)
      | none => none

/-- The text has these tokens. -/
def LexesTo (tys : List String) (s : List Char) (ts : List (PTok CWord)) : Prop := ∃ n₀, ∀ n ≥ n₀, lexC tys n s = some ts

/-- C reads the text as the tree. -/
def CReads (tys : List String) (s : String) (e : PExpr CWord) : Prop := ∃ ts, LexesTo tys s.toList ts ∧ cLang.Reads ts e

/-! ## Trees -/

/-- A literal in C; C literals have no sign. -/
def Lit.cTree : Lit → PExpr CWord
  | .int ('-' :: ds) _ => .unary "-" (.atom (.text (String.ofList ds)))
  | .float ('-' :: ds) _ => .unary "-" (.atom (.text (String.ofList ds)))
  | .int ds _ => .atom (.text (String.ofList ds))
  | .float ds _ => .atom (.text (String.ofList ds))
  | _ => .atom (.text "")

/-- The path that the generator replaces by a statement expression. -/
def isFromBits (p : Name) : Bool := "_".intercalate p == "fty_from_bits"

mutual
/-- The C tree meant by an expression: node for node; a method call is a call of the function with the receiver as first argument, `a.mul_add(b, c)` is
`(a) * (b) + (c)`, `if` is `?:`, and `fty::from_bits` is a statement expression in parentheses. -/
def RExpr.cTree (o : COptions) : RExpr → PExpr CWord
  | .lit l => l.cTree
  | .path p => .atom (.text ("_".intercalate p))
  | .unary op e => .unary op.sym (e.cTree o)
  | .binary l op r => .binary (l.cTree o) op.sym (r.cTree o)
  | .method r m args =>
    if m = "mul_add" then
      match RExpr.cTrees o args with
      | [b, c] => .paren (.binary (.binary (.paren (r.cTree o)) "*" (.paren b)) "+" (.paren c))
      | _ => .atom (.text "")
    else .call (.atom (.text (if m = "round" then "round" ++ o.floatSuffix else m))) (r.cTree o :: RExpr.cTrees o args)
  | .call (.path p) args =>
    if isFromBits p then .paren (.atom (.fromBits args)) else .call (.atom (.text (o.pre ++ "_".intercalate p))) (RExpr.cTrees o args)
  | .paren e => .paren (e.cTree o)
  | .cast e t => .cast (e.cTree o) (.text (cType t))
  | .ifElse c t f => .ternary (.paren (c.cTree o)) (.paren (.atom (.stmts t))) (.paren (f.cTree o))
  | .block b => .paren (.atom (.stmts b))
  | .assign l r => .binary (l.cTree o) "=" (r.cTree o)
  | .assignOp l op r => .binary (l.cTree o) op.sym (r.cTree o)
  | _ => .atom (.text "")

def RExpr.cTrees (o : COptions) : List RExpr → List (PExpr CWord)
  | [] => []
  | e :: es => e.cTree o :: RExpr.cTrees o es
end

mutual
/-- The tree in Rust.  `if` and blocks are closed forms in Rust: they count as a word, and as that word applied to condition and `else` part. -/
def RExpr.rustTree : RExpr → PExpr CWord
  | .lit _ => .atom (.text "")
  | .path p => .atom (.text ("_".intercalate p))
  | .unary op e => .unary op.sym e.rustTree
  | .binary l op r => .binary l.rustTree op.sym r.rustTree
  | .method r m args => .method r.rustTree (.text m) (RExpr.rustTrees args)
  | .call f args => .call f.rustTree (RExpr.rustTrees args)
  | .paren e => .paren e.rustTree
  | .cast e t => .cast e.rustTree (.text (cType t))
  | .ifElse c t f => .call (.atom (.stmts t)) [c.rustTree, f.rustTree]
  | .block b => .atom (.stmts b)
  | .assign l r => .binary l.rustTree "=" r.rustTree
  | .assignOp l op r => .binary l.rustTree op.sym r.rustTree
  | _ => .atom (.text "")

def RExpr.rustTrees : List RExpr → List (PExpr CWord)
  | [] => []
  | e :: es => e.rustTree :: RExpr.rustTrees es
end

/-- The expression is grouped as Rust's grammar groups its text: what `syn` returns from parsing. -/
def RExpr.Parsed (e : RExpr) : Prop := e.rustTree.fits rustLang 0

def Lit.isNumber : Lit → Bool
  | .int _ _ => true
  | .float _ _ => true
  | _ => false

mutual
/-- Expressions of numbers, names, operators, calls by name, method calls, casts, `if`, blocks and assignments to names. -/
def RExpr.cShape : RExpr → Bool
  | .lit l => l.isNumber
  | .path _ => true
  | .unary _ e => e.cShape
  | .binary l op r => !op.assigns && l.cShape && r.cShape
  | .method r m args => r.cShape && RExpr.cShapes args && (m != "mul_add" || args.length == 2)
  | .call (.path _) args => RExpr.cShapes args
  | .paren e => e.cShape
  | .cast e _ => e.cShape
  | .ifElse c _ f => c.cShape && f.cShape
  | .block _ => true
  | .assign (.path _) r => r.cShape
  | .assignOp (.path _) op r => op.assigns && r.cShape
  | _ => false

def RExpr.cShapes : List RExpr → Bool
  | [] => true
  | e :: es => e.cShape && RExpr.cShapes es
end

def RExpr.isIf : RExpr → Bool
  | .ifElse _ _ _ => true
  | _ => false

/-- A bare `|`, `^` or `&`. -/
def RExpr.isBits : RExpr → Bool
  | .binary _ op _ => op == .bitOr || op == .bitXor || op == .bitAnd
  | _ => false

def BinOp.compares : BinOp → Bool
  | .eq | .lt | .le | .ne | .ge | .gt => true
  | _ => false

mutual
/-- No bare `if` under an operator or a cast, and no bare `|`, `^`, `&` under a comparison.  (The inside of a statement expression is read on its own.) -/
def RExpr.cGroups : RExpr → Bool
  | .unary _ e => !e.isIf && e.cGroups
  | .binary l op r => !l.isIf && !r.isIf && (!op.compares || (!l.isBits && !r.isBits)) && l.cGroups && r.cGroups
  | .method r _ args => r.cGroups && RExpr.cGroupsAll args
  | .call (.path p) args => isFromBits p || RExpr.cGroupsAll args
  | .call _ args => RExpr.cGroupsAll args
  | .paren e => e.cGroups
  | .cast e _ => !e.isIf && e.cGroups
  | .ifElse c _ f => c.cGroups && f.cGroups
  | .assign _ r => r.cGroups
  | .assignOp _ _ r => r.cGroups
  | _ => true

def RExpr.cGroupsAll : List RExpr → Bool
  | [] => true
  | e :: es => e.cGroups && RExpr.cGroupsAll es
end

/-! ## Words -/

/-- A C identifier that is not a type. -/
def isCIdent (tys : List String) (s : String) : Bool :=
  (match s.toList with
  | [] => false
  | c :: cs => isIdentStart c && cs.all isIdentChar) && !(cTypeWords.contains s) && !(tys.contains s)

/-- A C type that the lexer takes as one: a builtin type or a name declared with `typedef`. -/
def isCType (tys : List String) (s : String) : Bool :=
  ["int", "long long", "unsigned int", "unsigned long long", "float", "double"].contains s ||
  ((match s.toList with
  | [] => false
  | c :: cs => isIdentStart c && cs.all isIdentChar) && tys.contains s)

/-- A number: a digit, then only characters of a number. -/
def isCNumber (ds : List Char) : Bool :=
  match ds with
  | [] => false
  | c :: _ => c.isDigit && (takeNumber false ds).2.isEmpty

def Lit.cWords : Lit → Bool
  | .int ('-' :: ds) _ => isCNumber ds
  | .float ('-' :: ds) _ => isCNumber ds
  | .int ds _ => isCNumber ds
  | .float ds _ => isCNumber ds
  | _ => false

/-- The text begins with a minus. -/
def RExpr.leadsMinus : RExpr → Bool
  | .unary op _ => op == .neg
  | .lit l => l.signed
  | .binary l _ _ => l.leadsMinus
  | .assign l _ => l.leadsMinus
  | .assignOp l _ _ => l.leadsMinus
  | _ => false

mutual
/-- Names and numbers are C names and numbers, types are known, there is no `if`, block or `fty::from_bits`, and no minus is followed at once by another. -/
def RExpr.cWords (tys : List String) (o : COptions) : RExpr → Bool
  | .lit l => l.cWords
  | .path p => isCIdent tys ("_".intercalate p)
  | .unary op e => e.cWords tys o && !(op == .neg && e.leadsMinus)
  | .binary l _ r => l.cWords tys o && r.cWords tys o
  | .method r m args => r.cWords tys o && RExpr.cWordsAll tys o args && (m == "mul_add" || isCIdent tys (if m = "round" then "round" ++ o.floatSuffix else m))
  | .call (.path p) args => !isFromBits p && isCIdent tys (o.pre ++ "_".intercalate p) && RExpr.cWordsAll tys o args
  | .paren e => e.cWords tys o
  | .cast e t => e.cWords tys o && isCType tys (cType t)
  | .assign l r => l.cWords tys o && r.cWords tys o
  | .assignOp l _ r => l.cWords tys o && r.cWords tys o
  | _ => false

def RExpr.cWordsAll (tys : List String) (o : COptions) : List RExpr → Bool
  | [] => true
  | e :: es => e.cWords tys o && RExpr.cWordsAll tys o es
end

end Verif
