import Mathlib.Data.Nat.Notation
import Verif.Model.Res

/-!
# The Rust formatter, `doctor-syn/src/codegen/rust.rs`
-/

namespace Verif

/-- `proc_macro2::Delimiter`. -/
inductive Delim where
  | paren | brace | bracket | none
  deriving DecidableEq, Repr

/-- `proc_macro2::TokenTree`; a token is given by its text. -/
inductive Tok where
  | ident (s : List Char)
  | punct (c : Char)
  | lit (s : List Char)
  | group (d : Delim) (ts : List Tok)

/-- `indent`, `rust.rs:3-6`: a slice of sixty spaces, which panics past its end. -/
def indent (depth : ℕ) : Res (List Char) :=
  if depth * 2 ≤ 60 then .ok (List.replicate (depth * 2) ' ') else .panic

mutual
/-- `append_token`, `rust.rs:8-63`.  `toStr` is `TokenTree::to_string`. -/
def appendToken (toStr : Tok → List Char) (text : List Char) (depth : ℕ) : Tok → Res (List Char)
  | .group .brace ts => do
    let text := text ++ "{\n".toList
    let i1 ← indent (depth + 1)
    let text := text ++ i1
    let text ← appendTokens toStr text (depth + 1) ts
    let text := text ++ "\n".toList
    let i0 ← indent depth
    let text := text ++ i0
    let text := text ++ "}".toList
    let text := text ++ "\n".toList
    let i0 ← indent depth
    let text := text ++ i0
    pure (if depth = 0 then text ++ "\n".toList else text)
  | .group .bracket ts => do
    let text := text ++ toStr (.group .bracket ts)
    pure (if depth = 0 then text ++ "\n".toList else text)
  | .group d ts => pure (text ++ toStr (.group d ts))
  | .ident s => do
    let tok := toStr (.ident s)
    pure (text ++ tok ++ " ".toList)
  | .punct c => appendOther text depth (toStr (.punct c))
  | .lit s => appendOther text depth (toStr (.lit s))

/-- The loop over the tokens of a group. -/
def appendTokens (toStr : Tok → List Char) (text : List Char) (depth : ℕ) : List Tok → Res (List Char)
  | [] => pure text
  | t :: ts => do
    let text ← appendToken toStr text depth t
    appendTokens toStr text depth ts

/-- `rust.rs:44-61`. -/
def appendOther (text : List Char) (depth : ℕ) (tok : List Char) : Res (List Char) :=
  if tok = ";".toList then do
    let text := text ++ tok
    let text := text ++ "\n".toList
    let text := if depth = 0 then text ++ "\n".toList else text
    let i ← indent depth
    pure (text ++ i)
  else pure (text ++ tok)
end

/-- `format_token_stream`, `rust.rs:66-72`. -/
def formatTokenStream (toStr : Tok → List Char) (tokens : List Tok) : Res (List Char) := appendTokens toStr [] 0 tokens

end Verif
