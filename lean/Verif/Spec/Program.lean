import Verif.Spec.RustMeaning

/-!
# A set of functions as a program

`called` lists the functions that a piece of code calls.  A program gives each of its functions the meaning of its body, where calls mean
what the program says they mean: `LinkedAll`.
-/

namespace Verif

mutual
/-- The functions called in an expression, by their paths. -/
def RExpr.called : RExpr → List Name
  | .lit _ => []
  | .path _ => []
  | .unary _ e => e.called
  | .binary l _ r => l.called ++ r.called
  | .method r _ args => r.called ++ RExpr.calledArgs args
  | .call f args => (match f with
    | .path p => [p]
    | _ => []) ++ RExpr.calledArgs args
  | .paren e => e.called
  | .cast e _ => e.called
  | .ifThen c t => c.called ++ RStmt.calledBlock t
  | .ifElse c t f => c.called ++ RStmt.calledBlock t ++ f.called
  | .block b => RStmt.calledBlock b
  | .assign l r => l.called ++ r.called
  | .assignOp l _ r => l.called ++ r.called
  | .array es => RExpr.calledArgs es
  | .tuple es => RExpr.calledArgs es
  | .verbatim => []
  | .other _ => []

def RExpr.calledArgs : List RExpr → List Name
  | [] => []
  | a :: as => a.called ++ RExpr.calledArgs as

def RStmt.calledBlock : List RStmt → List Name
  | [] => []
  | .decl _ _ :: rest => RStmt.calledBlock rest
  | .letInit _ _ e :: rest => e.called ++ RStmt.calledBlock rest
  | .expr e :: rest => e.called ++ RStmt.calledBlock rest
  | .semi e :: rest => e.called ++ RStmt.calledBlock rest
  | .const _ _ e :: rest => e.called ++ RStmt.calledBlock rest
end

/-- The functions that a function calls. -/
def RFn.called (f : RFn) : List Name := RStmt.calledBlock f.body

/-- The functions among some items. -/
def fnsOf (its : List RItem) : List RFn := its.flatMap fun
  | .fn f => [f]
  | _ => []

variable {α : Type}

/-- `calls` gives every function of the program the meaning of its body. -/
def LinkedAll (mk : (String → List α → α) → RInterp α) (g : Name → α) (fns : List RFn) (calls : String → List α → α) : Prop :=
  ∀ fn ∈ fns, ∀ args, calls fn.name args = fn.apply (mk calls) g args

/-- The interpretation looks at `calls` for the functions of the program, which have one-word paths, and nowhere else. -/
structure CallsOnly (mk : (String → List α → α) → RInterp α) : Prop where
  same : ∀ c c', { mk c' with call := (mk c).call } = mk c
  call : ∀ c c' p args, (∀ s, p = [s] → c s args = c' s args) → (mk c).call p args = (mk c').call p args

/-- The functions are distinct, and a function calls only functions of the program, with a smaller rank, beside paths of several words. -/
structure Layered (fns : List RFn) (rank : String → Nat) : Prop where
  nodup : (fns.map RFn.name).Nodup
  calls : ∀ fn ∈ fns, ∀ s, [s] ∈ fn.called → s ∈ fns.map RFn.name ∧ rank s < rank fn.name

end Verif
