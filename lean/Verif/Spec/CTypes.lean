import Verif.Spec.CTokens

/-!
# Which C files compile

A checker for the C that the generator writes: ISO C99 with statement expressions (a GNU extension that the generator depends on).  Every name must be
declared before it is used, no name twice in one scope, operators get operands of the types they allow, functions the number of arguments they take, and
constants at file level a constant initialiser.  All types are arithmetic, so conversions never fail.  Declarations come from `<math.h>`, which is the one
header included, and from the file.
-/

namespace Verif

/-- The types; `long long` also stands for `long`. -/
inductive CTy where
  | int | uint | llong | ullong | float | double
  deriving DecidableEq, Repr

def CTy.rank : CTy → ℕ
  | .int => 0 | .uint => 1 | .llong => 2 | .ullong => 3 | .float => 4 | .double => 5

def CTy.isInt : CTy → Bool
  | .float | .double => false
  | _ => true

/-- The usual arithmetic conversions (ISO C, 6.3.1.8). -/
def CTy.arith (a b : CTy) : CTy := if a.rank ≤ b.rank then b else a

/-- What a name stands for at file level; `macro` is a value from the header, `reserved` a name of the header that can be used in no way modelled here. -/
inductive CDecl where
  | ty (t : CTy)
  | var (t : CTy)
  | fn (arity : ℕ) (ret : CTy)
  | macro (t : CTy)
  | reserved
  deriving DecidableEq, Repr

/-- Declarations of a file. -/
abbrev CGlobals := List (String × CDecl)

/-- A variable of a function: its type and whether it is constant; `none` for an object that is not arithmetic. -/
abbrev CLocals := List (String × Option (CTy × Bool))

/-! ## `<math.h>` -/

def mathUnary : List String :=
  ["acos", "asin", "atan", "cos", "sin", "tan", "acosh", "asinh", "atanh", "cosh", "sinh", "tanh", "exp", "exp2", "expm1", "log", "log10", "log1p", "log2",
   "logb", "cbrt", "fabs", "sqrt", "erf", "erfc", "lgamma", "tgamma", "ceil", "floor", "nearbyint", "rint", "round", "trunc"]

def mathBinary : List String := ["atan2", "hypot", "pow", "fmod", "remainder", "copysign", "nextafter", "fdim", "fmax", "fmin"]

/-- The declarations of `<math.h>` (ISO C, 7.12), without the variants for `long double`. -/
def mathH : CGlobals :=
  mathUnary.map (fun n => (n, .fn 1 .double)) ++ mathUnary.map (fun n => (n ++ "f", .fn 1 .float)) ++
  mathBinary.map (fun n => (n, .fn 2 .double)) ++ mathBinary.map (fun n => (n ++ "f", .fn 2 .float)) ++
  [("fma", .fn 3 .double), ("fmaf", .fn 3 .float), ("ldexp", .fn 2 .double), ("ldexpf", .fn 2 .float), ("scalbn", .fn 2 .double), ("scalbnf", .fn 2 .float),
   ("scalbln", .fn 2 .double), ("scalblnf", .fn 2 .float), ("ilogb", .fn 1 .int), ("ilogbf", .fn 1 .int), ("lrint", .fn 1 .llong), ("lrintf", .fn 1 .llong),
   ("llrint", .fn 1 .llong), ("llrintf", .fn 1 .llong), ("lround", .fn 1 .llong), ("lroundf", .fn 1 .llong), ("llround", .fn 1 .llong),
   ("llroundf", .fn 1 .llong), ("HUGE_VAL", .macro .double), ("HUGE_VALF", .macro .float), ("INFINITY", .macro .float), ("NAN", .macro .float)] ++
  ["frexp", "frexpf", "modf", "modff", "remquo", "remquof", "nan", "nanf", "float_t", "double_t", "HUGE_VALL", "FP_INFINITE", "FP_NAN", "FP_NORMAL",
   "FP_SUBNORMAL", "FP_ZERO", "FP_ILOGB0", "FP_ILOGBNAN", "MATH_ERRNO", "MATH_ERREXCEPT", "math_errhandling"].map fun n => (n, .reserved)

/-- Names that the preprocessor replaces. -/
def CDecl.isMacro : CDecl → Bool
  | .macro _ | .reserved => true
  | _ => false

/-- The preprocessor leaves the name alone. -/
def notMacro (n : String) : Bool := !((mathH.lookup n).any CDecl.isMacro)

/-! ## Literals -/

def digitsVal (ds : List Char) : ℕ := ds.foldl (fun n c => 10 * n + (c.toNat - '0'.toNat)) 0

/-- After the digits: an optional exponent. -/
def isCExp : List Char → Bool
  | [] => true
  | 'e' :: '+' :: ds | 'e' :: '-' :: ds | 'E' :: '+' :: ds | 'E' :: '-' :: ds => !ds.isEmpty && ds.all Char.isDigit
  | 'e' :: ds | 'E' :: ds => !ds.isEmpty && ds.all Char.isDigit
  | _ => false

/-- The type of a literal without a suffix (ISO C, 6.4.4): a decimal integer has the first of `int`, `long`, `long long` that holds it and none if it is too
large; a number with a point or an exponent is a `double`.  Octal numbers are refused. -/
def cNumberTy (ds : List Char) : Option CTy :=
  let i := ds.takeWhile Char.isDigit
  match ds.dropWhile Char.isDigit with
  | [] =>
    if i.isEmpty || (i.head? == some '0' && decide (1 < i.length)) then none
    else if digitsVal i < 2 ^ 31 then some .int
    else if digitsVal i < 2 ^ 63 then some .llong
    else none
  | '.' :: r =>
    if i.isEmpty && (r.takeWhile Char.isDigit).isEmpty then none
    else if isCExp (r.dropWhile Char.isDigit) then some .double else none
  | r => if !i.isEmpty && isCExp r then some .double else none

def Lit.cTy : Lit → Option CTy
  | .int ('-' :: ds) _ => cNumberTy ds
  | .float ('-' :: ds) _ => cNumberTy ds
  | .int ds _ => cNumberTy ds
  | .float ds _ => cNumberTy ds
  | _ => none

/-! ## Expressions -/

/-- The type a type name stands for. -/
def cTypeNamed (G : CGlobals) (L : CLocals) (s : String) : Option CTy :=
  if s = "int" then some .int
  else if s = "unsigned int" then some .uint
  else if s = "long long" then some .llong
  else if s = "unsigned long long" then some .ullong
  else if s = "float" then some .float
  else if s = "double" then some .double
  else if (L.lookup s).isSome then none
  else match G.lookup s with
    | some (.ty t) => some t
    | _ => none

/-- The type of a name used as a value. -/
def cNameTy (G : CGlobals) (L : CLocals) (s : String) : Option CTy :=
  match L.lookup s with
  | some v => v.map (·.1)
  | none =>
    match G.lookup s with
    | some (.var t) => some t
    | some (.macro t) => some t
    | _ => none

/-- The type of a call. -/
def cCallTy (G : CGlobals) (L : CLocals) (f : String) (arity : ℕ) : Option CTy :=
  if (L.lookup f).isSome then none
  else match G.lookup f with
    | some (.fn k t) => if k = arity then some t else none
    | _ => none

/-- The type of an operator applied to values. -/
def cBinTy (op : BinOp) (a b : CTy) : Option CTy :=
  match op with
  | .add | .sub | .mul | .div => some (a.arith b)
  | .rem | .bitXor | .bitAnd | .bitOr => if a.isInt && b.isInt then some (a.arith b) else none
  | .shl | .shr => if a.isInt && b.isInt then some a else none
  | .and | .or | .eq | .lt | .le | .ne | .ge | .gt => some .int
  | _ => none

/-- The type of a variable that can be assigned to. -/
def cAssignTy (L : CLocals) (s : String) : Option CTy :=
  match L.lookup s with
  | some (some (t, false)) => some t
  | _ => none

/-- The name can be declared in a block where `cur` are declared. -/
def cFresh (cur : List String) (n : String) : Bool := notMacro n && !(cur.contains n)

mutual
/-- The type of an expression; `none` if C refuses it. -/
def RExpr.cTy (o : COptions) (G : CGlobals) (L : CLocals) : RExpr → Option CTy
  | .lit l => l.cTy
  | .path p => cNameTy G L (cPath p)
  | .unary .neg e => e.cTy o G L
  | .unary .not e => (e.cTy o G L).bind fun _ => some .int
  | .unary .deref _ => none
  | .binary l op r => (l.cTy o G L).bind fun a => (r.cTy o G L).bind fun b => cBinTy op a b
  | .method r m args =>
    (r.cTy o G L).bind fun a => (RExpr.cTys o G L args).bind fun bs =>
      if m = "mul_add" then
        match bs with
        | [b, c] => some ((a.arith b).arith c)
        | _ => none
      else cCallTy G L (if m = "round" then "round" ++ o.floatSuffix else m) (bs.length + 1)
  | .call (.path p) args =>
    if isFromBits p then
      (cTypeNamed G L "fty").bind fun t => (cTypeNamed G L "uty").bind fun _ => (RExpr.cTys o G (("u", none) :: L) args).bind fun bs =>
        if bs.length = 1 then some t else none
    else (RExpr.cTys o G L args).bind fun bs => cCallTy G L (o.pre ++ cPath p) bs.length
  | .call _ _ => none
  | .paren e => e.cTy o G L
  | .cast e t => (cTypeNamed G L (cType t)).bind fun t => (e.cTy o G L).bind fun _ => some t
  | .ifElse c t f => (c.cTy o G L).bind fun _ => (RStmt.cTys o G L [] t).bind fun a => (f.cTy o G L).bind fun b => some (a.arith b)
  | .block b => RStmt.cTys o G L [] b
  | .assign (.path p) r => (r.cTy o G L).bind fun _ => cAssignTy L (cPath p)
  | .assignOp (.path p) _ r => (r.cTy o G L).bind fun _ => cAssignTy L (cPath p)
  | _ => none

def RExpr.cTys (o : COptions) (G : CGlobals) (L : CLocals) : List RExpr → Option (List CTy)
  | [] => some []
  | e :: es => (e.cTy o G L).bind fun t => (RExpr.cTys o G L es).bind fun ts => some (t :: ts)

/-- The type of a statement expression: that of its last statement, which must be an expression with its `;`.  `cur` are the names declared in this block. -/
def RStmt.cTys (o : COptions) (G : CGlobals) (L : CLocals) (cur : List String) : List RStmt → Option CTy
  | [] => none
  | [.expr e] => e.cTy o G L
  | .expr e :: ss => (e.cTy o G L).bind fun _ => RStmt.cTys o G L cur ss
  | .semi e :: ss => (e.cTy o G L).bind fun _ => RStmt.cTys o G L cur ss
  | .decl n none :: ss => (cNameTy G L n).bind fun _ => RStmt.cTys o G L cur ss
  | .letInit n none e :: ss => (e.cTy o G L).bind fun _ => (cAssignTy L n).bind fun _ => RStmt.cTys o G L cur ss
  | .decl n (some t) :: ss =>
    (cTypeNamed G L (cType t)).bind fun t => if cFresh cur n then RStmt.cTys o G ((n, some (t, false)) :: L) (n :: cur) ss else none
  | .letInit n (some t) e :: ss =>
    (cTypeNamed G L (cType t)).bind fun t => if cFresh cur n then
      (e.cTy o G ((n, some (t, false)) :: L)).bind fun _ => RStmt.cTys o G ((n, some (t, false)) :: L) (n :: cur) ss else none
  | .const n t e :: ss =>
    (cTypeNamed G L (cType t)).bind fun t => if cFresh cur n then
      (e.cTy o G ((n, some (t, true)) :: L)).bind fun _ => RStmt.cTys o G ((n, some (t, true)) :: L) (n :: cur) ss else none
end

/-- A constant expression: numbers and operators. -/
def RExpr.cConst : RExpr → Bool
  | .lit _ => true
  | .unary _ e => e.cConst
  | .binary l _ r => l.cConst && r.cConst
  | .paren e => e.cConst
  | .cast e _ => e.cConst
  | _ => false

/-! ## Files -/

/-- The parameters of a function. -/
def cParams (G : CGlobals) : List (String × Name) → Option CLocals
  | [] => some []
  | (n, t) :: ps => (cTypeNamed G [] (cType t)).bind fun t => (cParams G ps).bind fun L =>
    if notMacro n && !((L.lookup n).isSome) then some ((n, some (t, false)) :: L) else none

/-- What an item declares; `none` if C refuses it. -/
def RItem.cDecl (o : COptions) (G : CGlobals) : RItem → Option (String × CDecl)
  | .const n t e => (cTypeNamed G [] (cType t)).bind fun t => if notMacro n && e.cConst then (e.cTy o G []).bind fun _ => some (n, .var t) else none
  | .type n t => (cTypeNamed G [] (cType t)).bind fun t => if notMacro n then some (n, .ty t) else none
  | .fn ⟨n, ps, some (.path r), b⟩ =>
    (cTypeNamed G [] (cType r)).bind fun t => (cParams G ps).bind fun L => if notMacro (o.pre ++ n) then
      (RStmt.cTys o ((o.pre ++ n, .fn ps.length t) :: G) L [] b).bind fun _ => some (o.pre ++ n, .fn ps.length t) else none
  | _ => none

/-- The declarations after the items; `none` if C refuses one of them. -/
def cFile (o : COptions) : CGlobals → List RItem → Option CGlobals
  | G, [] => some G
  | G, it :: its => (it.cDecl o G).bind fun d => if (G.lookup d.1).isSome then none else cFile o (d :: G) its

/-- The file compiles. -/
def CCompiles (o : COptions) (file : List RItem) : Prop := ∃ G, cFile o mathH file = some G

end Verif
