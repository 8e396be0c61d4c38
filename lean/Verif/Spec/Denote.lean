import Verif.Model.Types
/-!
# What a builder tree means

A specification of the result of building a finite tree of fragments, columns and tables with
the built-in functions, written by recursion on the tree: no fuel, no argument store, no
placeholders, no error texts.  A query is a `Doc`: text with marks for the arguments it refers
to.  Arguments are recorded in a log, in the order in which they are committed.
-/

namespace Sqlf.Spec

/-- A piece of a query: a byte of text, or the placeholder of the `k`-th (0-based) committed
value. -/
inductive Atom where
  | byte (b : UInt8)
  | bind (k : Nat)
deriving DecidableEq, Repr

abbrev Doc := List Atom

def Doc.ofStr (s : Str) : Doc := s.map .byte

/-- The text of a query, given the placeholders of the committed values. -/
def renderDoc (ps : List Str) : Doc → Str
  | [] => []
  | .byte b :: d => b :: renderDoc ps d
  | .bind k :: d => ps.getD k [] ++ renderDoc ps d

/-- The marks of a query, in order of occurrence. -/
def binds : Doc → List Nat
  | [] => []
  | .byte _ :: d => binds d
  | .bind k :: d => k :: binds d

/-- Outcome of a build: success, an error that wraps `ErrInvalidIndex`, another error, a
run-time panic. -/
inductive Res (α : Type) where
  | ok (a : α)
  | invalidIndex
  | error
  | panic
deriving DecidableEq, Repr

/-! ## Text -/

/-- The text before the first mark. -/
def leadText : Doc → Str
  | .byte b :: d => b :: leadText d
  | _ => []

/-- What comes from the first mark on. -/
def fromMark : Doc → Doc
  | .byte _ :: d => fromMark d
  | d => d

/-- Remove white space on the left: marks are not white space. -/
def trimLeftDoc (d : Doc) : Doc := Doc.ofStr (trimLeft (leadText d)) ++ fromMark d

/-- The text after the last mark. -/
def tailText (d : Doc) : Str := (leadText d.reverse).reverse

/-- Everything up to the last mark. -/
def toMark (d : Doc) : Doc := (fromMark d.reverse).reverse

/-- Remove white space on the right. -/
def trimRightDoc (d : Doc) : Doc := toMark d ++ Doc.ofStr (trimRight (tailText d))

def trimDoc (d : Doc) : Doc := trimRightDoc (trimLeftDoc d)

/-- Prefix and suffix around a trimmed body that is not empty. -/
def decorateDoc (pre suf : Str) (body : Doc) : Doc :=
  if trimDoc body = [] then []
  else (if pre = [] then [] else Doc.ofStr pre ++ Doc.ofStr (lit " ")) ++ trimDoc body ++
    (if suf = [] then [] else Doc.ofStr (lit " ") ++ Doc.ofStr suf)

/-! ## Evaluation of a clause -/

/-- A reference to an argument or a fragment of the current fragment (1-based). -/
inductive Ref where
  | arg (i : Int)
  | frag (i : Int)
deriving DecidableEq, Repr

/-- Committed values and references so far. -/
structure Session where
  log : List Val
  used : List Ref

/-- An evaluation step; what was committed and referenced remains after errors. -/
abbrev Step (α : Type) := Session → Res α × Session

def Step.pure (a : α) : Step α := fun s => (.ok a, s)
def Step.fail (r : Res α) : Step α := fun s => (r, s)

def Step.bind (m : Step α) (f : α → Step β) : Step β := fun s =>
  match m s with
  | (.ok a, s') => f a s'
  | (.invalidIndex, s') => (.invalidIndex, s')
  | (.error, s') => (.error, s')
  | (.panic, s') => (.panic, s')

/-- A panic inside a function call is an error. -/
def Step.contain (m : Step α) : Step α := fun s =>
  match m s with
  | (.panic, s') => (.error, s')
  | r => r

/-- The meaning of a builder: from the values committed so far to the outcome and the values
committed then. -/
abbrev Sem := List Val → Res Doc × List Val

/-- What references are resolved against: the arguments and the fragments of the current
fragment. -/
structure Scope where
  args : List Val
  frags : List Sem

/-- The `i`-th element, counted from 1. -/
def item? (i : Int) (l : List α) : Option α := if 1 ≤ i then l[(i - 1).toNat]? else none

/-- Commit a value: the placeholder refers to its position.  `bad` values cannot be committed
(the Dollar style panics on values that cannot be map keys). -/
def commitDoc (bad : Val → Bool) (v : Val) : Step Doc := fun s =>
  if bad v then (.panic, s) else (.ok [.bind s.log.length], { s with log := s.log ++ [v] })

/-- `#arg`: the `i`-th argument. -/
def argDoc (bad : Val → Bool) (sc : Scope) (i : Int) : Step Doc :=
  match item? i sc.args with
  | none => .fail .invalidIndex
  | some v => fun s => commitDoc bad v { s with used := .arg i :: s.used }

/-- `#f`, `#fragment`: the `i`-th fragment. -/
def fragDoc (sc : Scope) (i : Int) : Step Doc :=
  match item? i sc.frags with
  | none => .fail .invalidIndex
  | some sem => fun s =>
    let r := sem s.log
    (r.1, { log := r.2, used := .frag i :: s.used })

/-- The index argument of `#arg`, `#f`, `#fragment`: exactly one number. -/
def indexArg (L : GoLib) : List CallArg → Option Int
  | [.num x] => some (x.toInt L)
  | [.int i] => some i
  | _ => none

/-- A string argument: a number literal cannot be converted to a string by reflection.  (`int`
cannot be written in a template.) -/
def strArg : CallArg → Res Str
  | .str s => .ok s
  | .num _ => .panic
  | .int _ => .ok []
  | _ => .error

/-- An index argument of `#join`. -/
def intArg (L : GoLib) : CallArg → Res Int
  | .num x => .ok (x.toInt L)
  | .int i => .ok i
  | _ => .error

def Res.bind (r : Res α) (f : α → Res β) : Res β :=
  match r with
  | .ok a => f a
  | .invalidIndex => .invalidIndex
  | .error => .error
  | .panic => .panic

def intArgs (L : GoLib) : List CallArg → Res (List Int)
  | [] => .ok []
  | a :: as => (intArg L a).bind fun i => (intArgs L as).bind fun is => .ok (i :: is)

/-- The arguments of `#join`: template, separator, and indexes. -/
def joinArgs (L : GoLib) : List CallArg → Res (Str × Str × List Int)
  | t :: u :: as => (strArg t).bind fun t => (strArg u).bind fun u =>
      (intArgs L as).bind fun is => .ok (t, u, is)
  | _ => .error

/-- The functions that can be used in a `#join` template. -/
def isListFunc (name : Str) : Bool :=
  name = lit "arg" || name = lit "f" || name = lit "fragment"

/-- The template with its bare functions applied to `i`. -/
def atIndex (i : Int) : List Expr → List Expr
  | [] => []
  | .func name :: es => .call name [.int i] :: atIndex i es
  | e :: es => e :: atIndex i es

def bareFuncs : List Expr → List Str
  | [] => []
  | .func name :: es => name :: bareFuncs es
  | _ :: es => bareFuncs es

/-- Append a piece with a separator, if it is not empty. -/
def joinDoc (sep : Str) (acc d : Doc) : Doc :=
  if d = [] then acc else if acc = [] then d else acc ++ Doc.ofStr sep ++ d

/-- The items of a join from index `i` on: all of them up to `to` if that is positive, otherwise
until an index is invalid.  An invalid index is an error for the first index if it was given
explicitly, and up to `to`.  (The number bounds the iterations; there are at most as many items
as the longer list of the scope has.) -/
def itemsDoc (eval : List Expr → Step Doc) (es : List Expr) (sep : Str) (first to : Int) :
    Nat → Int → Doc → Step Doc
  | 0, _, _ => .fail .error
  | n + 1, i, acc => fun s =>
    match eval (atIndex i es) s with
    | (.ok d, s') =>
      if to > 0 ∧ i ≥ to then (.ok (joinDoc sep acc d), s')
      else itemsDoc eval es sep first to n (i + 1) (joinDoc sep acc d) s'
    | (.invalidIndex, s') =>
      if (first > 0 ∧ i = first) ∨ (to > 0 ∧ i ≤ to) then (.invalidIndex, s') else (.ok acc, s')
    | (.error, s') => (.error, s')
    | (.panic, s') => (.panic, s')

/-- `#join(template, separator, first, last)` -/
def joinCall (parse : Str → Option (List Expr)) (eval : List Expr → Step Doc) (items : Nat)
    (tmpl sep : Str) (is : List Int) : Step Doc :=
  if is.length > 2 then .fail .error
  else
    let first := is.getD 0 0
    let to := is.getD 1 0
    if to > 0 ∧ first > to then .fail .error
    else
      match parse tmpl with
      | none => .fail .error
      | some es =>
        if !(bareFuncs es).all isListFunc || (bareFuncs es).isEmpty then .fail .error
        else itemsDoc eval es sep first to (items + 1) (if first ≤ 0 then 1 else first) []

/-- One expression of a clause. -/
def exprDoc (bad : Val → Bool) (sc : Scope) (call : Str → List CallArg → Step Doc) :
    Expr → Step Doc
  | .plain t => .pure (Doc.ofStr t)
  | .bindVar _ i =>
    match item? i sc.args with
    | none => .fail .error
    | some _ => argDoc bad sc i
  | .call name args => call name args
  | .func _ => .fail .error

/-- A clause: its expressions in order. -/
def clauseDoc (bad : Val → Bool) (sc : Scope) (call : Str → List CallArg → Step Doc) :
    List Expr → Step Doc
  | [] => .pure []
  | e :: es => (exprDoc bad sc call e).bind fun d =>
      (clauseDoc bad sc call es).bind fun d' => .pure (d ++ d')

/-- A call of a built-in function.  The number bounds the nesting of `#join` templates inside
`#join` templates (a nested one is a proper part of the text of the outer one, so the length of
the outermost text is enough). -/
def callDoc (L : GoLib) (parse : Str → Option (List Expr)) (bad : Val → Bool) (sc : Scope) :
    Nat → Str → List CallArg → Step Doc
  | depth, name, args =>
    if name = lit "arg" then
      match indexArg L args with
      | none => .fail .error
      | some i => (argDoc bad sc i).contain
    else if name = lit "f" ∨ name = lit "fragment" then
      match indexArg L args with
      | none => .fail .error
      | some i => (fragDoc sc i).contain
    else if name = lit "join" then
      match joinArgs L args with
      | .ok (tmpl, sep, is) =>
        match depth with
        | 0 => .fail .error
        | depth + 1 => (joinCall parse (clauseDoc bad sc (callDoc L parse bad sc depth))
            (max sc.args.length sc.frags.length) tmpl sep is).contain
      | .panic => .fail .panic
      | _ => .fail .error
    else .fail .error

/-- Every argument and fragment was referenced. -/
def allUsed (used : List Ref) (nArgs nFrags : Nat) : Bool :=
  (List.range nArgs).all (fun i => used.contains (.arg ((i : Int) + 1))) &&
  (List.range nFrags).all fun i => used.contains (.frag ((i : Int) + 1))

/-- A fragment whose own fragments mean `frags`. -/
def fragmentSem (L : GoLib) (parse : Str → Option (List Expr)) (bad : Val → Bool)
    (raw : Str) (args : List Val) (frags : List Sem) (pre suf : Str) : Sem := fun log =>
  match parse raw with
  | none => (.error, log)
  | some es =>
    let sc : Scope := { args, frags }
    match clauseDoc bad sc (callDoc L parse bad sc raw.length) es { log, used := [] } with
    | (.ok d, s) =>
      if allUsed s.used args.length frags.length then (.ok (decorateDoc pre suf d), s.log)
      else (.error, s.log)
    | (.invalidIndex, s) => (.invalidIndex, s.log)
    | (.error, s) => (.error, s.log)
    | (.panic, s) => (.panic, s.log)

/-! ## Builder trees -/

mutual
/-- Trees of fragments, columns and tables: no user code, no query builders. -/
def IsTree : Builder → Prop
  | .frag f => IsTreeF f
  | .column _ f => IsTreeF f
  | .custom _ => False
  | .qb _ => False
  | _ => True
def IsTreeF : Fragment → Prop
  | .mk _ _ frags _ _ => IsTreeL frags
def IsTreeL : List Builder → Prop
  | [] => True
  | b :: bs => IsTree b ∧ IsTreeL bs
end

mutual
/-- The meaning of a builder tree. -/
def sem (L : GoLib) (parse : Str → Option (List Expr)) (bad : Val → Bool) : Builder → Sem
  | .frag f => semF L parse bad f
  | .column _ f => semF L parse bad f
  | .table t => fun log => (.ok (Doc.ofStr t), log)
  | .aliased name alias => fun log => (.ok (Doc.ofStr (if alias = [] then name else alias)), log)
  | .nilFrag => fun log => (.ok [], log)
  | .columnNilFrag _ => fun log => (.ok [], log)
  | .nilQb => fun log => (.ok [], log)
  | _ => fun log => (.panic, log)
def semF (L : GoLib) (parse : Str → Option (List Expr)) (bad : Val → Bool) : Fragment → Sem
  | .mk raw args frags pre suf => fragmentSem L parse bad raw args (semL L parse bad frags) pre suf
def semL (L : GoLib) (parse : Str → Option (List Expr)) (bad : Val → Bool) :
    List Builder → List Sem
  | [] => []
  | b :: bs => sem L parse bad b :: semL L parse bad bs
end

end Sqlf.Spec
