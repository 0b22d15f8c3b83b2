import Verif.Spec.Lexer

/-!
# Reading member functions of C++

Member functions of the form `bool operator<relation>(const S& p) const { .. }` and `bool name() const { .. }`,
functions without a result, and what their bodies do: comparisons of members that are joined by `&&` and `||`
(C++ [expr.log.and], [expr.log.or]: `&&` binds tighter, and neither looks at its right side if the left one
decides), `return`, `if`, `switch` with labels (statements are run from the label on, up to a `break`), destructor
calls and placement copies.  A name in a body is the parameter if it is the name of the parameter, and a member of
`*this` otherwise ([basic.scope.hiding]).  Nothing here refers to the writer.
-/

namespace Cbindgen.CxxSpec
open LexSpec

inductive Rel
  | eq | ne | lt | le | gt | ge
  deriving DecidableEq

/-- Operands: `x`, `o.x`, `A::B` and `*this`. -/
inductive Atom
  | name (x : Str)
  | member (o x : Str)
  | konst (a b : Str)
  | self
  deriving DecidableEq

structure Cmp where
  l : Atom
  rel : Rel
  r : Atom
  deriving DecidableEq

/-- Alternatives (`||`) of conjunctions (`&&`), all of it perhaps in `!( .. )`. -/
structure Cond where
  neg : Bool
  alts : List (List Cmp)
  deriving DecidableEq

/-- What a statement does to members: `x.~S();` and `::new (&x) (S)(o.y);`. -/
inductive Act
  | destroy (x cls : Str)
  | copy (x cls o y : Str)
  deriving DecidableEq

inductive Simple
  | ret (c : Cond)
  | retLit (b : Bool)
  | brk
  | act (a : Act)
  deriving DecidableEq

/-- What is in a `switch`: labels (`none` is `default`) and statements. -/
inductive Item
  | label (a : Option Atom)
  | stmt (s : Simple)
  deriving DecidableEq

inductive Stmt
  | simple (s : Simple)
  | cond (c : Cond) (body : List Simple)
  | switch (a : Atom) (items : List Item)
  deriving DecidableEq

/-! ## Reading -/

def readAtom : List Lx → Option (Atom × List Lx)
  | .word o :: .punct '.' :: .word x :: r => some (.member o x, r)
  | .word a :: .punct ':' :: .punct ':' :: .word b :: r => some (.konst a b, r)
  | .word x :: r => some (.name x, r)
  | .punct '*' :: .word x :: r => if x = c!"this" then some (.self, r) else none
  | _ => none

def readRel : List Lx → Option (Rel × List Lx)
  | .punct '=' :: .punct '=' :: r => some (.eq, r)
  | .punct '!' :: .punct '=' :: r => some (.ne, r)
  | .punct '<' :: .punct '=' :: r => some (.le, r)
  | .punct '>' :: .punct '=' :: r => some (.ge, r)
  | .punct '<' :: r => some (.lt, r)
  | .punct '>' :: r => some (.gt, r)
  | _ => none

def readCmp (ls : List Lx) : Option (Cmp × List Lx) :=
  (readAtom ls).bind fun a => (readRel a.2).bind fun p => (readAtom p.2).map fun b => (⟨a.1, p.1, b.1⟩, b.2)

/-- Is the next token the operator `cc`?  Then what is after it. -/
def after (c : Char) : List Lx → Option (List Lx)
  | .punct x :: .punct y :: r => if x = c ∧ y = c then some r else none
  | _ => none

def readAnds : Nat → List Lx → Option (List Cmp × List Lx)
  | 0, _ => none
  | n + 1, ls => (readCmp ls).bind fun p =>
    match after '&' p.2 with
    | some r => (readAnds n r).map fun q => (p.1 :: q.1, q.2)
    | none => some ([p.1], p.2)

def readOrs : Nat → List Lx → Option (List (List Cmp) × List Lx)
  | 0, _ => none
  | n + 1, ls => (readAnds (n + 1) ls).bind fun p =>
    match after '|' p.2 with
    | some r => (readOrs n r).map fun q => (p.1 :: q.1, q.2)
    | none => some ([p.1], p.2)

/-- The one given character. -/
def expect (c : Char) : List Lx → Option (List Lx)
  | .punct x :: r => if x = c then some r else none
  | _ => none

def readCond : List Lx → Option (Cond × List Lx)
  | .punct '!' :: .punct '(' :: ls =>
    (readOrs ls.length ls).bind fun p => (expect ')' p.2).map fun r => (⟨true, p.1⟩, r)
  | ls => (readOrs ls.length ls).map fun p => (⟨false, p.1⟩, p.2)

/-- `true;` or `false;`. -/
def readLit : List Lx → Option (Bool × List Lx)
  | .word b :: .punct ';' :: r => if b = c!"true" then some (true, r) else if b = c!"false" then some (false, r) else none
  | _ => none

def readRet (ls : List Lx) : Option (Simple × List Lx) :=
  match readLit ls with
  | some p => some (.retLit p.1, p.2)
  | none => (readCond ls).bind fun p => (expect ';' p.2).map fun r => (.ret p.1, r)

def readSimple : List Lx → Option (Simple × List Lx)
  | .word x :: .punct '.' :: .punct '~' :: .word s :: .punct '(' :: .punct ')' :: .punct ';' :: r =>
    some (.act (.destroy x s), r)
  | .punct ':' :: .punct ':' :: .word w :: .punct '(' :: .punct '&' :: .word x :: .punct ')' :: .punct '(' :: .word s ::
      .punct ')' :: .punct '(' :: .word o :: .punct '.' :: .word y :: .punct ')' :: .punct ';' :: r =>
    if w = c!"new" then some (.act (.copy x s o y), r) else none
  | .word k :: ls =>
    if k = c!"return" then readRet ls
    else if k = c!"break" then (expect ';' ls).map fun r => (.brk, r)
    else none
  | _ => none

/-- Statements up to the closing brace. -/
def readSimples : Nat → List Lx → Option (List Simple × List Lx)
  | 0, _ => none
  | n + 1, ls =>
    match expect '}' ls with
    | some r => some ([], r)
    | none => (readSimple ls).bind fun p => (readSimples n p.2).map fun q => (p.1 :: q.1, q.2)

def readItem : List Lx → Option (Item × List Lx)
  | .word k :: ls =>
    if k = c!"case" then (readAtom ls).bind fun p => (expect ':' p.2).map fun r => (.label (some p.1), r)
    else if k = c!"default" then (expect ':' ls).map fun r => (.label none, r)
    else (readSimple (.word k :: ls)).map fun p => (.stmt p.1, p.2)
  | ls => (readSimple ls).map fun p => (.stmt p.1, p.2)

def readItems : Nat → List Lx → Option (List Item × List Lx)
  | 0, _ => none
  | n + 1, ls =>
    match expect '}' ls with
    | some r => some ([], r)
    | none => (readItem ls).bind fun p => (readItems n p.2).map fun q => (p.1 :: q.1, q.2)

/-- `) {`. -/
def readOpen (ls : List Lx) : Option (List Lx) := (expect ')' ls).bind (expect '{')

def readIf (ls : List Lx) : Option (Stmt × List Lx) :=
  (readCond ls).bind fun p => (readOpen p.2).bind fun r =>
    (readSimples r.length r).map fun q => (.cond p.1 q.1, q.2)

def readSwitch (ls : List Lx) : Option (Stmt × List Lx) :=
  (readAtom ls).bind fun p => (readOpen p.2).bind fun r =>
    (readItems r.length r).map fun q => (.switch p.1 q.1, q.2)

def readStmt : List Lx → Option (Stmt × List Lx)
  | .word k :: .punct '(' :: ls =>
    if k = c!"if" then readIf ls
    else if k = c!"switch" then readSwitch ls
    else (readSimple (.word k :: .punct '(' :: ls)).map fun p => (.simple p.1, p.2)
  | ls => (readSimple ls).map fun p => (.simple p.1, p.2)

def readStmts : Nat → List Lx → Option (List Stmt × List Lx)
  | 0, _ => none
  | n + 1, ls =>
    match expect '}' ls with
    | some r => some ([], r)
    | none => (readStmt ls).bind fun p => (readStmts n p.2).map fun q => (p.1 :: q.1, q.2)

/-- What the function is: an operator with a parameter of the class, a test, a destructor, or a constructor
that copies (with the name of the member that it initialises by that of the other object). -/
inductive Head
  | op (r : Rel) (cls param : Str)
  | test (name : Str)
  | dtor (cls : Str)
  | copyCtor (cls param init : Str)
  deriving DecidableEq

structure Member where
  head : Head
  body : List Stmt
  deriving DecidableEq

def readOpHead : List Lx → Option (Head × List Lx)
  | ls => (readRel ls).bind fun p =>
    match p.2 with
    | .punct '(' :: .word k :: .word s :: .punct '&' :: .word x :: .punct ')' :: .word k' :: .punct '{' :: r =>
      if k = c!"const" ∧ k' = c!"const" then some (.op p.1 s x, r) else none
    | _ => none

def readHead : List Lx → Option (Head × List Lx)
  | .punct '~' :: .word s :: .punct '(' :: .punct ')' :: .punct '{' :: r => some (.dtor s, r)
  | .word s :: .punct '(' :: .word k :: .word s' :: .punct '&' :: .word x :: .punct ')' :: .punct ':' :: .word y ::
      .punct '(' :: .word x' :: .punct '.' :: .word y' :: .punct ')' :: .punct '{' :: r =>
    if k = c!"const" ∧ s' = s ∧ x' = x ∧ y' = y then some (.copyCtor s x y, r) else none
  | .word b :: .word n :: .punct '(' :: .punct ')' :: .word k :: .punct '{' :: r =>
    if b = c!"bool" ∧ k = c!"const" then some (.test n, r) else none
  | .word b :: .word o :: ls => if b = c!"bool" ∧ o = c!"operator" then readOpHead ls else none
  | _ => none

def readMember (ls : List Lx) : Option Member :=
  (readHead ls).bind fun p => (readStmts p.2.length p.2).bind fun q => if q.2 = [] then some ⟨p.1, q.1⟩ else none

/-- The text has the member function: a part of it is nothing else. -/
def Has (t : Str) (k : Member) : Prop := ∃ a m b, t = a ++ (m ++ b) ∧ (lex m).bind readMember = some k

/-! ## What it does -/

/-- What the operands are. -/
structure Scope (V : Type) where
  name : Str → Option V
  member : Str → Str → Option V
  konst : Str → Str → Option V
  self : Option V
  cmp : Rel → V → V → Option Bool

/-- In a member function with the parameter `p`: the members and the whole of both objects, the constants, and what
comparisons give. -/
def Scope.within {V : Type} (p : Str) (this other : Str → Option V) (whole whole' : V) (const : Str → Str → Option V)
    (cmp : Rel → V → V → Option Bool) : Scope V :=
  { name := fun x => if x = p then some whole' else this x
    member := fun o x => if o = p then other x else none
    konst := const
    self := some whole
    cmp := cmp }

/-- In a member function without a parameter. -/
def Scope.plain {V : Type} (this : Str → Option V) (const : Str → Str → Option V) (cmp : Rel → V → V → Option Bool) : Scope V :=
  { name := this, member := fun _ _ => none, konst := const, self := none, cmp := cmp }

variable {V : Type}

def Atom.eval (e : Scope V) : Atom → Option V
  | .name x => e.name x
  | .member o x => e.member o x
  | .konst a b => e.konst a b
  | .self => e.self

def Cmp.eval (e : Scope V) (c : Cmp) : Option Bool :=
  (c.l.eval e).bind fun x => (c.r.eval e).bind fun y => e.cmp c.rel x y

/-- `&&`. -/
def evalAnds (e : Scope V) : List Cmp → Option Bool
  | [] => some true
  | c :: cs => (c.eval e).bind fun b => if b then evalAnds e cs else some false

/-- `||`. -/
def evalOrs (e : Scope V) : List (List Cmp) → Option Bool
  | [] => some false
  | c :: cs => (evalAnds e c).bind fun b => if b then some true else evalOrs e cs

def Cond.eval (e : Scope V) (c : Cond) : Option Bool := (evalOrs e c.alts).map fun b => b != c.neg

/-- How statements end. -/
inductive Flow
  | next
  | brk
  | ret (b : Bool)
  deriving DecidableEq

def Simple.run (e : Scope V) : Simple → Option (List Act × Flow)
  | .ret c => (c.eval e).map fun b => ([], .ret b)
  | .retLit b => some ([], .ret b)
  | .brk => some ([], .brk)
  | .act a => some ([a], .next)

/-- First `p`, and then `q` if `p` just ends. -/
def andThen (p : Option (List Act × Flow)) (q : Option (List Act × Flow)) : Option (List Act × Flow) :=
  p.bind fun x => if x.2 = .next then q.map fun y => (x.1 ++ y.1, y.2) else some x

def runSimples (e : Scope V) : List Simple → Option (List Act × Flow)
  | [] => some ([], .next)
  | s :: ss => andThen (s.run e) (runSimples e ss)

/-- The statements of a `switch`, without the labels. -/
def statements : List Item → List Simple
  | [] => []
  | .label _ :: is => statements is
  | .stmt s :: is => s :: statements is

/-- The statements from the label on whose value is `v`. -/
def fromLabel (e : Scope V) (v : V) : List Item → Option (Option (List Simple))
  | [] => some none
  | .label (some a) :: is => (a.eval e).bind fun x => (e.cmp .eq v x).bind fun b =>
    if b then some (some (statements is)) else fromLabel e v is
  | _ :: is => fromLabel e v is

/-- The statements from `default` on. -/
def fromDefault : List Item → List Simple
  | [] => []
  | .label none :: is => statements is
  | _ :: is => fromDefault is

/-- `break` ends the `switch` only. -/
def leave (x : List Act × Flow) : List Act × Flow := (x.1, if x.2 = .brk then .next else x.2)

def runSwitch (e : Scope V) (v : V) (items : List Item) : Option (List Act × Flow) :=
  (fromLabel e v items).bind fun o => (runSimples e (o.getD (fromDefault items))).map leave

def Stmt.run (e : Scope V) : Stmt → Option (List Act × Flow)
  | .simple s => s.run e
  | .cond c b => (c.eval e).bind fun x => if x then runSimples e b else some ([], .next)
  | .switch a is => (a.eval e).bind fun v => runSwitch e v is

def runStmts (e : Scope V) : List Stmt → Option (List Act × Flow)
  | [] => some ([], .next)
  | s :: ss => andThen (s.run e) (runStmts e ss)

/-- The result of the function; `none` if it has none. -/
def Member.result (k : Member) (e : Scope V) : Option Bool :=
  match runStmts e k.body with
  | some (_, .ret b) => some b
  | _ => none

/-- What a function without a result does. -/
def Member.acts (k : Member) (e : Scope V) : Option (List Act) :=
  match runStmts e k.body with
  | some (as, .next) => some as
  | _ => none

end Cbindgen.CxxSpec
