import Verif.Spec.Lexer
import Verif.Spec.Cfg

/-!
# Reading a header of C or C++

The tokens of a header (`LexSpec.lex`) are read from left to right, as a compiler does: directives are carried
out (C11 6.10), tokens in groups that are skipped disappear, and the remaining tokens are the declarations.  The
result is the list of what is declared at file scope, the macros that are defined, and the files that are
included.  Macros are not expanded.  Nothing here refers to the writer.

Only the constructs of C (and, for a dialect of C++, of C++) that a header of declarations consists of are known;
the reader gives up (`none`) at anything else.
-/

namespace Cbindgen.HeadSpec
open LexSpec CSpec

/-- An enumerator, with its attributes and the tokens of its value. -/
structure Enumerator where
  name : Str
  attrs : List Lx
  value : Option (List Lx)

/-- A parameter of a template of C++ (C++17 17.1): a type, or a value. -/
inductive TParam
  | type (name : Str) (default : Option CTy)
  | value (name : Str) (ty : CTy) (default : Option (List Lx))

/-- What a declaration declares. -/
inductive CItem
  /-- a variable, a function or a member; `ext`: declared with `extern` -/
  | object (ext : Bool) (attrs : List Lx) (name : Str) (ty : CTy) (bits : List Lx)
  /-- a `typedef` of a type that is not defined there -/
  | alias (name : Str) (ty : CTy)
  /-- a tag without a definition -/
  | forward (kind : DeclKind) (tag : Str)
  /-- the definition of a `struct` or `union`; `name` is the name of the `typedef` -/
  | record (kind : DeclKind) (attrs : List Lx) (tag name : Option Str) (members : List CItem)
  /-- the definition of an `enum` -/
  | enumeration (attrs : List Lx) (tag : Option Str) (repr : Option CTy) (name : Option Str)
      (values : List Enumerator)
  /-- C++: the definition of an `enum class` -/
  | enumClass (attrs : List Lx) (name : Str) (repr : Option CTy) (values : List Enumerator)
  /-- C++: a variable with a value; `words`: the words before its type -/
  | constant (words : List Str) (name : Str) (ty : CTy) (value : List Lx)
  /-- C++: `using namespace` -/
  | usingSpace (name : Str)
  /-- C++: the declarations in a block for the linkage of a language -/
  | linkage (language : Str) (items : List CItem)
  /-- C++: the declarations in a namespace -/
  | space (name : Str) (items : List CItem)
  /-- C++: a template -/
  | template (params : List TParam) (item : CItem)

/-- The words that the reader knows to be attributes: those in declarators (pointers that may be null, functions
that do not return) and those that stand before or after whole declarations, possibly with arguments.
`cxx`: whether the language is C++. -/
structure Dialect where
  attrs : List Str := []
  macros : List Str := []
  cxx : Bool := false

/-! ## Attributes -/

/-- Where the reader is: outside, after the word of an attribute, or in its arguments. -/
inductive AMode
  | out
  | after
  | inside (depth : Nat)

def isMacro (macros : List Str) : Lx → Bool
  | .word w => decide (w ∈ macros)
  | _ => false

/-- The attributes at the start, and the rest. -/
def lead (macros : List Str) : AMode → List Lx → List Lx × List Lx
  | _, [] => ([], [])
  | .inside n, l :: ls =>
    let m := if l = .punct '(' then .inside (n + 1)
      else if l = .punct ')' then (if n = 0 then .out else .inside (n - 1)) else .inside n
    (l :: (lead macros m ls).1, (lead macros m ls).2)
  | m, l :: ls =>
    if isMacro macros l then (l :: (lead macros .after ls).1, (lead macros .after ls).2)
    else
      match m, l with
      | .after, .punct '(' => (l :: (lead macros (.inside 0) ls).1, (lead macros (.inside 0) ls).2)
      | _, _ => ([], l :: ls)

/-! ## Declarations -/

/-- A token, or what was between braces: declarations, or tokens. -/
inductive Part
  | tok (l : Lx)
  | group (members : List CItem) (rest : List Lx)

/-- The tokens, if there are no braces. -/
def plainToks : List Part → Option (List Lx)
  | [] => some []
  | .tok l :: ps => (plainToks ps).map (l :: ·)
  | .group _ _ :: _ => none

/-- The tokens, if there are only tokens in braces. -/
def flatToks : List Part → Option (List Lx)
  | [] => some []
  | .tok l :: ps => (flatToks ps).map (l :: ·)
  | .group [] rest :: ps => (flatToks ps).map fun ls => .punct '{' :: rest ++ .punct '}' :: ls
  | .group (_ :: _) _ :: _ => none

/-- The tokens before the first brace, what is between the braces, and the tokens after them. -/
def splitGroup : List Part → Option (List Lx × (List CItem × List Lx) × List Lx)
  | [] => none
  | .tok l :: ps => (splitGroup ps).map fun r => (l :: r.1, r.2)
  | .group ms rest :: ps => (plainToks ps).map fun post => ([], (ms, rest), post)

def tagKind (w : Str) : Option DeclKind :=
  if w = c!"struct" then some .struct else if w = c!"union" then some .union
  else if w = c!"enum" then some .enum else none

/-- The tokens before the first character `c`, and those after it. -/
def cutAt (c : Char) : List Lx → List Lx × Option (List Lx)
  | [] => ([], none)
  | l :: ls => if l = .punct c then ([], some ls) else (l :: (cutAt c ls).1, (cutAt c ls).2)

/-- A variable, a function or a member (C11 6.7, 6.7.2.1). -/
def readObject (R : Dialect) (ext : Bool) (ls : List Lx) : Option CItem :=
  let p := lead R.macros .out ls
  let decl := p.2.takeWhile fun l => !isMacro R.macros l
  let trail := p.2.dropWhile fun l => !isMacro R.macros l
  if (lead R.macros .out trail).2 = [] then
    (readDeclared R.attrs (cutAt ':' decl).1).map fun r =>
      .object ext (p.1 ++ trail) r.1 r.2.forgetFnPtr ((cutAt ':' decl).2.getD [])
  else none

/-- An optional tag. -/
def readTag : List Lx → Option (Option Str)
  | [] => some none
  | [.word n] => some (some n)
  | _ => none

/-- The optional name after a definition; it is a name of a type after `typedef`. -/
def readAlias (isTypedef : Bool) : List Lx → Option (Option Str)
  | [] => if isTypedef then none else some none
  | [.word n] => if isTypedef then some (some n) else none
  | _ => none

/-- An enumerator (C11 6.7.2.2). -/
def readEnumerator (R : Dialect) : List Lx → Option Enumerator
  | .word n :: ls =>
    let p := lead R.macros .out ls
    match p.2 with
    | [] => some ⟨n, p.1, none⟩
    | .punct '=' :: v => some ⟨n, p.1, some v⟩
    | _ => none
  | _ => none

/-- The tokens between commas; a comma at the end is allowed. -/
def splitCommas : List Lx → List Lx → List (List Lx)
  | [], [] => []
  | cur, [] => [cur]
  | cur, l :: ls => if l = .punct ',' then cur :: splitCommas [] ls else splitCommas (cur ++ [l]) ls

def readAll {α β : Type} (f : α → Option β) : List α → Option (List β)
  | [] => some []
  | x :: xs =>
    match f x, readAll f xs with
    | some y, some ys => some (y :: ys)
    | _, _ => none

def startsWith (w : Str) : List Lx → Bool
  | .word v :: _ => decide (v = w)
  | _ => false

/-- The definition of an `enum class` without the words `enum class` (C++17 10.2). -/
def readEnumClass (R : Dialect) (ls : List Lx) (name : Option Str) (members : List CItem) (rest : List Lx) : Option CItem :=
  let p := lead R.macros .out ls
  let h := cutAt ':' p.2
  match h.1, name, readAll (readEnumerator R) (splitCommas [] rest), members, h.2 with
  | [.word n], none, some values, [], none => some (.enumClass p.1 n none values)
  | [.word n], none, some values, [], some r => (readTyped R.attrs r).map fun t => .enumClass p.1 n (some t) values
  | _, _, _, _, _ => none

/-- A definition of a type (C11 6.7.2.1, 6.7.2.2; the type of an `enum` as in C23). -/
def readDefinition (R : Dialect) (isTypedef : Bool) (pre : List Lx) (members : List CItem) (rest post : List Lx) :
    Option CItem :=
  match pre with
  | .word w :: ls =>
    let p := lead R.macros .out ls
    match tagKind w, readAlias isTypedef post with
    | some .enum, some name =>
      if R.cxx && startsWith c!"class" ls then readEnumClass R (ls.drop 1) name members rest
      else
      let h := cutAt ':' p.2
      match readTag h.1, readAll (readEnumerator R) (splitCommas [] rest), members, h.2 with
      | some tag, some values, [], none => some (.enumeration p.1 tag none name values)
      | some tag, some values, [], some r =>
        (readTyped R.attrs r).map fun t => .enumeration p.1 tag (some t) name values
      | _, _, _, _ => none
    | some k, some name =>
      match readTag p.2, rest with
      | some tag, [] => some (.record k p.1 tag name members)
      | _, _ => none
    | none, _ => none
    | _, none => none
  | _ => none

/-- A declaration without braces. -/
def readPlain (R : Dialect) : List Lx → Option (List CItem)
  | [] => some []
  | .word w :: ls =>
    if w = c!"typedef" then (readDeclared R.attrs ls).map fun r => [.alias r.1 r.2.forgetFnPtr]
    else if w = c!"extern" then (readObject R true ls).map fun i => [i]
    else
      match tagKind w, ls with
      | some k, [.word n] => some [.forward k n]
      | _, _ => (readObject R false (.word w :: ls)).map fun i => [i]
  | ls => (readObject R false ls).map fun i => [i]

/-- An optional `typedef`. -/
def takeTypedef : List Lx → Bool × List Lx
  | .word w :: ls => if w = c!"typedef" then (true, ls) else (false, .word w :: ls)
  | ls => (false, ls)

/-- A declaration of C (most of them are the same in C++). -/
def declarationC (R : Dialect) (ps : List Part) : Option (List CItem) :=
  match plainToks ps with
  | some ls => readPlain R ls
  | none =>
    match splitGroup ps with
    | some (pre, (members, rest), post) =>
      (readDefinition R (takeTypedef pre).1 (takeTypedef pre).2 members rest post).map fun i => [i]
    | none => none

/-! ## C++ -/

/-- The words that stand before the type of a constant. -/
def constWords : List Str := [c!"constexpr", c!"static", c!"inline"]

/-- The words at the start of the declarations that only C++ has. -/
def cxxWords : List Str := c!"template" :: c!"using" :: c!"namespace" :: constWords

/-- The words `constexpr`, `static` and `inline` at the start, and the rest. -/
def takeConstWords : List Lx → List Str × List Lx
  | .word w :: ls => if w ∈ constWords then (w :: (takeConstWords ls).1, (takeConstWords ls).2) else ([], .word w :: ls)
  | ls => ([], ls)

/-- A declaration that only C++ has: an alias (C++17 10.1.3), a directive `using namespace` (C++17 10.3.4), or a variable
with a value. -/
def readPlainCxx (R : Dialect) : List Lx → Option (List CItem)
  | .word w :: ls =>
    if w = c!"using" then
      match ls with
      | [.word v, .word n] => if v = c!"namespace" then some [.usingSpace n] else none
      | .word n :: .punct '=' :: ts => (readTyped R.attrs ts).map fun t => [.alias n t.forgetFnPtr]
      | _ => none
    else if w = c!"namespace" ∨ w = c!"template" then none
    else
      let p := takeConstWords (.word w :: ls)
      match (cutAt '=' p.2).2 with
      | some value =>
        (readDeclared R.attrs (cutAt '=' p.2).1).map fun r => [.constant p.1 r.1 r.2.forgetFnPtr value]
      | none => none
  | _ => none

/-- Whether the declaration starts with a word that only C++ has. -/
def cxxStart (R : Dialect) : List Part → Bool
  | .tok (.word w) :: _ => R.cxx && decide (w ∈ cxxWords)
  | _ => false

/-- A declaration that is no template. -/
def declaration (R : Dialect) (ps : List Part) : Option (List CItem) :=
  if cxxStart R ps then
    match flatToks ps with
    | some ls => readPlainCxx R ls
    | none => none
  else declarationC R ps

/-- How many brackets are open after a token. -/
def depthAfter (n : Nat) (l : Lx) : Nat :=
  if l = .punct '<' ∨ l = .punct '(' then n + 1 else if l = .punct '>' ∨ l = .punct ')' then n - 1 else n

/-- The tokens before the `>` that closes, and what follows it. -/
def takeAngles : Nat → List Part → Option (List Lx × List Part)
  | _, [] => none
  | _, .group _ _ :: _ => none
  | n, .tok l :: ps =>
    if n = 0 ∧ l = .punct '>' then some ([], ps)
    else (takeAngles (depthAfter n l) ps).map fun r => (l :: r.1, r.2)

/-- The tokens between the commas that are not in brackets. -/
def splitParams : Nat → List Lx → List Lx → List (List Lx)
  | _, cur, [] => [cur]
  | n, cur, l :: ls =>
    if n = 0 ∧ l = .punct ',' then cur :: splitParams 0 [] ls else splitParams (depthAfter n l) (cur ++ [l]) ls

/-- A parameter of a template. -/
def readTParam (R : Dialect) : List Lx → Option TParam
  | .word w :: ls =>
    if w = c!"typename" then
      match ls with
      | [.word n] => some (.type n none)
      | .word n :: .punct '=' :: ts => (readTyped R.attrs ts).map fun t => .type n (some t.forgetFnPtr)
      | _ => none
    else
      (readDeclared R.attrs (cutAt '=' (.word w :: ls)).1).map fun r =>
        .value r.1 r.2.forgetFnPtr (cutAt '=' (.word w :: ls)).2
  | _ => none

def templateStart (R : Dialect) : List Part → Bool
  | .tok (.word w) :: _ => R.cxx && decide (w = c!"template")
  | _ => false

/-- A template without the word `template`: its parameters and what it declares. -/
def readTemplate (R : Dialect) : List Part → Option (List CItem)
  | .tok (.punct '<') :: ps =>
    match takeAngles 0 ps with
    | some (ls, rest) =>
      match readAll (readTParam R) (splitParams 0 [] ls), declaration R rest with
      | some params, some [i] => some [.template params i]
      | _, _ => none
    | none => none
  | _ => none

/-- What stands before a semicolon. -/
def statement (R : Dialect) (ps : List Part) : Option (List CItem) :=
  if templateStart R ps then readTemplate R (ps.drop 1) else declaration R ps

/-- A block of declarations: one with a linkage, `extern "C" {` (C++17 10.5), or a namespace (C++17 10.3.1). -/
def blockOf (R : Dialect) : List Part → Option (List CItem → CItem)
  | [.tok (.word w), .tok (.quoted _ language)] => if R.cxx && decide (w = c!"extern") then some (.linkage language) else none
  | [.tok (.word w), .tok (.word n)] => if R.cxx && decide (w = c!"namespace") then some (.space n) else none
  | _ => none

/-! ## The preprocessor -/

/-- The tokens of a condition.  A comparison `A >= N` is taken as one variable. -/
def condToks : List Lx → Option (List CfgSpec.BTok)
  | [] => some []
  | .word a :: .punct '>' :: .punct '=' :: .word n :: ls =>
    (condToks ls).map fun ts => .id c!"defined" :: .lp :: .id (a ++ c!" >= " ++ n) :: .rp :: ts
  | .word w :: ls => (condToks ls).map fun ts => .id w :: ts
  | .punct '|' :: .punct '|' :: ls => (condToks ls).map fun ts => .oror :: ts
  | .punct '&' :: .punct '&' :: ls => (condToks ls).map fun ts => .andand :: ts
  | .punct '(' :: ls => (condToks ls).map fun ts => .lp :: ts
  | .punct ')' :: ls => (condToks ls).map fun ts => .rp :: ts
  | .punct '!' :: ls => (condToks ls).map fun ts => .bang :: ts
  | _ => none

/-- The value of a condition. -/
def evalCond (truth : Str → Bool) (ls : List Lx) : Option Bool :=
  if ls = [.word c!"0"] then some false
  else
  match condToks ls with
  | some ts =>
    match CfgSpec.pOr (6 * ts.length + 6) .c ts with
    | some (e, []) => some (e.eval truth)
    | _ => none
  | none => none

/-- The declarations so far at some level of braces, and the declaration that is being read. -/
structure Frame where
  done : List CItem := []
  cur : List Part := []

/-- What a header gives. -/
structure Out where
  items : List CItem := []
  macros : List (Str × List Lx) := []
  includes : List (List Lx) := []

/-- The state of the reader.  `conds`: for each `#if` that is open, whether the current group is compiled. -/
structure St where
  conds : List Bool := []
  dir : Option (List Lx) := none
  frames : List Frame := [{}]
  macros : List (Str × List Lx) := []
  includes : List (List Lx) := []

/-- Whether tokens are compiled. -/
def St.active (s : St) : Bool := s.conds.all id

/-- The macros that are defined: those that are given (`on`), and those that the header has defined so far. -/
def St.truth (on : Str → Bool) (s : St) (x : Str) : Bool := on x || s.macros.any fun m => m.1 == x

/-- The start of a group. -/
def St.enter (s : St) (b : Bool) : St := { s with conds := b :: s.conds }

/-- A condition is only looked at where tokens are compiled. -/
def St.enterIf (s : St) (v : Option Bool) : Option St :=
  if s.active then v.map s.enter else some (s.enter false)

/-- A directive (C11 6.10). -/
def directive (on : Str → Bool) (s : St) : List Lx → Option St
  | [] => some s
  | .word d :: ls =>
    if d = c!"if" then s.enterIf (evalCond (s.truth on) ls)
    else if d = c!"ifdef" then
      match ls with
      | [.word x] => s.enterIf (some (s.truth on x))
      | _ => none
    else if d = c!"ifndef" then
      match ls with
      | [.word x] => s.enterIf (some (!s.truth on x))
      | _ => none
    else if d = c!"else" then
      match ls, s.conds with
      | [], b :: bs => some { s with conds := (!b) :: bs }
      | _, _ => none
    else if d = c!"endif" then
      match ls, s.conds with
      | [], _ :: bs => some { s with conds := bs }
      | _, _ => none
    else if s.active then
      if d = c!"define" then
        match ls with
        | .word x :: body => some { s with macros := s.macros ++ [(x, body)] }
        | _ => none
      else if d = c!"include" then some { s with includes := s.includes ++ [ls] }
      else if d = c!"pragma" then some s
      else none
    else some s
  | _ => none

/-- The end of braces.  A block is a declaration; otherwise what is in the braces is a part of one. -/
def close (R : Dialect) (g : Frame) (items : List CItem) (rest : List Lx) : Frame :=
  match blockOf R g.cur, rest with
  | some block, [] => ⟨g.done ++ [block items], []⟩
  | _, _ => { g with cur := g.cur ++ [.group items rest] }

/-- A token that is compiled. -/
def code (R : Dialect) (s : St) (l : Lx) : Option St :=
  match s.frames with
  | [] => none
  | f :: fs =>
    if l = .punct '{' then some { s with frames := {} :: f :: fs }
    else if l = .punct '}' then
      match fs, flatToks f.cur with
      | g :: gs, some rest => some { s with frames := close R g f.done rest :: gs }
      | _, _ => none
    else if l = .punct ';' then
      (statement R f.cur).map fun xs => { s with frames := ⟨f.done ++ xs, []⟩ :: fs }
    else some { s with frames := { f with cur := f.cur ++ [.tok l] } :: fs }

/-- One token. -/
def step (R : Dialect) (on : Str → Bool) (s : St) (l : Lx) : Option St :=
  match s.dir with
  | none =>
    if l = .hash then some { s with dir := some [] }
    else if s.active then code R s l else some s
  | some ts =>
    if l = .eol then directive on { s with dir := none } ts
    else some { s with dir := some (ts ++ [l]) }

/-- All tokens. -/
def run (R : Dialect) (on : Str → Bool) : St → List Lx → Option St
  | s, [] => some s
  | s, l :: ls => (step R on s l).bind fun s' => run R on s' ls

/-- What a header gives that is included where exactly the macros in `on` are defined. -/
def readHeader (R : Dialect) (on : Str → Bool) (t : Str) : Option Out :=
  match lex t with
  | some ls =>
    match run R on {} ls with
    | some ⟨[], none, [⟨items, []⟩], macros, includes⟩ => some ⟨items, macros, includes⟩
    | _ => none
  | none => none

end Cbindgen.HeadSpec
