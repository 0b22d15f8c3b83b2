import Verif.Model.Config

/-!
# The source writer (src/bindgen/writer.rs)

The backends never look at what they have written.  They only call the methods of `SourceWriter`.
A backend function is therefore modelled as the list of calls that it makes (`WOp`), and the writer
as an interpreter of such lists (`WOp.exec`).

The output stream is only ever appended to, so the interpreter returns the text that is appended,
together with the new writer state.  Lengths are lengths in bytes of UTF-8 text.
-/

namespace Cbindgen

/-- The calls that the backends make.

* `text s` is `write` / `write!` with the text `s` (writer.rs:198-209).
* `raw s` is `write_raw_block` (202-205).
* `pushAlign` is `push_set_spaces(line_length_for_align())`, the only use of
  `line_length_for_align` (249-250 and cdecl.rs:313-314).
* `pushSpaces n` is `push_set_spaces(n)`; `pop` is `pop_tab` / `pop_set_spaces`.
* `tryElse m h v` is `if !out.try_write(h, m) { v }`, the only form in which `try_write` is used
  (language_backend/mod.rs:42-47 and cdecl.rs:351-356).
* `panic` stands for a panic of the backend. -/
inductive WOp
  | text (s : Str)
  | raw (s : Str)
  | newLine
  | newLineIfNotStart
  | pushTab
  | pushSpaces (n : Nat)
  | pushAlign
  | pop
  | tryElse (max : Nat) (h v : List WOp)
  | panic

/-- `LineEndingStyle`, src/bindgen/config.rs:65-75; `native` is taken to be a platform other than
Windows. -/
inductive LineEnding
  | lf
  | cr
  | crlf
  | native
  deriving DecidableEq

/-- `LineEndingStyle::as_str`, src/bindgen/config.rs:77-95. -/
def LineEnding.asStr : LineEnding → Str
  | .lf => ['\n']
  | .cr => ['\r']
  | .crlf => ['\r', '\n']
  | .native => ['\n']

/-- The options read by the writer: `tab_width` and `line_endings`, src/bindgen/config.rs:944-946. -/
structure WConfig where
  tabWidth : Nat := 2
  lineEnding : LineEnding := .lf

/-- `SourceWriter`, src/bindgen/writer.rs:48-56, without the output stream and the bindings.
`spaces` has the top of the stack first. -/
structure W where
  spaces : List Nat := [0]
  lineStarted : Bool := false
  lineLength : Nat := 0
  lineNumber : Nat := 1
  maxLineLength : Nat := 0
  deriving DecidableEq, Repr

/-- The number of bytes of a text. -/
def byteLen (s : Str) : Nat := (s.map Char.utf8Size).sum

/-- The accounting of `InnerWriter::write`, src/bindgen/writer.rs:36-39. -/
def W.wrote (w : W) (n : Nat) : W :=
  { w with lineLength := w.lineLength + n,
           maxLineLength := Nat.max w.maxLineLength (w.lineLength + n) }

/-- `InnerWriter::write`, src/bindgen/writer.rs:25-40, for all the pieces of one `write!`.  An empty
text makes no call of `write`.  `none` is the `unwrap` of `spaces()` (114-116). -/
def W.put (w : W) (s : Str) : Option (Str × W) :=
  if s = [] then some ([], w)
  else if w.lineStarted then some (s, w.wrote (byteLen s))
  else
    match w.spaces with
    | [] => none
    | n :: _ =>
      some (List.replicate n ' ' ++ s,
        ({ w with lineStarted := true, lineLength := w.lineLength + n } : W).wrote (byteLen s))

/-- `new_line`, src/bindgen/writer.rs:145-152. -/
def W.endLine (w : W) : W :=
  { w with lineStarted := false, lineLength := 0, lineNumber := w.lineNumber + 1 }

/-- `push_tab`, src/bindgen/writer.rs:134-138; a tab width of zero is a division by zero. -/
def W.pushTab (tab : Nat) (w : W) : Option W :=
  match w.spaces with
  | [] => none
  | n :: rest => if tab = 0 then none else some { w with spaces := (n - n % tab + tab) :: n :: rest }

/-- `line_length_for_align`, src/bindgen/writer.rs:126-132, and `push_set_spaces`, 118-120. -/
def W.pushAlign (w : W) : Option W :=
  if w.lineStarted then some { w with spaces := w.lineLength :: w.spaces }
  else
    match w.spaces with
    | [] => none
    | n :: rest => some { w with spaces := (w.lineLength + n) :: n :: rest }

/-- `pop_tab`, src/bindgen/writer.rs:140-143. -/
def W.pop (w : W) : Option W :=
  match w.spaces with
  | [] => none
  | _ :: rest => some { w with spaces := rest }

/-- The writer that measures, src/bindgen/writer.rs:89-97. -/
def W.measurer (w : W) : W := { w with maxLineLength := w.lineLength }

/-- An operation that writes nothing. -/
def silent (w : Option W) : Option (Str × W) := w.map fun w => ([], w)

/-- The end of a successful `try_write`, src/bindgen/writer.rs:107-111. -/
def W.flush (w : W) (buffer : Str) : Option (Str × W) := ({ w with lineStarted := true } : W).put buffer

/-- The outcome of `try_write` given what the measuring writer did, src/bindgen/writer.rs:83-111:
`none` for a panic, `some none` for `false` and `some (some _)` for `true`. -/
def W.tryFlush (w : W) (max : Nat) (measured : Option (Str × W)) : Option (Option (Str × W)) :=
  if w.lineLength > max then some none
  else
    match measured with
    | none => none
    | some (buffer, m) =>
      if m.maxLineLength > max then some none else (w.flush buffer).map some

/-- `if !out.try_write(h, max) { v }`. -/
def W.orElse (tried : Option (Option (Str × W))) (fallback : Option (Str × W)) : Option (Str × W) :=
  match tried with
  | none => none
  | some none => fallback
  | some (some r) => some r

/-- One operation after another. -/
def andThen (r : Option (Str × W)) (k : W → Option (Str × W)) : Option (Str × W) :=
  match r with
  | none => none
  | some (a, w) => (k w).map fun q => (a ++ q.1, q.2)

mutual
/-- One call.  `none` is a panic. -/
def WOp.exec1 (c : WConfig) : WOp → W → Option (Str × W)
  | .text s => fun w => w.put s
  | .raw s => fun w => ({ w with lineStarted := true } : W).put s
  | .newLine => fun w => some (c.lineEnding.asStr, w.endLine)
  | .newLineIfNotStart => fun w =>
    if w.lineNumber = 1 then some ([], w) else some (c.lineEnding.asStr, w.endLine)
  | .pushTab => fun w => silent (w.pushTab c.tabWidth)
  | .pushSpaces n => fun w => some ([], { w with spaces := n :: w.spaces })
  | .pushAlign => fun w => silent w.pushAlign
  | .pop => fun w => silent w.pop
  | .tryElse max h v => fun w =>
    W.orElse (w.tryFlush max (WOp.exec c h w.measurer)) (WOp.exec c v w)
  | .panic => fun _ => none
/-- A sequence of calls: the text that is appended to the output and the writer afterwards. -/
def WOp.exec (c : WConfig) : List WOp → W → Option (Str × W)
  | [] => fun w => some ([], w)
  | op :: ops => fun w => andThen (WOp.exec1 c op w) (WOp.exec c ops)
end

/-- `ListType`, src/bindgen/writer.rs:14-19. -/
inductive ListType
  | join (s : Str)
  | cap (s : Str)

/-- What is written after an item of a list, src/bindgen/writer.rs:225-234 and 254-263. -/
def ListType.after : ListType → Bool → List WOp
  | .join s, last => if last then [] else [.text s]
  | .cap s, _ => [.text s]

/-- The loop of `write_vertical_source_list`, src/bindgen/writer.rs:251-268. -/
def verticalItems (t : ListType) : List (List WOp) → List WOp
  | [] => []
  | [x] => x ++ t.after true
  | x :: y :: xs => x ++ t.after false ++ [.newLine] ++ verticalItems t (y :: xs)

/-- `write_vertical_source_list`, src/bindgen/writer.rs:238-270. -/
def verticalList (t : ListType) (items : List (List WOp)) : List WOp :=
  [.pushAlign] ++ verticalItems t items ++ [.pop]

/-- `write_horizontal_source_list`, src/bindgen/writer.rs:211-236. -/
def horizontalList (t : ListType) : List (List WOp) → List WOp
  | [] => []
  | [x] => x ++ t.after true
  | x :: y :: xs => x ++ t.after false ++ horizontalList t (y :: xs)

/-- `Braces`, src/bindgen/config.rs:115-118. -/
inductive Braces
  | sameLine
  | nextLine
  deriving DecidableEq

/-- `open_brace`, src/bindgen/writer.rs:160-181. -/
def openBrace (lang : Language) (b : Braces) : List WOp :=
  match lang, b with
  | .cython, _ => [.text c!":", .newLine, .pushTab]
  | _, .sameLine => [.text c!" {", .pushTab, .newLine]
  | _, .nextLine => [.newLine, .text c!"{", .pushTab, .newLine]

/-- `close_brace`, src/bindgen/writer.rs:183-196. -/
def closeBrace (lang : Language) (semicolon : Bool) : List WOp :=
  match lang with
  | .cython => [.pop]
  | _ => [.pop, .newLine, .text (if semicolon then c!"};" else c!"}")]

end Cbindgen
