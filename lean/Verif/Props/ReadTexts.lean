import Verif.Props.ReadItems
import Verif.Props.Prim
import Verif.Spec.Repr
import Verif.Spec.HeaderAll

/-!
# C59, C60: the texts that the declarations of a header contain

`Verif.Spec.HeaderItems` speaks of the integer type of an enum, of the note of a deprecated item and of the blocks of
code for a type.  Here is what these are: the integer type is represented as the type in the `repr` attribute, the
note is the option of that kind of item, and the blocks are those of the configuration.
-/

namespace Cbindgen
open PrimSpec ReprSpec

/-- **C60.** The integer type of an enum with `#[repr(u8)]` and so on has the representation of `u8` and so on. -/
theorem C60_size {c : OutConfig} {x : EnumItem} {s : Str} {k : IntKind} {signed : Bool} {pf : Platform}
    (hm : Means (.path (some s)) (.int k signed)) (hx : x.repr.ty = some (k, signed)) (hp : pf.Allows c.usizeIsSizeT) :
    ∃ p r, x.size c = some p ∧ rustScalar pf s = some r ∧ cScalar pf p = some r := by
  have e : x.size c = some ((Prim.integer true signed k).toReprC c.usizeIsSizeT) := by rw [EnumItem.size, hx]; rfl
  cases hm
  all_goals try exact ⟨_, _, e, rfl, rfl⟩
  all_goals
    cases h : c.usizeIsSizeT with
    | false => rw [h] at e; exact ⟨_, _, e, rfl, rfl⟩
    | true =>
      obtain ⟨h1, h2⟩ := hp h
      rw [h] at e
      refine ⟨_, _, e, rfl, ?_⟩
      simp [cScalar, cScalars, Prim.toReprC, List.lookup, h1, h2]

/-- **C60.** Without an integer type in the `repr` attribute there is none in the header. -/
theorem C60_no_size (c : OutConfig) {x : EnumItem} : x.size c = none ↔ x.repr.ty = none := by
  simp [EnumItem.size]

/-- `#[repr(u16)]` -/
example : ∃ p r, EnumItem.size {} { path := c!"E", exportName := c!"E", repr := ⟨.rust, some (.b16, false), none⟩, variants := [] } =
      some p ∧
    rustScalar lp64 c!"u16" = some r ∧ cScalar lp64 p = some r :=
  C60_size .u16 rfl (fun _ => ⟨rfl, rfl⟩)

namespace HeadSpec

/-- The options for notes, without and with a text, for every kind of item. -/
def noteOptions (c : OutConfig) : NoteKind → Option Str × Option Str
  | .function => (c.function.deprecated, c.function.deprecatedWithNote)
  | .struct => (c.structure_.deprecated, c.structure_.deprecatedWithNote)
  | .enum => (c.enumeration.deprecated, c.enumeration.deprecatedWithNote)
  | .enumVariant => (c.enumeration.deprecatedVariant, c.enumeration.deprecatedVariantWithNote)

/-- There is no `{}` in a text. -/
def NoHole : Str → Prop
  | '{' :: '}' :: _ => False
  | _ :: s => NoHole s
  | [] => True

theorem replaceHole_other {b : Str} {x : Char} {s : Str} (h : ∀ s', x :: s ≠ '{' :: '}' :: s') :
    replaceHole b (x :: s) = x :: replaceHole b s := by
  cases s with
  | nil => by_cases hx : x = '{' <;> simp [replaceHole, hx]
  | cons y s =>
    rw [replaceHole]
    · simp
    · intro s' h1 h2; exact h s' (by rw [h1, h2])

theorem noHole_cons {x : Char} {s : Str} (h : NoHole (x :: s)) : NoHole s ∧ ∀ s', x :: s ≠ '{' :: '}' :: s' := by
  unfold NoHole at h
  split at h
  · exact h.elim
  · rename_i hn he; cases he; exact ⟨h, fun s' e => by cases e; exact hn _ rfl rfl⟩
  · simp at *

theorem replaceHole_none (b : Str) : ∀ s, NoHole s → replaceHole b s = s
  | [], _ => rfl
  | x :: s, h => by
    obtain ⟨h1, h2⟩ := noHole_cons h
    rw [replaceHole_other h2, replaceHole_none b s h1]

/-- Where there is one hole, the text is put there. -/
theorem replaceHole_one (b : Str) {post : Str} (hp : NoHole post) :
    ∀ {pre : Str}, NoHole (pre ++ c!"{") → replaceHole b (pre ++ c!"{}" ++ post) = pre ++ b ++ post
  | [], _ => by simp [replaceHole, replaceHole_none b post hp]
  | x :: s, h => by
    obtain ⟨h1, h2⟩ := noHole_cons (s := s ++ c!"{") (by simpa using h)
    have h3 : ∀ s', x :: (s ++ c!"{}" ++ post) ≠ '{' :: '}' :: s' := by
      intro s' he
      cases s with
      | nil => simp at he
      | cons y s =>
        simp only [List.cons_append, List.cons.injEq] at he
        obtain ⟨rfl, rfl, -⟩ := he
        exact h2 _ rfl
    have e : (x :: s) ++ c!"{}" ++ post = x :: (s ++ c!"{}" ++ post) := rfl
    rw [e, replaceHole_other h3, replaceHole_one b hp h1]
    rfl

end HeadSpec
open HeadSpec

/-- **C59.** The note of a deprecated item is the option for that kind of item: the one for notes without a text,
or the one for notes with a text with the quoted text in its place.  Items that are not deprecated have no note. -/
theorem C59_note (c : OutConfig) (hl : c.language ≠ .cython) (a : Annotations) (k : NoteKind) :
    (a.deprecated = none → a.deprecatedNote c k = none) ∧
    (a.deprecated = some [] → a.deprecatedNote c k = (noteOptions c k).1) ∧
    (∀ note, a.deprecated = some note → note ≠ [] → (noteOptions c k).2 = none → a.deprecatedNote c k = none) ∧
    ∀ note, a.deprecated = some note → note ≠ [] → ∀ pre post, (noteOptions c k).2 = some (pre ++ c!"{}" ++ post) →
      NoHole (pre ++ c!"{") → NoHole post → a.deprecatedNote c k = some (pre ++ c.strDebug note ++ post) := by
  refine ⟨fun h => ?_, fun h => ?_, fun note h hn ho => ?_, fun note h hn pre post ho h1 h2 => ?_⟩
  · rw [Annotations.deprecatedNote, h]
  · rw [Annotations.deprecatedNote, h]
    simp only [if_neg hl, if_true]
    cases k <;> rfl
  · rw [Annotations.deprecatedNote, h]
    simp only [if_neg hl, if_neg hn]
    cases k <;> simp_all [noteOptions, NoteKind.withNote]
  · rw [Annotations.deprecatedNote, h]
    simp only [if_neg hl, if_neg hn]
    have : k.withNote c = some (pre ++ c!"{}" ++ post) := by cases k <;> exact ho
    rw [this, Option.map_some, replaceHole_one _ h2 h1]

/-- `DEPRECATED({})` and a note. -/
example : ({ deprecated := some c!"old" } : Annotations).deprecatedNote
      { function := { deprecatedWithNote := some c!"DEPRECATED({})" }, strDebug := fun s => c!"\"" ++ s ++ c!"\"" } .function =
    some c!"DEPRECATED(\"old\")" :=
  (C59_note _ (by decide) _ .function).2.2.2 c!"old" rfl (by decide) c!"DEPRECATED(" c!")" rfl (by simp [NoHole]) (by simp [NoHole])

/-- **C59.** The blocks of code of a type are those that the configuration gives for its path, without empty lines
around them. -/
theorem C59_blocks (c : OutConfig) (path : Str) :
    (∀ s, c.preBodyOf path = some s → ∃ i j, c.preBody.lookup path = some (List.replicate i '\n' ++ s ++ List.replicate j '\n') ∧
      s.head? ≠ some '\n' ∧ s.getLast? ≠ some '\n') ∧
    (∀ s, c.postBodyOf path = some s → ∃ i j, c.body.lookup path = some (List.replicate i '\n' ++ s ++ List.replicate j '\n') ∧
      s.head? ≠ some '\n' ∧ s.getLast? ≠ some '\n') ∧
    (c.preBodyOf path = none ↔ c.preBody.lookup path = none) ∧ (c.postBodyOf path = none ↔ c.body.lookup path = none) := by
  have drop : ∀ s : Str, ∃ i, s = List.replicate i '\n' ++ s.dropWhile (· == '\n') ∧ (s.dropWhile (· == '\n')).head? ≠ some '\n' := by
    intro s
    induction s with
    | nil => exact ⟨0, rfl, by simp⟩
    | cons x s ih =>
      obtain ⟨i, h1, h2⟩ := ih
      by_cases hx : x = '\n'
      · subst hx
        refine ⟨i + 1, ?_, by simpa using h2⟩
        simpa [List.replicate_succ] using h1
      · have : ((x :: s).dropWhile (· == '\n')) = x :: s := by simp [hx]
        exact ⟨0, by rw [this]; rfl, by rw [this]; simpa using hx⟩
  have trim : ∀ t : Str, ∃ i j, t = List.replicate i '\n' ++ trimNewlines t ++ List.replicate j '\n' ∧
      (trimNewlines t).head? ≠ some '\n' ∧ (trimNewlines t).getLast? ≠ some '\n' := by
    intro t
    obtain ⟨i, h1, h2⟩ := drop t
    obtain ⟨j, h3, h4⟩ := drop (t.dropWhile (· == '\n')).reverse
    have h5 : t.dropWhile (· == '\n') = trimNewlines t ++ List.replicate j '\n' := by
      have := congrArg List.reverse h3
      simpa [trimNewlines] using this
    refine ⟨i, j, ?_, ?_, ?_⟩
    · rw [List.append_assoc, ← h5]; exact h1
    · intro h
      apply h2
      rw [h5]
      cases ht : trimNewlines t with
      | nil => simp [ht] at h
      | cons x s => simpa [ht] using h
    · simpa [trimNewlines, List.getLast?_reverse] using h4
  refine ⟨fun s h => ?_, fun s h => ?_, by simp [OutConfig.preBodyOf], by simp [OutConfig.postBodyOf]⟩
  · obtain ⟨t, h1, rfl⟩ := Option.map_eq_some_iff.1 h
    obtain ⟨i, j, h2, h3⟩ := trim t
    exact ⟨i, j, by rw [h1, ← h2], h3⟩
  · obtain ⟨t, h1, rfl⟩ := Option.map_eq_some_iff.1 h
    obtain ⟨i, j, h2, h3⟩ := trim t
    exact ⟨i, j, by rw [h1, ← h2], h3⟩

/-- A block with empty lines around it. -/
example : ({ preBody := [(c!"A", c!"\nint x;\n")] } : OutConfig).preBodyOf c!"A" = some c!"int x;" := by decide

/-- **C61.** A transparent struct is an alias of the type of its first field, under the condition of the struct; any
other struct is a struct. -/
theorem C61_transparent (R : HeadSpec.Dialect) (e : Env) (on : Str → Bool) (x : StructItem) :
    HeadSpec.containerOut R e on (.struct x) =
      match x.isTransparent, x.fields with
      | true, f :: _ =>
        HeadSpec.whenOut (HeadSpec.shown e.cfg on x.cfg)
          (HeadSpec.decls [HeadSpec.templated e.cfg false x.genericParams
            (.alias x.exportName (CSpec.meaning e.cfg.toDeclConfig false f.ty).forgetFnPtr)]) ++
            HeadSpec.assocOut e on x
      | _, _ => HeadSpec.structOut R e on x := by
  cases h : x.fields with
  | nil => cases ht : x.isTransparent <;> simp [HeadSpec.containerOut, StructItem.asTypedef, h]
  | cons f fs =>
    cases ht : x.isTransparent <;>
      simp [HeadSpec.containerOut, StructItem.asTypedef, h, ht, HeadSpec.typedefOut, HeadSpec.aliasOf]

end Cbindgen
