import Verif.Lemmas.Builder
import Verif.Props.ConfigFile

/-!
# C83: the calls of a builder have the effect of changes in a configuration file
-/

namespace Cbindgen
open FileSpec MainSpec

theorem options_apart : Apart options := by decide +kernel

/-! ## Values -/

theorem each_texts : ∀ ss : List Str, Each Text (texts ss) ss := by
  intro ss
  refine ⟨_, rfl, ?_⟩
  induction ss with
  | nil => exact .nil
  | cons s ss ih => exact .cons rfl ih

theorem matched_append {α : Type} {m : Toml → α → Prop} {xs ys : List Toml} {as bs : List α} (h : Matched m xs as) (h' : Matched m ys bs) :
    Matched m (xs ++ ys) (as ++ bs) := by
  induction h with
  | nil => exact h'
  | cons h _ ih => exact .cons h ih

theorem each_add {v : Toml} {as : List Str} {s : Str} (h : Each Text v as) : Each Text (add (.str s) (some v)) (as ++ [s]) := by
  obtain ⟨xs, rfl, h⟩ := h
  exact ⟨_, rfl, matched_append h (.cons rfl .nil)⟩

theorem each_first {as : List Str} {s : Str} (h : as = []) : Each Text (add (.str s) none) (as ++ [s]) := by
  subst h
  exact ⟨_, rfl, .cons rfl .nil⟩

theorem entries_first {as : List (Str × Str)} {k s : Str} (h : as = []) : Entries Text (entry k (.str s) none) (setEntry k s as) := by
  subst h
  exact ⟨_, rfl, rfl, .cons rfl .nil⟩

theorem entries_set {v : Toml} {as : List (Str × Str)} {k s : Str} (h : Entries Text v as) :
    Entries Text (entry k (.str s) (some v)) (setEntry k s as) := by
  obtain ⟨es, rfl, h1, h2⟩ := h
  refine ⟨putKey k (.str s) es, rfl, ?_⟩
  induction es generalizing as with
  | nil =>
    cases as with
    | nil => exact ⟨rfl, .cons rfl .nil⟩
    | cons a as => cases h1
  | cons e es ih =>
    cases as with
    | nil => cases h1
    | cons a as =>
      obtain ⟨h3, h4⟩ := List.cons.inj h1
      rcases h2 with _ | ⟨h5, h6⟩
      unfold putKey setEntry
      by_cases hk : e.1 = k
      · have hk' : a.1 = k := (show e.1 = a.1 from h3).symm.trans hk
        rw [if_pos hk, if_pos hk']
        exact ⟨by simpa using h4, .cons rfl h6⟩
      · have hk' : ¬ a.1 = k := fun x => hk (h3.trans x)
        rw [if_neg hk, if_neg hk']
        obtain ⟨h7, h8⟩ := ih h4 h6
        exact ⟨by simp only [List.map_cons, h7]; rw [show e.1 = a.1 from h3], .cons h5 h8⟩

theorem language_means (l : Language) : Word languageWords (.str (languageWord l)) l := by
  cases l
  · exact ⟨_, _, rfl, .tail _ (.head _), by decide⟩
  · exact ⟨_, _, rfl, .head _, by decide⟩
  · exact ⟨_, _, rfl, .tail _ (.tail _ (.head _)), by decide⟩

theorem style_means (l : Style) : Word styleWords (.str (styleWord l)) l := by
  cases l
  · exact ⟨_, _, rfl, .head _, by decide⟩
  · exact ⟨_, _, rfl, .tail _ (.head _), by decide⟩
  · exact ⟨_, _, rfl, .tail _ (.tail _ (.head _)), by decide⟩

theorem braces_means (l : Braces) : Word bracesWords (.str (bracesWord l)) l := by
  cases l
  · exact ⟨_, _, rfl, .head _, by decide⟩
  · exact ⟨_, _, rfl, .tail _ (.head _), by decide⟩

theorem profile_means (l : Profile) : Word profileWords (.str (profileWord l)) l := by
  cases l
  · exact ⟨_, _, rfl, .head _, by decide⟩
  · exact ⟨_, _, rfl, .tail _ (.head _), by decide⟩

theorem lineEnding_means (l : LineEnding) : AnyCase lineEndingWords (.str (lineEndingWord l)) l := by
  cases l
  · exact ⟨_, _, rfl, .head _, by decide⟩
  · exact ⟨_, _, rfl, .tail _ (.head _), by decide⟩
  · exact ⟨_, _, rfl, .tail _ (.tail _ (.head _)), by decide⟩
  · exact ⟨_, _, rfl, .tail _ (.tail _ (.tail _ (.head _))), by decide⟩

/-! ## `expand` -/

theorem expand_apart : Apart expandSettings := by decide +kernel

theorem wf_str' (s : Str) : WellFormed (.str s) := by
  intro p es h
  cases h

theorem wf_flag (b : Bool) : WellFormed (.bool b) := by
  intro p es h
  cases h

theorem wf_arr (xs : List Toml) : WellFormed (.arr xs) := by
  intro p es h
  cases h

theorem expand_reads {v : Toml} {e : ExpandPart} (hw : WellFormed v) (h : Expansion v e) (k : Str) (w : Toml) :
    ∃ t, WellFormed t ∧ Reading expandSettings t e ∧ expandEntry k w (some v) = changeAt (set w) [k] (some t) := by
  rcases h with ⟨names, h, rfl⟩ | h
  · obtain ⟨xs, rfl, h⟩ := h
    have hwf : WellFormed (.table [(c!"crates", .arr xs), (c!"all_features", .bool true)]) := by
      refine wf_table_of (by simp) ?_
      intro k w hk
      simp only [List.mem_cons, Prod.mk.injEq, List.not_mem_nil, or_false] at hk
      rcases hk with ⟨_, rfl⟩ | ⟨_, rfl⟩
      · exact wf_arr _
      · exact wf_flag _
    refine ⟨.table [(c!"crates", .arr xs), (c!"all_features", .bool true)], hwf, ?_, rfl⟩
    rw [← loadExpand_iff hwf]
    have h' := (dec_list dec_str (.arr xs) names).2 ⟨xs, rfl, h⟩
    simp only [loadExpand, bind, Option.bind_eq_some_iff]
    exact ⟨(), by rfl, names, h', true, rfl, true, rfl, none, rfl, .debug, rfl, rfl⟩
  · rcases h.1 [] v .here with ⟨x, hx, hp⟩ | ⟨_, es, rfl⟩
    · have hne : ∀ x ∈ expandSettings, x.path ≠ [] := by
        simp [expandSettings, key]
      exact absurd (List.prefix_nil.1 hp) (hne x hx)
    · exact ⟨_, hw, h, rfl⟩

theorem expand_steps {s s' : Settings} {k : Str} {w : Toml} {n : Nat}
    (h : OnlyAt (expansion s) (expansion s') (Steps [k] (set w) (expansion s) (expansion s')) n expandSettings) :
    Steps [c!"parse", c!"expand"] (expandEntry k w) s s'
      (.under c!"parse" (key c!"expand" Expansion expansion ⟨[], false, true, none, .debug⟩)) where
  path := rfl
  some_ := by
    intro v hw hv
    obtain ⟨t, h1, h2, h3⟩ := expand_reads hw hv k w
    rw [h3]
    exact .inr (reading_change expand_apart h h1 h2)
  none_ := by
    intro he
    have h2 : Reading expandSettings (.table []) (expansion s) := by
      rw [show expansion s = _ from he]
      exact (loadExpand_iff wf_empty).1 rfl
    exact .inr (reading_change expand_apart h wf_empty h2)

/-! ## Calls -/

/-- The call changes the option of its place in the file, and no others. -/
def Effects (s : Settings) (c : ConfigCall) (n : Nat) : Prop :=
  OnlyAt s (c.apply s) (Steps (changeOf c).1 (changeOf c).2 s (c.apply s)) n options

macro "same_rest" : tactic => `(tactic| repeat (first | exact trivial | refine And.intro rfl ?_))

set_option maxRecDepth 4000

theorem call_withHeader (s : Settings) {x} : Effects s (.withHeader x) 0 := by
  refine And.intro (⟨rfl, fun _ _ _ => ⟨_, rfl, rfl⟩, fun _ => ⟨_, rfl, rfl⟩⟩) ?_
  same_rest

theorem call_withNoIncludes (s : Settings) : Effects s (.withNoIncludes) 7 := by
  iterate 7 refine And.intro rfl ?_
  refine And.intro (⟨rfl, fun _ _ _ => rfl, fun _ => rfl⟩) ?_
  same_rest

theorem call_withInclude (s : Settings) {x} : Effects s (.withInclude x) 1 := by
  iterate 1 refine And.intro rfl ?_
  refine And.intro (⟨rfl, fun _ _ => each_add, each_first⟩) ?_
  same_rest

theorem call_withSysInclude (s : Settings) {x} : Effects s (.withSysInclude x) 2 := by
  iterate 2 refine And.intro rfl ?_
  refine And.intro (⟨rfl, fun _ _ => each_add, each_first⟩) ?_
  same_rest

theorem call_withAfterInclude (s : Settings) {x} : Effects s (.withAfterInclude x) 3 := by
  iterate 3 refine And.intro rfl ?_
  refine And.intro (⟨rfl, fun _ _ _ => ⟨_, rfl, rfl⟩, fun _ => ⟨_, rfl, rfl⟩⟩) ?_
  same_rest

theorem call_withTrailer (s : Settings) {x} : Effects s (.withTrailer x) 4 := by
  iterate 4 refine And.intro rfl ?_
  refine And.intro (⟨rfl, fun _ _ _ => ⟨_, rfl, rfl⟩, fun _ => ⟨_, rfl, rfl⟩⟩) ?_
  same_rest

theorem call_withIncludeGuard (s : Settings) {x} : Effects s (.withIncludeGuard x) 5 := by
  iterate 5 refine And.intro rfl ?_
  refine And.intro (⟨rfl, fun _ _ _ => ⟨_, rfl, rfl⟩, fun _ => ⟨_, rfl, rfl⟩⟩) ?_
  same_rest

theorem call_withPragmaOnce (s : Settings) {b} : Effects s (.withPragmaOnce b) 6 := by
  iterate 6 refine And.intro rfl ?_
  refine And.intro (⟨rfl, fun _ _ _ => rfl, fun _ => rfl⟩) ?_
  same_rest

theorem call_withAutogenWarning (s : Settings) {x} : Effects s (.withAutogenWarning x) 9 := by
  iterate 9 refine And.intro rfl ?_
  refine And.intro (⟨rfl, fun _ _ _ => ⟨_, rfl, rfl⟩, fun _ => ⟨_, rfl, rfl⟩⟩) ?_
  same_rest

theorem call_withIncludeVersion (s : Settings) {b} : Effects s (.withIncludeVersion b) 10 := by
  iterate 10 refine And.intro rfl ?_
  refine And.intro (⟨rfl, fun _ _ _ => rfl, fun _ => rfl⟩) ?_
  same_rest

theorem call_withNamespace (s : Settings) {x} : Effects s (.withNamespace x) 11 := by
  iterate 11 refine And.intro rfl ?_
  refine And.intro (⟨rfl, fun _ _ _ => ⟨_, rfl, rfl⟩, fun _ => ⟨_, rfl, rfl⟩⟩) ?_
  same_rest

theorem call_withNamespaces (s : Settings) {ss} : Effects s (.withNamespaces ss) 12 := by
  iterate 12 refine And.intro rfl ?_
  refine And.intro (⟨rfl, fun _ _ _ => ⟨_, rfl, each_texts _⟩, fun _ => ⟨_, rfl, each_texts _⟩⟩) ?_
  same_rest

theorem call_withUsingNamespaces (s : Settings) {ss} : Effects s (.withUsingNamespaces ss) 13 := by
  iterate 13 refine And.intro rfl ?_
  refine And.intro (⟨rfl, fun _ _ _ => ⟨_, rfl, each_texts _⟩, fun _ => ⟨_, rfl, each_texts _⟩⟩) ?_
  same_rest

theorem call_withBraces (s : Settings) {b} : Effects s (.withBraces b) 14 := by
  iterate 14 refine And.intro rfl ?_
  refine And.intro (⟨rfl, fun _ _ _ => braces_means _, fun _ => braces_means _⟩) ?_
  same_rest

theorem call_withLineLength (s : Settings) {n} : Effects s (.withLineLength n) 15 := by
  iterate 15 refine And.intro rfl ?_
  refine And.intro (⟨rfl, fun _ _ _ => rfl, fun _ => rfl⟩) ?_
  same_rest

theorem call_withTabWidth (s : Settings) {n} : Effects s (.withTabWidth n) 16 := by
  iterate 16 refine And.intro rfl ?_
  refine And.intro (⟨rfl, fun _ _ _ => rfl, fun _ => rfl⟩) ?_
  same_rest

theorem call_withLanguage (s : Settings) {l} : Effects s (.withLanguage l) 18 := by
  iterate 18 refine And.intro rfl ?_
  refine And.intro (⟨rfl, fun _ _ _ => language_means _, fun _ => language_means _⟩) ?_
  same_rest

theorem call_withCppCompat (s : Settings) {b} : Effects s (.withCppCompat b) 19 := by
  iterate 19 refine And.intro rfl ?_
  refine And.intro (⟨rfl, fun _ _ _ => rfl, fun _ => rfl⟩) ?_
  same_rest

theorem call_withStyle (s : Settings) {x} : Effects s (.withStyle x) 20 := by
  iterate 20 refine And.intro rfl ?_
  refine And.intro (⟨rfl, fun _ _ _ => style_means _, fun _ => style_means _⟩) ?_
  same_rest

theorem call_includeItem (s : Settings) {x} : Effects s (.includeItem x) 34 := by
  iterate 34 refine And.intro rfl ?_
  refine And.intro (⟨rfl, fun _ _ => each_add, each_first⟩) ?_
  same_rest

theorem call_excludeItem (s : Settings) {x} : Effects s (.excludeItem x) 35 := by
  iterate 35 refine And.intro rfl ?_
  refine And.intro (⟨rfl, fun _ _ => each_add, each_first⟩) ?_
  same_rest

theorem call_renameItem (s : Settings) {old new} : Effects s (.renameItem old new) 36 := by
  iterate 36 refine And.intro rfl ?_
  refine And.intro (⟨rfl, fun _ _ => entries_set, entries_first⟩) ?_
  same_rest

theorem call_withItemPrefix (s : Settings) {x} : Effects s (.withItemPrefix x) 39 := by
  iterate 39 refine And.intro rfl ?_
  refine And.intro (⟨rfl, fun _ _ _ => ⟨_, rfl, rfl⟩, fun _ => ⟨_, rfl, rfl⟩⟩) ?_
  same_rest

theorem call_withParseDeps (s : Settings) {b} : Effects s (.withParseDeps b) 28 := by
  iterate 28 refine And.intro rfl ?_
  refine And.intro (⟨rfl, fun _ _ _ => rfl, fun _ => rfl⟩) ?_
  same_rest

theorem call_withParseInclude (s : Settings) {ss} : Effects s (.withParseInclude ss) 29 := by
  iterate 29 refine And.intro rfl ?_
  refine And.intro (⟨rfl, fun _ _ _ => ⟨_, rfl, each_texts _⟩, fun _ => ⟨_, rfl, each_texts _⟩⟩) ?_
  same_rest

theorem call_withParseExclude (s : Settings) {ss} : Effects s (.withParseExclude ss) 30 := by
  iterate 30 refine And.intro rfl ?_
  refine And.intro (⟨rfl, fun _ _ _ => each_texts _, fun _ => each_texts _⟩) ?_
  same_rest

theorem call_withParseExpand (s : Settings) {ss} : Effects s (.withParseExpand ss) 31 := by
  iterate 31 refine And.intro rfl ?_
  refine And.intro (expand_steps (n := 0) (by
    refine And.intro ⟨rfl, fun _ _ _ => each_texts _, fun _ => each_texts _⟩ ?_
    same_rest)) ?_
  same_rest

theorem call_withParseExpandAllFeatures (s : Settings) {b} : Effects s (.withParseExpandAllFeatures b) 31 := by
  iterate 31 refine And.intro rfl ?_
  refine And.intro (expand_steps (n := 1) (by
    iterate 1 refine And.intro rfl ?_
    refine And.intro ⟨rfl, fun _ _ _ => rfl, fun _ => rfl⟩ ?_
    same_rest)) ?_
  same_rest

theorem call_withParseExpandDefaultFeatures (s : Settings) {b} : Effects s (.withParseExpandDefaultFeatures b) 31 := by
  iterate 31 refine And.intro rfl ?_
  refine And.intro (expand_steps (n := 2) (by
    iterate 2 refine And.intro rfl ?_
    refine And.intro ⟨rfl, fun _ _ _ => rfl, fun _ => rfl⟩ ?_
    same_rest)) ?_
  same_rest

theorem call_withParseExpandFeatures (s : Settings) {ss} : Effects s (.withParseExpandFeatures ss) 31 := by
  iterate 31 refine And.intro rfl ?_
  refine And.intro (expand_steps (n := 3) (by
    iterate 3 refine And.intro rfl ?_
    refine And.intro ⟨rfl, fun _ _ _ => ⟨_, rfl, each_texts _⟩, fun _ => ⟨_, rfl, each_texts _⟩⟩ ?_
    same_rest)) ?_
  same_rest

theorem call_withParseExpandProfile (s : Settings) {p} : Effects s (.withParseExpandProfile p) 31 := by
  iterate 31 refine And.intro rfl ?_
  refine And.intro (expand_steps (n := 4) (by
    iterate 4 refine And.intro rfl ?_
    refine And.intro ⟨rfl, fun _ _ _ => profile_means _, fun _ => profile_means _⟩ ?_
    same_rest)) ?_
  same_rest

theorem call_withParseExtraBindings (s : Settings) {ss} : Effects s (.withParseExtraBindings ss) 33 := by
  iterate 33 refine And.intro rfl ?_
  refine And.intro (⟨rfl, fun _ _ _ => each_texts _, fun _ => each_texts _⟩) ?_
  same_rest

theorem call_withOnlyTargetDependencies (s : Settings) {b} : Effects s (.withOnlyTargetDependencies b) 27 := by
  iterate 27 refine And.intro rfl ?_
  refine And.intro (⟨rfl, fun _ _ _ => rfl, fun _ => rfl⟩) ?_
  same_rest

theorem call_withDocumentation (s : Settings) {b} : Effects s (.withDocumentation b) 24 := by
  iterate 24 refine And.intro rfl ?_
  refine And.intro (⟨rfl, fun _ _ _ => rfl, fun _ => rfl⟩) ?_
  same_rest

theorem call_withTargetOsDefine (s : Settings) {os d} : Effects s (.withTargetOsDefine os d) 23 := by
  iterate 23 refine And.intro rfl ?_
  refine And.intro (⟨rfl, fun _ _ => entries_set, entries_first⟩) ?_
  same_rest

theorem call_withDefine (s : Settings) {k v d} : Effects s (.withDefine k v d) 23 := by
  iterate 23 refine And.intro rfl ?_
  refine And.intro (⟨rfl, fun _ _ => entries_set, entries_first⟩) ?_
  same_rest

theorem call_withLineEndings (s : Settings) {l} : Effects s (.withLineEndings l) 17 := by
  iterate 17 refine And.intro rfl ?_
  refine And.intro (⟨rfl, fun _ _ _ => lineEnding_means _, fun _ => lineEnding_means _⟩) ?_
  same_rest

/-- Every call changes one option. -/
theorem call_effects (s : Settings) (c : ConfigCall) : ∃ n, Effects s c n := by
  cases c with
  | withHeader => exact ⟨_, call_withHeader s⟩
  | withNoIncludes => exact ⟨_, call_withNoIncludes s⟩
  | withInclude => exact ⟨_, call_withInclude s⟩
  | withSysInclude => exact ⟨_, call_withSysInclude s⟩
  | withAfterInclude => exact ⟨_, call_withAfterInclude s⟩
  | withTrailer => exact ⟨_, call_withTrailer s⟩
  | withIncludeGuard => exact ⟨_, call_withIncludeGuard s⟩
  | withPragmaOnce => exact ⟨_, call_withPragmaOnce s⟩
  | withAutogenWarning => exact ⟨_, call_withAutogenWarning s⟩
  | withIncludeVersion => exact ⟨_, call_withIncludeVersion s⟩
  | withNamespace => exact ⟨_, call_withNamespace s⟩
  | withNamespaces => exact ⟨_, call_withNamespaces s⟩
  | withUsingNamespaces => exact ⟨_, call_withUsingNamespaces s⟩
  | withBraces => exact ⟨_, call_withBraces s⟩
  | withLineLength => exact ⟨_, call_withLineLength s⟩
  | withTabWidth => exact ⟨_, call_withTabWidth s⟩
  | withLanguage => exact ⟨_, call_withLanguage s⟩
  | withCppCompat => exact ⟨_, call_withCppCompat s⟩
  | withStyle => exact ⟨_, call_withStyle s⟩
  | includeItem => exact ⟨_, call_includeItem s⟩
  | excludeItem => exact ⟨_, call_excludeItem s⟩
  | renameItem => exact ⟨_, call_renameItem s⟩
  | withItemPrefix => exact ⟨_, call_withItemPrefix s⟩
  | withParseDeps => exact ⟨_, call_withParseDeps s⟩
  | withParseInclude => exact ⟨_, call_withParseInclude s⟩
  | withParseExclude => exact ⟨_, call_withParseExclude s⟩
  | withParseExpand => exact ⟨_, call_withParseExpand s⟩
  | withParseExpandAllFeatures => exact ⟨_, call_withParseExpandAllFeatures s⟩
  | withParseExpandDefaultFeatures => exact ⟨_, call_withParseExpandDefaultFeatures s⟩
  | withParseExpandFeatures => exact ⟨_, call_withParseExpandFeatures s⟩
  | withParseExpandProfile => exact ⟨_, call_withParseExpandProfile s⟩
  | withParseExtraBindings => exact ⟨_, call_withParseExtraBindings s⟩
  | withOnlyTargetDependencies => exact ⟨_, call_withOnlyTargetDependencies s⟩
  | withDocumentation => exact ⟨_, call_withDocumentation s⟩
  | withTargetOsDefine => exact ⟨_, call_withTargetOsDefine s⟩
  | withDefine => exact ⟨_, call_withDefine s⟩
  | withLineEndings => exact ⟨_, call_withLineEndings s⟩

theorem wf_set {v : Toml} (h : WellFormed v) (o : Option Toml) : WFo o → WellFormed (set v o) := fun _ => h

theorem wf_int (n : Int) : WellFormed (.int n) := by
  intro p es h
  cases h

theorem wf_add (v : Toml) (o : Option Toml) : WellFormed (add v o) := by
  unfold add
  split <;> exact wf_arr _

theorem wf_put {k : Str} {v : Toml} {es : List (Str × Toml)} (hv : WellFormed v) (h : WellFormed (.table es)) :
    WellFormed (.table (putKey k v es)) := by
  have hn : (es.map (·.1)).Nodup := h [] es .here
  refine wf_table_of (putKey_keys hn) fun k' w hw => ?_
  rcases (mem_putKey hn).1 hw with ⟨_, rfl⟩ | ⟨_, h1⟩
  · exact hv
  · exact wf_inner h h1

theorem wf_entry {k : Str} {v : Toml} (hv : WellFormed v) (o : Option Toml) (h : WFo o) : WellFormed (entry k v o) := by
  unfold entry
  split
  · exact wf_put hv (h _ rfl)
  · exact wf_put (es := []) hv wf_empty

theorem wf_short (xs : List Toml) : WellFormed (.table [(c!"crates", .arr xs), (c!"all_features", .bool true)]) := by
  refine wf_table_of (by simp) ?_
  intro k w hk
  simp only [List.mem_cons, Prod.mk.injEq, List.not_mem_nil, or_false] at hk
  rcases hk with ⟨_, rfl⟩ | ⟨_, rfl⟩
  · exact wf_arr _
  · exact wf_flag _

theorem wf_expandEntry {k : Str} {v : Toml} (hv : WellFormed v) (o : Option Toml) (h : WFo o) : WellFormed (expandEntry k v o) := by
  unfold expandEntry
  split
  · exact wf_put hv (wf_short _)
  · exact wf_entry hv _ h

theorem change_fine (c : ConfigCall) (o : Option Toml) (h : WFo o) : WellFormed ((changeOf c).2 o) := by
  cases c <;> first
    | exact wf_str' _ | exact wf_flag _ | exact wf_int _ | exact wf_arr _ | exact wf_add _ _ | exact wf_entry (wf_str' _) _ h
    | exact wf_expandEntry (wf_arr _) _ h | exact wf_expandEntry (wf_flag _) _ h | exact wf_expandEntry (wf_str' _) _ h

theorem call_outside {x : Outside} {s : Settings} (c : ConfigCall) (h : FromOutside x s) : FromOutside x (c.apply s) := by
  cases c <;> exact h

/-- C83: a call that sets an option has the effect of a change in the configuration file: if the configuration is that of a file,
then after the call it is that of the file with the change that the call stands for. -/
theorem C83_option {x : Outside} {t : Toml} {s : Settings} (c : ConfigCall) (hw : WellFormed t) (h : Describes x t s) :
    WellFormed (change c t) ∧ Describes x (change c t) (c.apply s) := by
  obtain ⟨n, hn⟩ := call_effects s c
  exact ⟨change_wf (change_fine c) (by rintro _ ⟨⟩; exact hw), reading_change options_apart hn hw h.1, call_outside c h.2⟩

theorem calls_options {x : Outside} {debug : Bool} : ∀ (cs : List ConfigCall) {b : Builder} {t : Toml}, WellFormed t → Describes x t b.config →
    ∃ s, b.calls debug (cs.map .option) = some { b with config := s } ∧ Describes x (cs.foldl (fun t c => change c t) t) s
  | [], b, t, _, h => ⟨b.config, rfl, h⟩
  | c :: cs, b, t, hw, h => by
    obtain ⟨h1, h2⟩ := C83_option c hw h
    obtain ⟨s, h3, h4⟩ := calls_options (debug := debug) cs (b := { b with config := c.apply b.config }) h1 h2
    exact ⟨s, h3, h4⟩

/-- C83: the configuration after calls on a new builder is that of the file that has the changes they stand for. -/
theorem C83_calls (x : Outside) (debug : Bool) (cs : List ConfigCall) :
    ∃ s, (Builder.new x).calls debug (cs.map .option) = some { Builder.new x with config := s } ∧
      Describes x (cs.foldl (fun t c => change c t) (.table [])) s ∧
      ∀ s', Describes x (cs.foldl (fun t c => change c t) (.table [])) s' → s' = s := by
  have h0 : Describes x (.table []) (Builder.new x).config := describes_empty.2 (C81_default.1 rfl)
  obtain ⟨s, h1, h2⟩ := calls_options (debug := debug) cs wf_empty h0
  have hw : ∀ (cs : List ConfigCall) (t : Toml), WellFormed t → WellFormed (cs.foldl (fun t c => change c t) t) := by
    intro cs
    induction cs with
    | nil => exact fun _ h => h
    | cons c cs ih => exact fun t h => ih _ (change_wf (change_fine c) (by rintro _ ⟨⟩; exact h))
  exact ⟨s, h1, h2, fun s' h' => C81_unique (hw cs _ wf_empty) h' h2⟩

end Cbindgen
