import Verif.Lemmas.ParserFns

/-!
# C06, C33, C39, C43–C47: what is read from the crate graph

The specification (`Declares`, `InMod`, `CratePath`, `GuardIs`) is in `Verif/Spec/Parser.lean`.
-/

namespace Cbindgen

open CfgSpec ParserSpec

/-! ## C33: which crates are parsed -/

/-- A run from the initial state, as facts about its log. -/
theorem parseLib_ran {cfg : ParseConfig} {ws : Workspace} {fuel : Nat} {root : Pkg} {st : PState}
    (h : parseLib cfg ws fuel root = .ok st) :
    Ran cfg ws root {} st st.log ∧ (root, []) ∈ st.log := by
  obtain ⟨_, l, r⟩ := parseCrate_ran cfg ws fuel root {} st (by simp) h
  have hl := r.log
  simp only [List.nil_append] at hl
  rw [hl]
  exact ⟨r, by simp⟩

/-- **C33.** No crate name is parsed twice, whatever the shape of the dependency graph. -/
theorem C33_parsed_at_most_once {cfg : ParseConfig} {ws : Workspace} {fuel : Nat} {root : Pkg}
    {st : PState} (h : parseLib cfg ws fuel root = .ok st) :
    (st.log.map fun x => x.1.name).Nodup :=
  (parseLib_ran h).1.nodup

/-- **C33.** Everything that is parsed is reached from the binding crate through dependencies that
pass the filters, and it is parsed under the predicates of the edges of such a path. -/
theorem C33_only_allowed {cfg : ParseConfig} {ws : Workspace} {fuel : Nat} {root : Pkg}
    {st : PState} (h : parseLib cfg ws fuel root = .ok st) (x : Pkg × List Cfg) (hx : x ∈ st.log) :
    CratePath cfg ws root x.1 x.2 := by
  obtain ⟨cs, h1, h2⟩ := (parseLib_ran h).1.path x hx
  rw [h2]; exact h1

/-- **C33.** Every allowed crate reachable through allowed crates is parsed, if no two reachable
packages share a name. -/
theorem C33_all_reachable {cfg : ParseConfig} {ws : Workspace} {fuel : Nat} {root : Pkg}
    {st : PState} (h : parseLib cfg ws fuel root = .ok st)
    (hn : ∀ p q cs cs', CratePath cfg ws root p cs → CratePath cfg ws root q cs' →
      p.name = q.name → p = q)
    (p : Pkg) (cs : List Cfg) (hp : CratePath cfg ws root p cs) : ∃ cs', (p, cs') ∈ st.log := by
  obtain ⟨r, hroot⟩ := parseLib_ran h
  induction hp with
  | root => exact ⟨[], hroot⟩
  | @dep p cs d c hp hd ha ih =>
    obtain ⟨cs', hl⟩ := ih
    have := r.closed (p, cs') hl (d, c) hd ha
    rw [r.parsed] at this
    rcases this with hm | hm
    · obtain ⟨x, hx, hxn⟩ := List.mem_map.mp hm
      have : x.1 = d := hn _ _ _ _ (C33_only_allowed h x hx) (.dep hp hd ha) hxn
      exact ⟨x.2, by rw [← this]; exact hx⟩
    · simp at hm

/-- **C33.** The names alone are closed under allowed dependencies, without any hypothesis. -/
theorem C33_names_closed {cfg : ParseConfig} {ws : Workspace} {fuel : Nat} {root : Pkg}
    {st : PState} (h : parseLib cfg ws fuel root = .ok st) (x : Pkg × List Cfg) (hx : x ∈ st.log)
    (d : Pkg × Option Cfg) (hd : d ∈ ws.deps x.1) (ha : Allowed cfg d.1.name) :
    ∃ y ∈ st.log, y.1.name = d.1.name := by
  obtain ⟨r, _⟩ := parseLib_ran h
  have := r.closed x hx d hd ha
  rw [r.parsed] at this
  rcases this with hm | hm
  · simpa [logNames] using hm
  · simp at hm

/-- **C33.** The traversal ends, also in cyclic graphs: a recursion depth of the number of crate
names suffices. -/
theorem C33_terminates (cfg : ParseConfig) (ws : Workspace) (root : Pkg) (names : List Str)
    (hroot : root.name ∈ names)
    (hdeps : ∀ p : Pkg, p.name ∈ names → ∀ d ∈ ws.deps p, d.1.name ∈ names) (fuel : Nat)
    (hf : names.length ≤ fuel) : parseLib cfg ws fuel root ≠ .error .fuel := by
  apply parseCrate_no_fuel cfg ws names hdeps fuel root {} hroot (by simp)
  refine Nat.le_trans ?_ hf
  unfold unparsed
  exact List.length_filter_le _ _

/-! ## C06: guards -/

/-- The sources avoid the known deviations and are well-formed. -/
def SourcesRegular (ws : Workspace) : Prop :=
  ∀ p is, ws.source p = .items is → RegularAll is ∧ WfUnsafeAll is

/-- **C06 (partial).** Every item that is taken was declared in a module of a crate on a path of
allowed dependencies, and its guard is equivalent to the conjunction of the predicates of exactly
the dependency edges, modules and attributes on the way to it.  Missing: the guard on an `impl` or
on a `bitflags!` invocation (`SourcesRegular`), which the code drops, see `C06_impl_cfg_lost` and
`C06_bitflags_cfg_lost`. -/
theorem C06_guard_partial {cfg : ParseConfig} {ws : Workspace} {fuel : Nat} {root : Pkg}
    {st : PState} (h : parseLib cfg ws fuel root = .ok st) (hr : SourcesRegular ws)
    (e : Entry) (g : Option Cfg) (he : (e, g) ∈ st.out) :
    ∃ p edges is inner, CratePath cfg ws root p edges ∧ ws.source p = .items is ∧
      InMod cfg p.name is e inner ∧ GuardIs g (edges ++ inner) := by
  obtain ⟨r, _⟩ := parseLib_ran h
  rw [r.out] at he
  simp only [List.nil_append, List.mem_flatMap] at he
  obtain ⟨x, hx, hxe⟩ := he
  unfold srcEntries at hxe
  cases hs : ws.source x.1 with
  | missing => simp [hs] at hxe
  | broken => simp [hs] at hxe
  | items is =>
    simp only [hs] at hxe
    obtain ⟨cs, h1, h2⟩ := mod_sound cfg x.1.name is x.2 e g (hr _ _ hs).1 (hr _ _ hs).2 hxe
    exact ⟨x.1, x.2, is, cs, C33_only_allowed h x hx, hs, h1, h2⟩

/-- **C06 (partial), converse.** Every item declared in a module of a reachable crate is taken, with
the guard described above. -/
theorem C06_complete_partial {cfg : ParseConfig} {ws : Workspace} {fuel : Nat} {root : Pkg}
    {st : PState} (h : parseLib cfg ws fuel root = .ok st) (hr : SourcesRegular ws)
    (hn : ∀ p q cs cs', CratePath cfg ws root p cs → CratePath cfg ws root q cs' →
      p.name = q.name → p = q)
    (p : Pkg) (cs : List Cfg) (hp : CratePath cfg ws root p cs) (is : List RItem)
    (hs : ws.source p = .items is) (e : Entry) (inner : List Cfg)
    (hi : InMod cfg p.name is e inner) :
    ∃ edges g, CratePath cfg ws root p edges ∧ (e, g) ∈ st.out ∧ GuardIs g (edges ++ inner) := by
  obtain ⟨r, _⟩ := parseLib_ran h
  obtain ⟨cs', hl⟩ := C33_all_reachable h hn p cs hp
  obtain ⟨g, h1, h2⟩ := mod_complete cfg p.name is e inner hi cs' (hr _ _ hs).1 (hr _ _ hs).2
  refine ⟨cs', g, C33_only_allowed h _ hl, ?_, h2⟩
  rw [r.out]
  simp only [List.nil_append, List.mem_flatMap]
  exact ⟨(p, cs'), hl, by simp [srcEntries, hs]; exact h1⟩

/-- A workspace with one crate that has the given items. -/
def single (is : List RItem) : Workspace := ⟨fun _ => .items is, fun _ => []⟩

/-- The crate `a`. -/
def crateA : Pkg := ⟨c!"a", none⟩

def cfgUnix : Attr := .cfg (some (.boolean c!"unix"))
def noMangle : Attr := .word c!"no_mangle"

/-- **C06 (refuted).** The `cfg` of an `impl` block is not part of the guard of its functions. -/
theorem C06_impl_cfg_lost : ∃ (is : List RItem) (st : PState) (e : Entry) (g : Option Cfg),
    parseLib { bindingCrate := c!"a" } (single is) 1 crateA = .ok st ∧ (e, g) ∈ st.out ∧
    InMod { bindingCrate := c!"a" } c!"a" is e [.boolean c!"unix"] ∧
    (∀ cs, InMod { bindingCrate := c!"a" } c!"a" is e cs → cs = [.boolean c!"unix"]) ∧
    ¬ GuardIs g [.boolean c!"unix"] := by
  refine ⟨[.impl [cfgUnix] (some c!"T") (some c!"T") [⟨c!"f", [noMangle], .named c!"C", true⟩] []],
    { parsed := [c!"a"], stack := [], out := [(⟨.function, some c!"T", c!"f"⟩, none)],
      log := [(crateA, [])] },
    ⟨.function, some c!"T", c!"f"⟩, none, by rfl, by simp, ?_, ?_, ?_⟩
  · refine .here (i := .impl [cfgUnix] (some c!"T") (some c!"T")
      [⟨c!"f", [noMangle], .named c!"C", true⟩] []) (by simp)
      (by simp [Ignored, RItem.attrs, cfgUnix]) ?_
    exact .method (m := ⟨c!"f", [noMangle], .named c!"C", true⟩) (by simp)
      (by simp [Ignored, noMangle]) (Or.inl rfl) (Or.inr (Or.inl rfl)) rfl
      (Or.inr ⟨rfl, Or.inl (by simp [noMangle]), rfl⟩)
  · intro cs hcs
    cases hcs with
    | here hi _ hd =>
      simp at hi; subst hi
      cases hd with
      | method hm =>
        simp at hm; subst hm
        rfl
    | nested hi => simp at hi
  · intro hg
    have := hg.1 (fun _ => false)
    simp [holdsOpt, holds] at this

/-- **C06 (refuted).** The `cfg` of a `bitflags!` invocation is not part of the guard of the struct
it declares. -/
theorem C06_bitflags_cfg_lost : ∃ (is : List RItem) (st : PState) (e : Entry) (g : Option Cfg),
    parseLib { bindingCrate := c!"a", expandBitflags := true } (single is) 1 crateA = .ok st ∧
    (e, g) ∈ st.out ∧
    (∀ cs, InMod { bindingCrate := c!"a", expandBitflags := true } c!"a" is e cs →
      cs = [.boolean c!"unix"]) ∧
    ¬ GuardIs g [.boolean c!"unix"] := by
  refine ⟨[.bitflags [cfgUnix] (some (c!"F", [])) (some c!"F") []],
    { parsed := [c!"a"], stack := [], out := [(⟨.type, none, c!"F"⟩, none)],
      log := [(crateA, [])] },
    ⟨.type, none, c!"F"⟩, none, by rfl, by simp, ?_, ?_⟩
  · intro cs hcs
    cases hcs with
    | here hi _ hd =>
      simp at hi; subst hi
      cases hd with
      | flagsStruct => rfl
    | nested hi => simp at hi
  · intro hg
    have := hg.1 (fun _ => false)
    simp [holdsOpt, holds] at this

/-! ## C39: which functions are bound -/

/-- **C39.** A free function of a crate is bound under `name` exactly when it is not ignored, the
crate is the binding crate or listed in `extra_bindings`, its ABI is C-compatible, its signature
could be loaded, and `name` is its exported symbol. -/
theorem C39_function_bound_iff (cfg : ParseConfig) (crate : Str) (f : FnItem) (st : PState)
    (hu : UnsafeOne f.attrs) (h : processMod cfg crate {} [.fn f] = .ok st) (name : Str) :
    (∃ g, (⟨.function, none, name⟩, g) ∈ st.out) ↔
      ¬ Ignored f.attrs ∧ Wanted cfg crate ∧ CCompatible f.abi ∧ f.loads = true ∧
        Exported f.attrs f.ident name := by
  have hr : RegularAll [.fn f] := by simp [RegularAll, Regular]
  have hw : WfUnsafeAll [.fn f] := by simp [WfUnsafeAll, WfUnsafe]; exact hu
  rw [processMod_eq _ _ _ _ _ h]
  simp only [List.nil_append]
  constructor
  · rintro ⟨g, hg⟩
    obtain ⟨cs, h1, _⟩ := mod_sound cfg crate _ [] _ g hr hw hg
    cases h1 with
    | here hi hni hd =>
      simp at hi; subst hi
      cases hd with
      | fn h1 h2 h3 h4 => exact ⟨hni, h1, h2, h3, h4⟩
    | nested hi => simp at hi
  · rintro ⟨h0, h1, h2, h3, h4⟩
    obtain ⟨g, hg, _⟩ := mod_complete cfg crate [.fn f] _ _
      (.here (i := .fn f) (by simp) h0 (.fn h1 h2 h3 h4)) [] hr hw
    exact ⟨g, hg⟩

/-- **C39.** In any crate graph, a bound function is an exported function or method with a
C-compatible ABI, or is declared in an `extern "C"` block, of a wanted crate. -/
theorem C39_bound_is_exported {cfg : ParseConfig} {ws : Workspace} {fuel : Nat} {root : Pkg}
    {st : PState} (h : parseLib cfg ws fuel root = .ok st)
    (hw : ∀ p is, ws.source p = .items is → WfUnsafeAll is)
    (name : Str) (owner : Option Str) (g : Option Cfg)
    (he : (⟨.function, owner, name⟩, g) ∈ st.out) :
    ∃ p edges is i, CratePath cfg ws root p edges ∧ ws.source p = .items is ∧
      Wanted cfg p.name ∧ Contains i is ∧ BindsFn i owner name := by
  obtain ⟨r, _⟩ := parseLib_ran h
  rw [r.out] at he
  simp only [List.nil_append, List.mem_flatMap] at he
  obtain ⟨x, hx, hxe⟩ := he
  unfold srcEntries at hxe
  cases hs : ws.source x.1 with
  | missing => simp [hs] at hxe
  | broken => simp [hs] at hxe
  | items is =>
    simp only [hs] at hxe
    obtain ⟨i, m, h1, h2, h3⟩ := mem_modEntries cfg x.1.name is x.2 _ (hw _ _ hs) hxe
    have := (mem_item_fn cfg x.1.name m i h2 owner name).mp ⟨g, h3⟩
    exact ⟨x.1, x.2, is, i, C33_only_allowed h x hx, hs, this.1, h1, this.2⟩

/-- **C39, converse.** Every such function of a reachable crate is bound. -/
theorem C39_exported_is_bound {cfg : ParseConfig} {ws : Workspace} {fuel : Nat} {root : Pkg}
    {st : PState} (h : parseLib cfg ws fuel root = .ok st)
    (hw : ∀ p is, ws.source p = .items is → WfUnsafeAll is)
    (hn : ∀ p q cs cs', CratePath cfg ws root p cs → CratePath cfg ws root q cs' →
      p.name = q.name → p = q)
    (p : Pkg) (edges : List Cfg) (is : List RItem) (i : RItem) (owner : Option Str) (name : Str)
    (hp : CratePath cfg ws root p edges) (hs : ws.source p = .items is) (hwant : Wanted cfg p.name)
    (hc : Contains i is) (hb : BindsFn i owner name) :
    ∃ g, (⟨.function, owner, name⟩, g) ∈ st.out := by
  obtain ⟨r, _⟩ := parseLib_ran h
  obtain ⟨cs', hl⟩ := C33_all_reachable h hn p edges hp
  obtain ⟨m, hwi, hm⟩ := contains_modEntries cfg p.name hc cs' (hw _ _ hs)
  obtain ⟨g, hg⟩ := (mem_item_fn cfg p.name m i hwi owner name).mpr ⟨hwant, hb⟩
  refine ⟨g, ?_⟩
  rw [r.out]
  simp only [List.nil_append, List.mem_flatMap]
  exact ⟨(p, cs'), hl, by simp [srcEntries, hs]; exact hm _ hg⟩

example : ∃ st, parseLib { bindingCrate := c!"a" }
    (single [.fn ⟨c!"f", [.nameValue c!"export_name" (some c!"g"), cfgUnix], .named c!"C", true⟩,
      .mod [cfgUnix] .found [.type c!"S" []], .type c!"T" []]) 1 crateA = .ok st ∧
    st.out = [(⟨.function, none, c!"g"⟩, some (.boolean c!"unix")), (⟨.type, none, c!"T"⟩, none),
      (⟨.type, none, c!"S"⟩, some (.all [.boolean c!"unix"]))] :=
  ⟨{ parsed := [c!"a"], stack := [], log := [(crateA, [])],
     out := [(⟨.function, none, c!"g"⟩, some (.boolean c!"unix")), (⟨.type, none, c!"T"⟩, none),
      (⟨.type, none, c!"S"⟩, some (.all [.boolean c!"unix"]))] }, by rfl, by rfl⟩

/-- The hypotheses of C06, C33, C39 and C47 can be met: crate names are unique and all paths to `b`
agree in a graph with a cycle. -/
def cyclic : Workspace where
  source p := if p.name = c!"a" then .items [.mod [cfgUnix] .found [.type c!"S" [cfgUnix]]]
    else .items [.type c!"T" [], .fn ⟨c!"f", [noMangle], .named c!"C", true⟩]
  deps p := if p.name = c!"a" then [(⟨c!"b", none⟩, none)] else [(⟨c!"a", none⟩, none)]

theorem cyclic_path {cfg : ParseConfig} {p : Pkg} {cs : List Cfg}
    (h : CratePath cfg cyclic crateA p cs) : cs = [] ∧ (p = ⟨c!"a", none⟩ ∨ p = ⟨c!"b", none⟩) := by
  induction h with
  | root => exact ⟨rfl, Or.inl rfl⟩
  | dep _ hd _ ih =>
    obtain ⟨rfl, rfl | rfl⟩ := ih <;> simp [cyclic] at hd <;> obtain ⟨rfl, rfl⟩ := hd <;> simp

example {cfg : ParseConfig} : ∀ p q cs cs', CratePath cfg cyclic crateA p cs →
    CratePath cfg cyclic crateA q cs' → p.name = q.name → p = q := by
  intro p q cs cs' hp hq hn
  obtain ⟨_, rfl | rfl⟩ := cyclic_path hp <;> obtain ⟨_, rfl | rfl⟩ := cyclic_path hq <;>
    simp at hn ⊢

example {cfg : ParseConfig} : ∀ p cs cs', CratePath cfg cyclic crateA p cs →
    CratePath cfg cyclic crateA p cs' → cs = cs' := by
  intro p cs cs' hp hq
  rw [(cyclic_path hp).1, (cyclic_path hq).1]

example : SourcesRegular cyclic := by
  intro p is h
  unfold cyclic at h
  by_cases hp : p.name = c!"a"
  · simp [hp] at h; subst h; simp [RegularAll, Regular, WfUnsafeAll, WfUnsafe]
  · simp [hp] at h; subst h
    simp [RegularAll, Regular, WfUnsafeAll, WfUnsafe, UnsafeOne, noMangle]

example : ∃ st, parseLib { bindingCrate := c!"a", parseDeps := true } cyclic 2 crateA = .ok st ∧
    st.log.map (fun x => x.1.name) = [c!"a", c!"b"] ∧
    st.out.map (fun x => x.1.name) = [c!"S", c!"T"] :=
  ⟨_, rfl, rfl, rfl⟩

/-! ## C43: associated constants -/

/-- **C43 (partial).** All public associated constants of an `impl` are taken if none is private.
Missing: with a private one, those after it are lost, see `C43_private_hides_public`. -/
theorem C43_assoc_consts_taken_partial (cfg : ParseConfig) (crate : Str) (attrs : List Attr)
    (self : Option Str) (root : Str) (methods : List FnItem) (consts : List ConstSrc) (st : PState)
    (h : processMod cfg crate {} [.impl attrs self (some root) methods consts] = .ok st)
    (hi : ¬ Ignored attrs) (hp : ∀ c ∈ consts, c.isPub = true) (c : ConstSrc) (hc : c ∈ consts)
    (hci : ¬ Ignored c.attrs) (hl : c.loads = true) :
    ∃ g, (⟨.assocConst, some root, c.ident⟩, g) ∈ st.out := by
  rw [processMod_eq _ _ _ _ _ h]
  have hs : shouldSkip attrs = false := (shouldSkip_false_iff _).mpr hi
  have hmem := (mem_loadAssocConsts (Cfg.join []) root consts hp
    ⟨.assocConst, some root, c.ident⟩ (Cfg.append (Cfg.join []) (Cfg.load c.attrs))).mpr
      ⟨c, hc, hci, hl, rfl, rfl⟩
  refine ⟨Cfg.append (Cfg.join []) (Cfg.load c.attrs), ?_⟩
  simp only [List.nil_append, modEntries, List.mem_append]
  refine Or.inl ((mem_loadMod _ _ _ _ _).mpr ⟨.impl attrs self (some root) methods consts, by simp, hi, Or.inr ?_⟩)
  exact hmem

/-- **C43 (refuted).** A public associated constant that follows a private one is not taken. -/
theorem C43_private_hides_public : ∃ (consts : List ConstSrc) (c : ConstSrc) (st : PState),
    processMod { bindingCrate := c!"a" } c!"a" {}
      [.impl [] (some c!"T") (some c!"T") [] consts] = .ok st ∧
    c ∈ consts ∧ c.isPub = true ∧ c.loads = true ∧ ¬ Ignored c.attrs ∧
    ∀ e g, (e, g) ∈ st.out → e.name ≠ c.ident :=
  ⟨[⟨c!"A", [], false, true⟩, ⟨c!"B", [], true, true⟩], ⟨c!"B", [], true, true⟩, {}, by rfl,
    by simp, rfl, rfl, by simp [Ignored], by simp⟩

/-! ## C44: ignored functions of extern blocks -/

/-- **C44 (refuted).** `/// cbindgen:ignore` on a function of an extern block has no effect. -/
theorem C44_ignored_foreign_fn_bound : ∃ (f : FnItem) (st : PState) (g : Option Cfg),
    processMod { bindingCrate := c!"a" } c!"a" {} [.foreign [] (.named c!"C") [f]] = .ok st ∧
    Ignored f.attrs ∧ (⟨.function, none, f.ident⟩, g) ∈ st.out :=
  ⟨⟨c!"f", [.nameValue c!"doc" (some c!" cbindgen:ignore")], .rust, true⟩,
    { out := [(⟨.function, none, c!"f"⟩, none)] }, none, by rfl,
    Or.inr (Or.inr ⟨_, by simp; rfl, by rfl⟩), by simp⟩

/-- **C44 (partial).** Outside extern blocks an ignored item contributes nothing, whatever it is: a
module, `impl`, function, constant, static or type.  Missing: functions of extern blocks, see
`C44_ignored_foreign_fn_bound`. -/
theorem C44_ignored_item_contributes_nothing_partial (cfg : ParseConfig) (crate : Str)
    (before after : List RItem) (i : RItem) (hi : Ignored i.attrs) (st : PState) :
    processMod cfg crate st (before ++ i :: after) = processMod cfg crate st (before ++ after) := by
  have hs : shouldSkip i.attrs = true := (shouldSkip_iff _).mpr hi
  have h1 : notSkipped (before ++ i :: after) = notSkipped (before ++ after) := by
    simp [notSkipped, List.filter_append, hs]
  have h2 : ∀ (st : PState), processOne cfg crate st i = .ok st := by
    intro st
    cases i with
    | mod attrs fs sub =>
      simp only [RItem.attrs] at hs
      cases fs <;> simp [processOne, hs]
    | _ => rfl
  have h3 : ∀ (l : List RItem) (st : PState),
      processNested cfg crate st (l ++ i :: after) = processNested cfg crate st (l ++ after) := by
    intro l
    induction l with
    | nil => intro st; simp [processNested, h2]
    | cons j js ih =>
      intro st
      simp only [List.cons_append, processNested]
      cases processOne cfg crate st j with
      | ok st1 => exact ih st1
      | error e => rfl
  simp only [processMod, enterMod, loadMod, h1, h3]

example : Ignored (RItem.attrs (.mod [.nameValue c!"doc" (some c!" cbindgen:ignore ")] .broken [])) :=
  Or.inr (Or.inr ⟨_, List.mem_singleton.mpr rfl, by rfl⟩)

/-! ## C45: exported statics -/

/-- **C45 (refuted).** A static with `#[unsafe(export_name = "...")]` is not bound. -/
theorem C45_unsafe_export_name_static_not_bound : ∃ (c : ConstSrc) (name : Str) (st : PState),
    processMod { bindingCrate := c!"a" } c!"a" {} [.static c] = .ok st ∧
    ¬ Ignored c.attrs ∧ c.loads = true ∧ UnsafeOne c.attrs ∧ Exported c.attrs c.ident name ∧
    st.out = [] :=
  ⟨⟨c!"S", [.unsafeList [.nameValue c!"export_name" (some c!"s")]], true, true⟩, c!"s", {}, by rfl,
    by simp [Ignored], rfl, by simp [UnsafeOne], Or.inl rfl, rfl⟩

/-- **C45 (partial).** A static is bound exactly when it is exported.  Missing: statics with an
`#[unsafe(name = value)]` attribute, see `C45_unsafe_export_name_static_not_bound`. -/
theorem C45_static_bound_iff_partial (cfg : ParseConfig) (crate : Str) (c : ConstSrc) (st : PState)
    (hu : UnsafeOne c.attrs) (hr : ∀ args, .unsafeList args ∈ c.attrs → ∀ n v, .nameValue n v ∉ args)
    (h : processMod cfg crate {} [.static c] = .ok st) (name : Str) :
    (∃ g, (⟨.static, none, name⟩, g) ∈ st.out) ↔
      ¬ Ignored c.attrs ∧ Wanted cfg crate ∧ c.loads = true ∧ Exported c.attrs c.ident name := by
  have hr : RegularAll [.static c] := by simp only [RegularAll, Regular]; exact ⟨hr, trivial⟩
  have hw : WfUnsafeAll [.static c] := by simp only [WfUnsafeAll, WfUnsafe]; exact ⟨hu, trivial⟩
  rw [processMod_eq _ _ _ _ _ h]
  simp only [List.nil_append]
  constructor
  · rintro ⟨g, hg⟩
    obtain ⟨cs, h1, _⟩ := mod_sound cfg crate _ [] _ g hr hw hg
    cases h1 with
    | here hi hni hd =>
      simp at hi; subst hi
      cases hd with
      | static h1 h2 h3 => exact ⟨hni, h1, h2, h3⟩
    | nested hi => simp at hi
  · rintro ⟨h0, h1, h2, h3⟩
    obtain ⟨g, hg, _⟩ := mod_complete cfg crate [.static c] _ _
      (.here (i := .static c) (by simp) h0 (.static h1 h2 h3)) [] hr hw
    exact ⟨g, hg⟩

/-! ## C46: several versions of a crate; C47: several paths to a crate -/

/-- Two versions of crate `b` below `a`, with different contents. -/
def twoVersions : Workspace where
  source p := if p.name = c!"b" then
      .items [.type (if p.version = some c!"1" then c!"Old" else c!"New") []]
    else .items []
  deps p := if p.name = c!"a" then [(⟨c!"b", some c!"1"⟩, none), (⟨c!"b", some c!"2"⟩, none)] else []

/-- **C46 (refuted).** Of two versions of a crate only the first one met is parsed; the types of the
other one are missing. -/
theorem C46_second_version_dropped :
    ∃ st, parseLib { bindingCrate := c!"a", parseDeps := true } twoVersions 2 crateA = .ok st ∧
      (∃ p, CratePath { bindingCrate := c!"a", parseDeps := true } twoVersions crateA p [] ∧
        twoVersions.source p = .items [.type c!"New" []]) ∧
      ∀ e g, (e, g) ∈ st.out → e.name ≠ c!"New" := by
  refine ⟨{ parsed := [c!"b", c!"a"], stack := [], out := [(⟨.type, none, c!"Old"⟩, none)],
            log := [(crateA, []), (⟨c!"b", some c!"1"⟩, [])] }, by rfl,
    ⟨⟨c!"b", some c!"2"⟩, ?_, by rfl⟩, ?_⟩
  · have := CratePath.dep (cfg := { bindingCrate := c!"a", parseDeps := true }) (ws := twoVersions)
      (root := crateA) (d := ⟨c!"b", some c!"2"⟩) (c := none) .root
      (by simp [twoVersions, crateA]) ⟨rfl, Or.inr ⟨by simp, by decide, by simp⟩⟩
    simpa using this
  · intro e g h
    simp at h
    obtain ⟨rfl, _⟩ := h
    decide

/-- Crate `b` is a dependency of `a` only on Unix, and of `c` always. -/
def twoPaths : Workspace where
  source p := if p.name = c!"b" then .items [.type c!"T" []] else .items []
  deps p :=
    if p.name = c!"a" then
      [(⟨c!"b", none⟩, some (.boolean c!"unix")), (⟨c!"c", none⟩, none)]
    else if p.name = c!"c" then [(⟨c!"b", none⟩, none)] else []

/-- **C47 (refuted).** A crate that is reached by two paths keeps the guard of the first one only: an
item can be hidden although the dependency is active. -/
theorem C47_second_path_ignored :
    ∃ st g, parseLib { bindingCrate := c!"a", parseDeps := true } twoPaths 3 crateA = .ok st ∧
      CratePath { bindingCrate := c!"a", parseDeps := true } twoPaths crateA ⟨c!"b", none⟩ [] ∧
      st.out = [(⟨.type, none, c!"T"⟩, g)] ∧ holdsOpt (fun _ => false) g = false := by
  refine ⟨{ parsed := [c!"c", c!"b", c!"a"], stack := [],
            out := [(⟨.type, none, c!"T"⟩, some (.all [.boolean c!"unix"]))],
            log := [(crateA, []), (⟨c!"b", none⟩, [.boolean c!"unix"]), (⟨c!"c", none⟩, [])] },
    some (.all [.boolean c!"unix"]), by rfl, ?_, rfl, by rfl⟩
  have h1 := CratePath.dep (cfg := { bindingCrate := c!"a", parseDeps := true }) (ws := twoPaths)
    (root := crateA) (d := ⟨c!"c", none⟩) (c := none) .root (by simp [twoPaths, crateA])
    ⟨rfl, Or.inr ⟨by simp, by decide, by simp⟩⟩
  have h2 := CratePath.dep (d := ⟨c!"b", none⟩) (c := none) h1 (by simp [twoPaths])
    ⟨rfl, Or.inr ⟨by simp, by decide, by simp⟩⟩
  simpa using h2

/-- **C47 (partial).** If all paths to a crate carry the same predicates, its items are visible
exactly when the predicates on some path to them hold.  Missing: crates with differently guarded
paths. -/
theorem C47_visible_iff_active_partial {cfg : ParseConfig} {ws : Workspace} {fuel : Nat} {root : Pkg}
    {st : PState} (h : parseLib cfg ws fuel root = .ok st) (hr : SourcesRegular ws)
    (hone : ∀ p cs cs', CratePath cfg ws root p cs → CratePath cfg ws root p cs' → cs = cs')
    (e : Entry) (g : Option Cfg) (he : (e, g) ∈ st.out) :
    ∃ p is inner, ws.source p = .items is ∧ InMod cfg p.name is e inner ∧
      ∀ edges, CratePath cfg ws root p edges → ∀ on,
        holdsOpt on g = true ↔ (∀ c ∈ edges, holds on c = true) ∧ (∀ c ∈ inner, holds on c = true) := by
  obtain ⟨p, edges, is, inner, h1, h2, h3, h4⟩ := C06_guard_partial h hr e g he
  refine ⟨p, is, inner, h2, h3, ?_⟩
  intro edges' hp' on
  rw [hone p edges' edges hp' h1, h4.1 on]
  simp [List.all_eq_true]

end Cbindgen
