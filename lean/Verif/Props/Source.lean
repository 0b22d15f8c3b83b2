import Verif.Lemmas.SourceRuns
import Verif.Props.ReadHeader
import Verif.Props.Scope

/-!
# C63: from Rust sources to the declarations that a C compiler reads
-/

namespace Cbindgen
open CSpec HeadSpec ScopeSpec LexSpec
open SrcSpec hiding Reaches Given Plain

/-- What the C types of an item depend on, by the options of both stages.  `rule` is the rule for the names of
arguments. -/
def SrcSpec.envOf (c : LibConfig) (o : OutConfig) (tag : Str → Option DeclKind) (rule : RenameRule) (owner : Option Str) : TyEnv :=
  ⟨c.ren, tag, argName c.caseFns rule, owner, o.nullableAttr, o.nonNullAttr, o.noReturn, o.usizeIsSizeT⟩

theorem envOf_for {c : LibConfig} {o : OutConfig} (h : o.language = .c) {tag : Str → Option DeclKind} {rule : RenameRule}
    {owner : Option Str} : EnvFor (envOf c o tag rule owner) o.toDeclConfig := ⟨h, rfl, rfl, rfl, rfl⟩

/-! ## What is not declared by types -/

/-- Not a variable or function. -/
def NotObject : CItem → Prop
  | .object .. => False
  | _ => True

section
variable {R : Dialect} {on : Str → Bool} {e : Env} {b : Bindings}

theorem tagEnum_notObject (hc : e.cfg.language = .c) {x : EnumItem} : ∀ d ∈ (tagEnumOut e on x).items, NotObject d := by
  intro d hd
  rw [tagEnumOut, if_neg (by simp [hc])] at hd
  split at hd
  · simp only [decls, List.mem_singleton] at hd
    subst hd; trivial
  · simp only [items_append, items_when, decls, List.mem_append, List.mem_singleton] at hd
    rcases hd with rfl | hd
    · trivial
    · split at hd
      · simp only [List.mem_singleton] at hd
        subst hd; trivial
      · simp at hd

theorem dataOf_notObject {x : EnumItem} : NotObject (dataOf R e.cfg on x) := by
  unfold dataOf recordOf
  first | trivial | (split <;> trivial)

theorem container_notObject (hc : e.cfg.language = .c) {x : Container} : ∀ d ∈ (containerOut R e on x).items, NotObject d := by
  intro d hd
  cases x with
  | enum x =>
    rw [containerOut, enumOut, if_neg (fun h => by simp [hc] at h), items_when] at hd
    split at hd
    · rw [items_append, List.mem_append] at hd
      rcases hd with hd | hd
      · exact tagEnum_notObject hc d hd
      · split at hd
        · rw [items_append, List.mem_append] at hd
          rcases hd with hd | hd
          · obtain ⟨v, _, m, b, ic, _, _, _, rfl⟩ := (mem_bodies hc).1 hd
            trivial
          · simp only [decls, List.mem_singleton] at hd
            subst hd
            exact dataOf_notObject
        · simp at hd
    · simp at hd
  | struct x =>
    simp only [containerOut] at hd
    split at hd
    · rw [items_append, items_assoc hc, List.append_nil, typedefOut, templated_c hc, items_when] at hd
      split at hd
      · simp only [decls, List.mem_singleton] at hd
        subst hd; trivial
      · simp at hd
    · rw [struct_items hc] at hd
      split at hd
      · simp only [List.mem_singleton] at hd
        subst hd; trivial
      · simp at hd
  | union x =>
    simp only [containerOut, unionOut, templated_c hc, items_when] at hd
    split at hd
    · simp only [decls, List.mem_singleton] at hd
      subst hd; trivial
    · simp at hd
  | «opaque» x =>
    simp only [containerOut, opaqueOut, templated_c hc, items_when] at hd
    split at hd
    · simp only [decls, List.mem_singleton] at hd
      subst hd
      split <;> trivial
    · simp at hd
  | typedef x =>
    simp only [containerOut, typedefOut, templated_c hc, items_when] at hd
    split at hd
    · simp only [decls, List.mem_singleton] at hd
      subst hd; trivial
    · simp at hd

/-- The variables and functions of a header, without what users add. -/
theorem header_objects (hc : e.cfg.language = .c) (hn : NoBlocks R on e.cfg) {d : CItem}
    (hd : d ∈ (headerOut R e on b).items) (ho : ¬ NotObject d) :
    (∃ g ∈ b.globals, g.annotations.shouldExport = true ∧ d ∈ (staticOut e.cfg on g).items) ∨
      ∃ f ∈ b.functions, f.annotations.shouldExport = true ∧ d ∈ (funcOut e.cfg on f).items := by
  simp only [headerOut, items_append, hn.header, hn.trailer, items_when, guardedOut, guardOut, hn.autogen, hn.after, bindingsOut,
    constants_items hc, items_outs, List.nil_append, List.append_nil] at hd
  split at hd
  · simp only [List.mem_append, List.mem_flatMap, List.mem_map, List.mem_filter] at hd
    rcases hd with (⟨_, ⟨x, _, rfl⟩, hd⟩ | ⟨_, ⟨x, hx, rfl⟩, hd⟩) | ⟨_, ⟨x, hx, rfl⟩, hd⟩
    · exact absurd (container_notObject hc d hd) ho
    · exact Or.inl ⟨x, hx.1, hx.2, hd⟩
    · exact Or.inr ⟨x, hx.1, hx.2, hd⟩
  · simp at hd

theorem header_func (hg : ∀ g, e.cfg.guard = some g → on g = false) {f : FuncItem} (hf : f ∈ b.functions)
    (hx : f.annotations.shouldExport = true) {d : CItem} (hd : d ∈ (funcOut e.cfg on f).items) :
    d ∈ (headerOut R e on b).items := by
  have hgu : (e.cfg.guard.all fun g => !on g) = true := by
    cases h : e.cfg.guard with
    | none => rfl
    | some g => simp [hg g h]
  simp only [headerOut, items_append, items_when, guardedOut, bindingsOut, items_outs, hgu, if_true, List.mem_append,
    List.mem_flatMap, List.mem_map, List.mem_filter]
  exact Or.inl (Or.inr (Or.inr (Or.inr ⟨_, ⟨f, ⟨hf, hx⟩, rfl⟩, hd⟩)))

/-- A function is compiled if and only if the predicates around it hold in Rust. -/
theorem shown_guard {c : OutConfig} {rust : CfgSpec.Opt → Bool} {on : Str → Bool} (hm : CfgSpec.Matches c.defines rust on)
    {g : Option Cfg} {cs : List Cfg} (hg : ParserSpec.GuardIs g cs) (hc : ∀ x ∈ cs, CfgSpec.Mapped c.defines x) :
    shown c on g = cs.all (CfgSpec.holds rust) := by
  rw [← hg.1 rust]
  cases g with
  | none => rfl
  | some g => exact C61_conditions hm (hg.2 c.defines hc g rfl)

end

/-! ## Functions -/

section
variable {pc : ParseConfig} {lc : LoadConfig} {fuel fuel' : Nat} {i : Inputs} {c : LibConfig}
  {order : List (Str × Annotations) → List (Str × Annotations)} {l l₁ : Library} {b : Bindings}
  {R : Dialect} {on : Str → Bool} {D : List Str} {e : Env} {t : Str} {rust : CfgSpec.Opt → Bool}

/-- The type of a function in the bindings, from its type in the sources. -/
theorem source_type (hc : c.language = .c) (hl : e.cfg.language = .c) {path : Str} {owner : Option Str} {ext : Bool} {sf : SynFn}
    {m : Option Cfg} {f f' : FuncItem} (hf : sf.sig.load path owner ext sf.attrs m = .ok f) {find : Ty → Option Str}
    (h : f.final c find (Resolver.typeFor (l₁.removeExcluded c).resolver) = some f')
    (harr : f.annotations.list c!"ptrs-as-arrays" = none) {rule : RenameRule} (hr : f.annotations.ruleOr c.renameArgs = some rule)
    {T : CTy} (hT : CFn (envOf c e.cfg (tagFor c l₁) rule owner) sf.sig T) : funcTy e.cfg f' = T := by
  have ha := (load_cfg hf).2.2.2
  obtain ⟨f₁, h1, _, _, _, h2, _, h3⟩ := cfn_ok (envOf_for hl) hT ha path ext m
  rw [show (envOf c e.cfg (tagFor c l₁) rule owner).owner = owner from rfl] at h1
  rw [hf] at h1
  cases h1
  exact (final_typed hc rfl rfl h3 hr harr rfl h).2.2.2.2.2

theorem renameFor_keeps {f f' : FuncItem} (h : f.renameFor c = some f') :
    f'.path = f.path ∧ f'.externDecl = f.externDecl ∧ f'.cfg = f.cfg ∧ f'.annotations = f.annotations := by
  unfold FuncItem.renameFor at h
  simp only [Option.bind_eq_bind, Option.bind_eq_some_iff, Option.pure_def, Option.some.injEq] at h
  grind

theorem final_keeps {find : Ty → Option Str} {tag : Str → Option DeclKind} {f f' : FuncItem} (h : f.final c find tag = some f') :
    f'.path = f.path ∧ f'.externDecl = f.externDecl ∧ f'.cfg = f.cfg ∧ f'.annotations = f.annotations := by
  have := renameFor_keeps h
  cases hg : c.generateTag <;> simpa [hg, FuncItem.mapTys] using this

/-- **C63.** A function with C linkage that the sources declare, at any depth and in any crate that is read, is declared
in the header with the C type of its Rust type, where all the `cfg`s around it hold. -/
theorem C63_declared_partial (hb : buildLibrary pc lc fuel i = .ok l) (hp : InputsPlain i) (ho : OnePath pc i)
    (hc : c.language = .c) (h : l.generate c order fuel' = .ok b)
    (he : (((l.transferAnnotations order).simplify c).sortFunctions c).expand c fuel' = .ok l₁)
    (hgen : c.export_.shouldGenerate .functions = true) (hg : HeaderGood R on D e b) (ht : headerText e b = some t)
    (hguard : ∀ g, e.cfg.guard = some g → on g = false) (hm : CfgSpec.Matches e.cfg.defines rust on)
    {path : Str} {owner : Option Str} {ext : Bool} {sf : SynFn} {cs : List Cfg}
    (hgiven : SrcSpec.Given pc i (.fn path owner ext sf) cs) (hmap : ∀ x ∈ cs, CfgSpec.Mapped e.cfg.defines x)
    (hon : ∀ x ∈ cs, CfgSpec.holds rust x = true) (hex : path ∉ c.export_.exclude)
    {a : Annotations} (ha : Annotations.load sf.attrs = .ok a) (hexp : a.shouldExport = true)
    (harr : a.list c!"ptrs-as-arrays" = none) {rule : RenameRule} (hr : a.ruleOr c.renameArgs = some rule)
    {T : CTy} (hT : CFn (envOf c e.cfg (tagFor c l₁) rule owner) sf.sig T) :
    ∃ o attrs, readHeader R on t = some o ∧ .object ext attrs path T.forgetFnPtr [] ∈ o.items := by
  have hl : e.cfg.language = .c := hg.options.lang
  obtain ⟨rs, hrs, hmem⟩ := mem_functions hb
  obtain ⟨r, hr1, m, hr2, hr3⟩ := hrs.complete hp ho hgiven
  obtain ⟨f, hf, hf1, hf2, hf3, hf4, _, _⟩ := cfn_ok (envOf_for hl) hT ha path ext m
  have hfl := (hmem f).2 ⟨r, hr1, path, owner, ext, sf, m, hr2, hf⟩
  obtain ⟨find, h1, h2⟩ := functions_final hc h he hgen
  obtain ⟨f', hf'⟩ := h2 f hfl (by rw [hf1]; exact hex)
  have hfb := (h1 f').2 ⟨f, hfl, by rw [hf1]; exact hex, hf'⟩
  obtain ⟨k1, k2, k3, k4⟩ := final_keeps hf'
  have hty := source_type hc hl hf hf' (by rw [hf4]; exact harr) (by rw [hf4]; exact hr) hT
  refine ⟨_, attrToks (funcAttrs e.cfg f') ++ attrToks (funcPost e.cfg f'), C61_header_reads_back hg ht,
    header_func hguard hfb (by rw [k4, hf4]; exact hexp) ?_⟩
  have hs : shown e.cfg on f'.cfg = true := by
    rw [k3, hf3]
    have := shown_guard hm hr3 hmap
    rw [Taken.guard] at this
    rw [show Taken.attrs (.fn path owner ext sf) = sf.attrs from rfl] at this
    rw [this, List.all_eq_true]
    exact hon
  rw [funcOut, items_when, hs, hty, k1, k2, hf1, hf2]
  simp [decls]

theorem meaning_notFn (d : DeclConfig) (k : Bool) (ty : Ty) : ∀ ps a r, (meaning d k ty).forgetFnPtr ≠ .fn ps a r := by
  intro ps a r h
  have hp : ∀ c r' a' u, (CTy.ptr c r' a' u).forgetFnPtr ≠ .fn ps a r := by
    intro c r' a' u
    cases u <;> simp [CTy.forgetFnPtr]
  cases ty <;> simp [meaning] at h <;> first | exact hp _ _ _ _ h | grind [CTy.forgetFnPtr]

/-- **C63.** The header declares no other functions: one that it declares is in the sources, under `cfg`s that hold,
and has the C type of its Rust type. -/
theorem C63_only_partial (hb : buildLibrary pc lc fuel i = .ok l) (hp : InputsPlain i)
    (hc : c.language = .c) (h : l.generate c order fuel' = .ok b)
    (he : (((l.transferAnnotations order).simplify c).sortFunctions c).expand c fuel' = .ok l₁)
    (hgen : c.export_.shouldGenerate .functions = true) (hg : HeaderGood R on D e b) (ht : headerText e b = some t)
    (hn : NoBlocks R on e.cfg) (hm : CfgSpec.Matches e.cfg.defines rust on) {o : Out} (hrd : readHeader R on t = some o)
    {ext : Bool} {attrs bits : List Lx} {path : Str} {ps : List CParam} {at' : Option Str} {ret : CTy}
    (hd : .object ext attrs path (.fn ps at' ret) bits ∈ o.items) :
    ∃ owner sf cs a, SrcSpec.Given pc i (.fn path owner ext sf) cs ∧ path ∉ c.export_.exclude ∧
      Annotations.load sf.attrs = .ok a ∧ a.shouldExport = true ∧
      ((∀ x ∈ cs, CfgSpec.Mapped e.cfg.defines x) → ∀ x ∈ cs, CfgSpec.holds rust x = true) ∧
      ∀ rule T, a.list c!"ptrs-as-arrays" = none → a.ruleOr c.renameArgs = some rule →
        CFn (envOf c e.cfg (tagFor c l₁) rule owner) sf.sig T → T.forgetFnPtr = .fn ps at' ret := by
  have hl : e.cfg.language = .c := hg.options.lang
  rw [C61_header_reads_back hg ht] at hrd
  cases hrd
  rcases header_objects hl hn hd (fun h => h) with ⟨g, _, _, hd⟩ | ⟨f', hf', hexp, hd⟩
  · exfalso
    rw [staticOut, items_when] at hd
    split at hd
    · simp only [decls, List.mem_singleton, CItem.object.injEq, staticTy] at hd
      exact meaning_notFn _ _ _ _ _ _ hd.2.2.2.1.symm
    · simp at hd
  · rw [funcOut, items_when] at hd
    split at hd
    rotate_left
    · simp at hd
    rename_i hsh
    simp only [decls, List.mem_singleton, CItem.object.injEq] at hd
    obtain ⟨rfl, _, rfl, hty, _⟩ := hd
    obtain ⟨rs, hrs, hmem⟩ := mem_functions hb
    obtain ⟨find, h1, _⟩ := functions_final hc h he hgen
    obtain ⟨f, hfl, hex, hfin⟩ := (h1 f').1 hf'
    obtain ⟨r, hr1, p, owner, ext, sf, m, hr2, hld⟩ := (hmem f).1 hfl
    obtain ⟨k1, k2, k3, k4⟩ := final_keeps hfin
    obtain ⟨j1, j2, j3, j4⟩ := load_cfg hld
    obtain ⟨cs, hcs, hgu⟩ := hrs.sound hp hr1 hr2
    refine ⟨owner, sf, cs, f.annotations, ?_, by rw [k1]; exact hex, j4, by rw [← k4]; exact hexp, ?_, ?_⟩
    · rw [k1, k2, j1, j2]; exact hcs
    · intro hmap
      have := shown_guard hm hgu hmap
      rw [Taken.guard, show Taken.attrs (.fn p owner ext sf) = sf.attrs from rfl, ← j3, ← k3, hsh] at this
      exact List.all_eq_true.1 this.symm
    · intro rule T harr hr hT
      rw [← source_type hc hl hld hfin harr hr hT, hty]

/-- **C63.** Without tags in the style of the header, no keyword is before names. -/
theorem C63_tag_off (h : c.generateTag = false) (n : Str) : tagFor c l₁ n = none := by simp [tagFor, h]

/-- **C63.** The keyword before a name is that of its definition. -/
theorem C63_tag_known {x : Container} (hx : x ∈ (l₁.removeExcluded c).types) (hu : RefSpec.Uniform l₁.types)
    (ho : ∀ x ∈ l₁.types, RefSpec.Ordinary x) (hg : c.generateTag = true) : tagFor c l₁ x.path = RefSpec.definedAs x := by
  rw [tagFor, if_pos hg]
  refine typeFor_known hx ?_ fun y hy => ho y (mem_types_removeExcluded hy)
  exact fun y hy w hw => hu y (mem_types_removeExcluded hy) w (mem_types_removeExcluded hw)

/-- **C63.** No keyword is before a name that nothing defines. -/
theorem C63_tag_unknown {n : Str} (hn : ∀ x ∈ l₁.types, x.path ≠ n) : tagFor c l₁ n = none := by
  rw [tagFor]
  split
  · exact typeFor_unknown fun x hx => hn x (mem_types_removeExcluded (c := c) hx)
  · rfl

end

end Cbindgen
