import Verif.Lemmas.SourceCxx
import Verif.Props.ReadCxx
import Verif.Props.SourceStatics

/-!
# C75: the functions and variables of Rust sources in a C++ header
-/

namespace Cbindgen
open CSpec HeadSpec LexSpec
open SrcSpec hiding Reaches Given Plain Declares

/-- What the C++ types of an item depend on, by the options of both stages.  No keywords are before names. -/
def SrcSpec.cxxEnv (c : LibConfig) (o : OutConfig) (rule : RenameRule) (owner : Option Str) : TyEnv :=
  envOf c o (fun _ => none) rule owner

theorem cxxEnv_for {c : LibConfig} {o : OutConfig} (h : o.language = .cxx) {rule : RenameRule}
    {owner : Option Str} : EnvForX (cxxEnv c o rule owner) o.toDeclConfig c.ren [] :=
  ⟨h, rfl, rfl, rfl, rfl, fun _ => rfl⟩

section
variable {pc : ParseConfig} {lc : LoadConfig} {fuel fuel' : Nat} {i : Inputs} {c : LibConfig}
  {order : List (Str × Annotations) → List (Str × Annotations)} {l : Library} {b : Bindings}
  {R : Dialect} {on : Str → Bool} {D : List Str} {e : Env} {t : Str} {rust : CfgSpec.Opt → Bool}

/-- The header is the first time that it is read, and the `cfg`s hold in Rust and have macros. -/
structure CxxReadWhere (R : Dialect) (on : Str → Bool) (D : List Str) (e : Env) (b : Bindings) (t : Str) (rust : CfgSpec.Opt → Bool)
    (cs : List Cfg) : Prop where
  good : CxxHeaderGood R on D e b
  text : headerText e b = some t
  first : ∀ g, e.cfg.guard = some g → on g = false
  same : CfgSpec.Matches e.cfg.defines rust on
  mapped : ∀ x ∈ cs, CfgSpec.Mapped e.cfg.defines x
  holds : ∀ x ∈ cs, CfgSpec.holds rust x = true

theorem CxxReadWhere.shown {cs : List Cfg} (h : CxxReadWhere R on D e b t rust cs) {g : Option Cfg} (hg : ParserSpec.GuardIs g cs) :
    HeadSpec.shown e.cfg on g = true := by
  rw [shown_guard h.same hg h.mapped, List.all_eq_true]
  exact h.holds

/-- The type of a function in the bindings, from its type in the sources. -/
theorem source_typeX (hl : e.cfg.language = .cxx) {path : Str} {owner : Option Str} {ext : Bool} {sf : SynFn}
    {m : Option Cfg} {f f' : FuncItem} (hf : sf.sig.load path owner ext sf.attrs m = .ok f) (h : f.finalX c = some f')
    (harr : f.annotations.list c!"ptrs-as-arrays" = none) {rule : RenameRule} (hr : f.annotations.ruleOr c.renameArgs = some rule)
    {T : CTy} (hT : CxxFn (cxxEnv c e.cfg rule owner) sf.sig T) : funcTy e.cfg f' = T := by
  have ha := (load_cfg hf).2.2.2
  obtain ⟨f₁, h1, _, _, _, h2, _, h3⟩ := xfn_ok (cxxEnv_for hl) hT ha path ext m
  rw [show (cxxEnv c e.cfg rule owner).owner = owner from rfl] at h1
  rw [hf] at h1
  cases h1
  exact finalX_typed (E := cxxEnv c e.cfg rule owner) h3 hr harr rfl h

/-- **C75.** A function with C linkage that the sources declare, at any depth and in any crate that is read, is declared
in the C++ header with the linkage of C, in the namespaces, with the C++ type of its Rust type, where all the `cfg`s
around it hold. -/
theorem C75_declared_partial (hb : buildLibrary pc lc fuel i = .ok l) (hp : InputsPlain i) (ho : OnePath pc i)
    (hc : c.language = .cxx) (h : l.generate c order fuel' = .ok b) (hgen : c.export_.shouldGenerate .functions = true)
    {path : Str} {owner : Option Str} {ext : Bool} {sf : SynFn} {cs : List Cfg} (hr : CxxReadWhere R on D e b t rust cs)
    (hgiven : SrcSpec.Given pc i (.fn path owner ext sf) cs) (hex : path ∉ c.export_.exclude)
    {a : Annotations} (ha : Annotations.load sf.attrs = .ok a) (hexp : a.shouldExport = true)
    (harr : a.list c!"ptrs-as-arrays" = none) {rule : RenameRule} (hrule : a.ruleOr c.renameArgs = some rule)
    {T : CTy} (hT : CxxFn (cxxEnv c e.cfg rule owner) sf.sig T) :
    ∃ o attrs, readHeader R on t = some o ∧
      Declares o.items (e.cfg.namespace_.toList ++ e.cfg.namespaces.getD []) true (.object ext attrs path T.forgetFnPtr []) := by
  have hl : e.cfg.language = .cxx := hr.good.lang
  obtain ⟨rs, hrs, hmem⟩ := mem_functions hb
  obtain ⟨r, hr1, m, hr2, hr3⟩ := hrs.complete hp ho hgiven
  obtain ⟨f, hf, hf1, hf2, hf3, hf4, _, _⟩ := xfn_ok (cxxEnv_for hl) hT ha path ext m
  have hfl := (hmem f).2 ⟨r, hr1, path, owner, ext, sf, m, hr2, hf⟩
  obtain ⟨h1, h2⟩ := functions_finalX hc h hgen
  obtain ⟨f', hf'⟩ := h2 f hfl (by rw [hf1]; exact hex)
  have hfb := (h1 f').2 ⟨f, hfl, by rw [hf1]; exact hex, hf'⟩
  obtain ⟨k1, k2, k3, k4⟩ := renameFor_keeps hf'
  have k1 : f'.path = f.path := k1
  have k2 : f'.externDecl = f.externDecl := k2
  have k3 : f'.cfg = f.cfg := k3
  have k4 : f'.annotations = f.annotations := k4
  have hty := source_typeX hl hf hf' (by rw [hf4]; exact harr) (by rw [hf4]; exact hrule) hT
  have hs : shown e.cfg on f'.cfg = true := by
    rw [k3, hf3]
    exact hr.shown hr3
  obtain ⟨o, ho1, ho2⟩ := C74_function_linkage_partial hr.good hr.text hr.first hfb (by rw [k4, hf4]; exact hexp) hs
  rw [hty, k1, k2, hf1, hf2] at ho2
  exact ⟨o, _, ho1, ho2⟩

/-- **C75.** The header declares no other functions, and none without the linkage of C or outside the namespaces, if the
blocks of code that users give declare only types: one that it declares is in the sources, under `cfg`s that hold, and
has the C++ type of its Rust type. -/
theorem C75_only_partial (hb : buildLibrary pc lc fuel i = .ok l) (hp : InputsPlain i)
    (hc : c.language = .cxx) (h : l.generate c order fuel' = .ok b)
    (hgen : c.export_.shouldGenerate .functions = true) (hg : CxxHeaderGood R on D e b) (ht : headerText e b = some t)
    (hn : ∀ k ∈ [e.cfg.header, e.cfg.autogenWarning, e.cfg.afterIncludes, e.cfg.trailer], ∀ d ∈ (blockOut R on k).items, IsType d)
    (hm : CfgSpec.Matches e.cfg.defines rust on) {o : Out} (hrd : readHeader R on t = some o)
    {ns : List Str} {link ext : Bool} {attrs bits : List Lx} {path : Str} {ps : List CParam} {at' : Option Str} {ret : CTy}
    (hd : Declares o.items ns link (.object ext attrs path (.fn ps at' ret) bits)) :
    link = true ∧ ns = e.cfg.namespace_.toList ++ e.cfg.namespaces.getD [] ∧ bits = [] ∧
    ∃ owner sf cs a, SrcSpec.Given pc i (.fn path owner ext sf) cs ∧ path ∉ c.export_.exclude ∧
      Annotations.load sf.attrs = .ok a ∧ a.shouldExport = true ∧
      ((∀ x ∈ cs, CfgSpec.Mapped e.cfg.defines x) → ∀ x ∈ cs, CfgSpec.holds rust x = true) ∧
      ∀ rule T, a.list c!"ptrs-as-arrays" = none → a.ruleOr c.renameArgs = some rule →
        CxxFn (cxxEnv c e.cfg rule owner) sf.sig T → T.forgetFnPtr = .fn ps at' ret := by
  have hl : e.cfg.language = .cxx := hg.lang
  obtain ⟨rfl, rfl, hcase⟩ := C74_only_partial hg ht hn hrd hd trivial
  rcases hcase with ⟨g, _, _, _, hd'⟩ | ⟨f', hf', hexp, hsh, hd'⟩
  · exfalso
    simp only [CItem.object.injEq, staticTy] at hd'
    exact meaning_notFn _ _ _ _ _ _ hd'.2.2.2.1.symm
  · simp only [CItem.object.injEq] at hd'
    obtain ⟨rfl, _, rfl, hty, rfl⟩ := hd'
    refine ⟨rfl, rfl, rfl, ?_⟩
    obtain ⟨rs, hrs, hmem⟩ := mem_functions hb
    obtain ⟨h1, _⟩ := functions_finalX hc h hgen
    obtain ⟨f, hfl, hex, hfin⟩ := (h1 f').1 hf'
    obtain ⟨r, hr1, p, owner, ext, sf, m, hr2, hld⟩ := (hmem f).1 hfl
    obtain ⟨k1, k2, k3, k4⟩ := renameFor_keeps hfin
    have k1 : f'.path = f.path := k1
    have k2 : f'.externDecl = f.externDecl := k2
    have k3 : f'.cfg = f.cfg := k3
    have k4 : f'.annotations = f.annotations := k4
    obtain ⟨j1, j2, j3, j4⟩ := load_cfg hld
    obtain ⟨cs, hcs, hgu⟩ := hrs.sound hp hr1 hr2
    refine ⟨owner, sf, cs, f.annotations, ?_, by rw [k1]; exact hex, j4, by rw [← k4]; exact hexp, ?_, ?_⟩
    · rw [k1, k2, j1, j2]; exact hcs
    · intro hmap
      have := shown_guard hm hgu hmap
      rw [Taken.guard, show Taken.attrs (.fn p owner ext sf) = sf.attrs from rfl, ← j3, ← k3, hsh] at this
      exact List.all_eq_true.1 this.symm
    · intro rule T harr hr hT
      rw [← source_typeX hl hld hfin harr hr hT, hty]

/-- The type of a variable of the bindings, from its type in the sources. -/
theorem static_typeX (hl : e.cfg.language = .cxx) {path : Str} {s : SynStatic} {m : Option Cfg} {x : StaticItem}
    (hx : s.load path m = .ok x) (hg : StaticGood R e.cfg (x.finalX c))
    {rule : RenameRule} {u : CTy} (hu : CxxStatic (cxxEnv c e.cfg rule none) s.mutable s.ty u) : staticTy e.cfg (x.finalX c) = u := by
  obtain ⟨_, _, j3, _, _, j6⟩ := static_load_keeps hx
  have k3 : (x.finalX c).mutable = x.mutable := rfl
  have key : ∀ k v, CxxType (cxxEnv c e.cfg rule none) k s.ty v → meaning e.cfg.toDeclConfig k (x.finalX c).ty = v := by
    intro k v hv
    obtain ⟨ty, h1, h2⟩ := xtype_ok (cxxEnv_for hl) hv
    rw [j6] at h1
    cases h1
    exact h2.fin
  have hco := hg.const
  unfold staticTy
  rw [k3, j3] at hco ⊢
  generalize hmu : s.mutable = mu at hu hco ⊢
  generalize (x.finalX c).ty = ty at key hco ⊢
  cases hu with
  | mutable hu => exact key _ _ hu
  | pointer hu hp =>
    rw [← key _ _ hu] at hp
    rcases (isPtr_meaning _ _ _).1 hp with ⟨t', c', n, r, rfl⟩ | ⟨r, as, n, nr, rfl⟩
    · cases c' with
      | true => exact key _ _ hu
      | false => simp [Ty.isConstPtr, constBase] at hco
    · simp [Ty.isConstPtr, constBase] at hco
  | value hu hp =>
    rw [← key _ _ hu, isPtr_meaning] at hp
    have : ty.isConstPtr = false := by
      cases ty <;> first | rfl | (exfalso; exact hp (Or.inl ⟨_, _, _, _, rfl⟩))
    rw [this]
    exact key _ _ hu

/-- **C75.** A variable that the sources export is declared in the C++ header with the linkage of C, in the namespaces, with
the C++ type of its Rust type, where all the `cfg`s around it hold. -/
theorem C75_static_partial (hb : buildLibrary pc lc fuel i = .ok l) (hp : InputsPlain i) (ho : OnePath pc i)
    (hc : c.language = .cxx) (h : l.generate c order fuel' = .ok b) (hgen : c.export_.shouldGenerate .globals = true)
    {path : Str} {s : SynStatic} {cs : List Cfg} (hr : CxxReadWhere R on D e b t rust cs) (hS : SoleStatic pc i path s cs)
    (hex : path ∉ c.export_.exclude) {a : Annotations} (ha : Annotations.load s.attrs = .ok a) (hexp : a.shouldExport = true)
    {rule : RenameRule} {u : CTy} (hu : CxxStatic (cxxEnv c e.cfg rule none) s.mutable s.ty u) :
    ∃ o, readHeader R on t = some o ∧
      Declares o.items (e.cfg.namespace_.toList ++ e.cfg.namespaces.getD []) true (.object true [] path u.forgetFnPtr []) := by
  have hlang : e.cfg.language = .cxx := hr.good.lang
  have hty : ∃ ty, s.ty.load = .ok (some ty) := by
    generalize s.mutable = mu at hu
    cases hu with
    | mutable hu => obtain ⟨ty, h1, _⟩ := xtype_ok (cxxEnv_for hlang) hu; exact ⟨ty, h1⟩
    | pointer hu => obtain ⟨ty, h1, _⟩ := xtype_ok (cxxEnv_for hlang) hu; exact ⟨ty, h1⟩
    | value hu => obtain ⟨ty, h1, _⟩ := xtype_ok (cxxEnv_for hlang) hu; exact ⟨ty, h1⟩
  obtain ⟨ty, hty⟩ := hty
  obtain ⟨x, m, hx, hg, hl⟩ := statics_complete hb hp ho hS (static_load_ok hty ha path)
  obtain ⟨j1, j2, j3, j4, j5, _⟩ := static_load_keeps hl
  rw [ha] at j5
  have hbg := (globals_finalX hc h (statics_wf hb) hgen _).2 ⟨x, hx, by rw [j1]; exact hex, rfl⟩
  have k2 : (x.finalX c).exportName = x.exportName := rfl
  have k4 : (x.finalX c).cfg = x.cfg := rfl
  have hexp' : (x.finalX c).annotations.shouldExport = true := by
    rw [show (x.finalX c).annotations = x.annotations from rfl, ← Except.ok.inj j5]
    exact hexp
  obtain ⟨o, ho1, ho2⟩ := C74_static_linkage_partial hr.good hr.text hr.first hbg hexp' (by rw [k4, j4]; exact hr.shown hg)
  rw [static_typeX hlang hl (hr.good.globals _ hbg hexp') hu, k2, j2] at ho2
  exact ⟨o, ho1, ho2⟩

/-- **C75.** The header declares no other variables. -/
theorem C75_static_only_partial (hb : buildLibrary pc lc fuel i = .ok l) (hp : InputsPlain i)
    (hc : c.language = .cxx) (h : l.generate c order fuel' = .ok b)
    (hgen : c.export_.shouldGenerate .globals = true) (hg : CxxHeaderGood R on D e b) (ht : headerText e b = some t)
    (hn : ∀ k ∈ [e.cfg.header, e.cfg.autogenWarning, e.cfg.afterIncludes, e.cfg.trailer], ∀ d ∈ (blockOut R on k).items, IsType d)
    (hm : CfgSpec.Matches e.cfg.defines rust on) {o : Out} (hrd : readHeader R on t = some o)
    {ns : List Str} {link ext : Bool} {attrs bits : List Lx} {path : Str} {ty : CTy}
    (hd : Declares o.items ns link (.object ext attrs path ty bits)) (hty : ∀ ps a r, ty ≠ .fn ps a r) :
    link = true ∧ ns = e.cfg.namespace_.toList ++ e.cfg.namespaces.getD [] ∧ ext = true ∧ attrs = [] ∧ bits = [] ∧
    ∃ s cs a, SrcSpec.Given pc i (.static path s) cs ∧ path ∉ c.export_.exclude ∧
      Annotations.load s.attrs = .ok a ∧ a.shouldExport = true ∧
      ((∀ x ∈ cs, CfgSpec.Mapped e.cfg.defines x) → ∀ x ∈ cs, CfgSpec.holds rust x = true) ∧
      ∀ rule u, CxxStatic (cxxEnv c e.cfg rule none) s.mutable s.ty u → u.forgetFnPtr = ty := by
  have hlang : e.cfg.language = .cxx := hg.lang
  obtain ⟨rfl, rfl, hcase⟩ := C74_only_partial hg ht hn hrd hd trivial
  rcases hcase with ⟨g, hg1, hexp, hsh, hd'⟩ | ⟨f, _, _, _, hd'⟩
  · simp only [CItem.object.injEq] at hd'
    obtain ⟨rfl, rfl, rfl, rfl, rfl⟩ := hd'
    obtain ⟨x, hx, hex, rfl⟩ := (globals_finalX hc h (statics_wf hb) hgen g).1 hg1
    obtain ⟨s, m, cs, q1, q2, q3⟩ := statics_sound hb hp hx
    obtain ⟨j1, j2, j3, j4, j5, _⟩ := static_load_keeps q3
    have k2 : (x.finalX c).exportName = x.exportName := rfl
    have k4 : (x.finalX c).cfg = x.cfg := rfl
    refine ⟨rfl, rfl, rfl, rfl, rfl, s, cs, x.annotations, ?_, ?_, j5, hexp, ?_, ?_⟩
    · rw [k2, j2]; exact q1
    · rw [k2, j2]; exact hex
    · intro hmap
      have := shown_guard hm q2 hmap
      rw [Taken.guard, show Taken.attrs (.static x.path s) = s.attrs from rfl, ← j4, ← k4, hsh] at this
      exact List.all_eq_true.1 this.symm
    · intro rule u hu
      rw [static_typeX hlang q3 (hg.globals _ hg1 hexp) hu]
  · exfalso
    simp only [CItem.object.injEq] at hd'
    obtain ⟨ps, a, r, hf⟩ := func_isFn (c := e.cfg) (f := f)
    exact hty _ _ _ (hd'.2.2.2.1.trans hf)

end

end Cbindgen
