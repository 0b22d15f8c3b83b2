import Verif.Props.SourceDefs

/-!
# C65: the variables of the sources in a C header
-/

namespace Cbindgen
open CSpec HeadSpec ScopeSpec LexSpec
open SrcSpec hiding Reaches Given Plain

section
variable {R : Dialect} {on : Str → Bool} {e : Env} {b : Bindings}

theorem header_static (hg : ∀ g, e.cfg.guard = some g → on g = false) {g : StaticItem} (hf : g ∈ b.globals)
    (hx : g.annotations.shouldExport = true) {d : CItem} (hd : d ∈ (staticOut e.cfg on g).items) :
    d ∈ (headerOut R e on b).items := by
  have hgu : (e.cfg.guard.all fun g => !on g) = true := by
    cases h : e.cfg.guard with
    | none => rfl
    | some g => simp [hg g h]
  simp only [headerOut, items_append, items_when, guardedOut, bindingsOut, items_outs, hgu, if_true, List.mem_append,
    List.mem_flatMap, List.mem_map, List.mem_filter]
  exact Or.inl (Or.inr (Or.inr (Or.inl (Or.inr ⟨_, ⟨g, ⟨hf, hx⟩, rfl⟩, hd⟩))))

end

/-- The types that are pointers in C. -/
theorem isPtr_meaning (d : DeclConfig) (k : Bool) (t : Ty) : IsPtr (meaning d k t) ↔ (∃ t' c n r, t = .ptr t' c n r) ∨ ∃ r as n nr, t = .fnptr r as n nr := by
  cases t <;> simp [meaning, IsPtr]

section
variable {pc : ParseConfig} {lc : LoadConfig} {fuel fuel' : Nat} {i : Inputs} {c : LibConfig}
  {order : List (Str × Annotations) → List (Str × Annotations)} {l l₁ : Library} {b : Bindings}
  {R : Dialect} {on : Str → Bool} {D : List Str} {e : Env} {tx : Str} {rust : CfgSpec.Opt → Bool}

/-- The type of a variable of the bindings, from its type in the sources. -/
theorem static_type (hc : c.language = .c) (hl : e.cfg.language = .c) {path : Str} {s : SynStatic} {m : Option Cfg} {x : StaticItem}
    (hx : s.load path m = .ok x) (hg : StaticGood R e.cfg (x.final c (Resolver.typeFor (l₁.removeExcluded c).resolver)))
    {rule : RenameRule} {u : CTy} (hu : CStatic (envOf c e.cfg (tagFor c l₁) rule none) s.mutable s.ty u) :
    staticTy e.cfg (x.final c (Resolver.typeFor (l₁.removeExcluded c).resolver)) = u := by
  obtain ⟨_, _, j3, _, _, j6⟩ := static_load_keeps hx
  obtain ⟨_, _, k3, _, _⟩ := StaticItem.final_keeps c (Resolver.typeFor (l₁.removeExcluded c).resolver) x
  have key : ∀ k v, CType (envOf c e.cfg (tagFor c l₁) rule none) k s.ty v →
      meaning e.cfg.toDeclConfig k (x.final c (Resolver.typeFor (l₁.removeExcluded c).resolver)).ty = v := by
    intro k v hv
    obtain ⟨ty, h1, h2⟩ := ctype_ok (envOf_for hl) hv
    rw [j6] at h1
    cases h1
    have hcl : (x.ty.simplify .c).Clean := h2.clean
    have hfin : (x.ty.simplify .c).fin e.cfg.toDeclConfig (envOf c e.cfg (tagFor c l₁) rule none).tag
      (envOf c e.cfg (tagFor c l₁) rule none).name k = v := h2.fin
    have := end_meaning (c := c) (l₁ := l₁) (o := e.cfg) (find := fun _ => none) (rule := rule) (owner := none) hcl k
    rw [hfin] at this
    rw [← this, StaticItem.final_ty hc, endTy, clean_mangle _ _ hcl]
  have hco := hg.const
  unfold staticTy
  rw [k3, j3] at hco ⊢
  generalize hmu : s.mutable = mu at hu hco ⊢
  cases hu with
  | mutable hu => exact key _ _ hu
  | pointer hu hp =>
    rw [← key _ _ hu] at hp
    rcases (isPtr_meaning _ _ _).1 hp with ⟨t', c', n, r, ht⟩ | ⟨r, as, n, nr, ht⟩
    · rw [ht] at hco
      cases c' with
      | true =>
        have : (x.final c (Resolver.typeFor (l₁.removeExcluded c).resolver)).ty.isConstPtr = true := by rw [ht]; rfl
        rw [this]
        exact key _ _ hu
      | false => simp [Ty.isConstPtr, constBase] at hco
    · rw [ht] at hco
      simp [Ty.isConstPtr, constBase] at hco
  | value hu hp =>
    rw [← key _ _ hu, isPtr_meaning] at hp
    have : (x.final c (Resolver.typeFor (l₁.removeExcluded c).resolver)).ty.isConstPtr = false := by
      generalize (x.final c (Resolver.typeFor (l₁.removeExcluded c).resolver)).ty = ty at hp
      cases ty <;> first | rfl | (exfalso; exact hp (Or.inl ⟨_, _, _, _, rfl⟩))
    rw [this]
    exact key _ _ hu

/-- **C65.** A variable that the sources export is declared in the header with the C type of its Rust type, where all the
`cfg`s around it hold. -/
theorem C65_declared_partial (hb : buildLibrary pc lc fuel i = .ok l) (hp : InputsPlain i) (ho : OnePath pc i)
    (hc : c.language = .c) (h : l.generate c order fuel' = .ok b)
    (he : (((l.transferAnnotations order).simplify c).sortFunctions c).expand c fuel' = .ok l₁)
    (hgen : c.export_.shouldGenerate .globals = true) {path : Str} {s : SynStatic} {cs : List Cfg}
    (hr : ReadWhere R on D e b tx rust cs) (hS : SoleStatic pc i path s cs) (hex : path ∉ c.export_.exclude)
    {a : Annotations} (ha : Annotations.load s.attrs = .ok a) (hexp : a.shouldExport = true)
    {rule : RenameRule} {u : CTy} (hu : CStatic (envOf c e.cfg (tagFor c l₁) rule none) s.mutable s.ty u) :
    ∃ o, readHeader R on tx = some o ∧ .object true [] path u.forgetFnPtr [] ∈ o.items := by
  have hlang : e.cfg.language = .c := hr.good.options.lang
  have hty : ∃ ty, s.ty.load = .ok (some ty) := by
    generalize s.mutable = mu at hu
    cases hu with
    | mutable hu => obtain ⟨ty, h1, _⟩ := ctype_ok (envOf_for hlang) hu; exact ⟨ty, h1⟩
    | pointer hu => obtain ⟨ty, h1, _⟩ := ctype_ok (envOf_for hlang) hu; exact ⟨ty, h1⟩
    | value hu => obtain ⟨ty, h1, _⟩ := ctype_ok (envOf_for hlang) hu; exact ⟨ty, h1⟩
  obtain ⟨ty, hty⟩ := hty
  obtain ⟨x, m, hx, hg, hl⟩ := statics_complete hb hp ho hS (static_load_ok hty ha path)
  obtain ⟨j1, j2, j3, j4, j5, _⟩ := static_load_keeps hl
  rw [ha] at j5
  have hbg := (globals_final hc h he (statics_wf hb) hgen _).2 ⟨x, hx, by rw [j1]; exact hex, rfl⟩
  obtain ⟨k1, k2, k3, k4, k5⟩ := StaticItem.final_keeps c (Resolver.typeFor (l₁.removeExcluded c).resolver) x
  have hexp' : (x.final c (Resolver.typeFor (l₁.removeExcluded c).resolver)).annotations.shouldExport = true := by
    rw [k5, ← Except.ok.inj j5]
    exact hexp
  refine ⟨_, C61_header_reads_back hr.good hr.text, header_static hr.first hbg hexp' ?_⟩
  rw [staticOut, items_when, k4, j4, if_pos (hr.shown (g := Cfg.append m (loadCfg s.attrs)) hg),
    static_type hc hlang hl (hr.good.globals _ hbg hexp') hu, k2, j2]
  simp [decls]

theorem func_isFn {c : OutConfig} {f : FuncItem} : ∃ ps a r, (funcTy c f).forgetFnPtr = .fn ps a r := by
  unfold funcTy meaningFn
  exact ⟨_, _, _, rfl⟩

/-- **C65.** The header declares no other variables: one that it declares is in the sources, under `cfg`s that hold, and
has the C type of its Rust type. -/
theorem C65_only_partial (hb : buildLibrary pc lc fuel i = .ok l) (hp : InputsPlain i)
    (hc : c.language = .c) (h : l.generate c order fuel' = .ok b)
    (he : (((l.transferAnnotations order).simplify c).sortFunctions c).expand c fuel' = .ok l₁)
    (hgen : c.export_.shouldGenerate .globals = true) (hg : HeaderGood R on D e b) (ht : headerText e b = some tx)
    (hn : NoBlocks R on e.cfg) (hm : CfgSpec.Matches e.cfg.defines rust on) {o : Out} (hrd : readHeader R on tx = some o)
    {ext : Bool} {attrs bits : List Lx} {path : Str} {ty : CTy} (hd : .object ext attrs path ty bits ∈ o.items)
    (hty : ∀ ps a r, ty ≠ .fn ps a r) :
    ext = true ∧ attrs = [] ∧ bits = [] ∧ ∃ s cs a, SrcSpec.Given pc i (.static path s) cs ∧ path ∉ c.export_.exclude ∧
      Annotations.load s.attrs = .ok a ∧ a.shouldExport = true ∧
      ((∀ x ∈ cs, CfgSpec.Mapped e.cfg.defines x) → ∀ x ∈ cs, CfgSpec.holds rust x = true) ∧
      ∀ rule u, CStatic (envOf c e.cfg (tagFor c l₁) rule none) s.mutable s.ty u → u.forgetFnPtr = ty := by
  have hlang : e.cfg.language = .c := hg.options.lang
  rw [C61_header_reads_back hg ht] at hrd
  cases hrd
  rcases header_objects hlang hn hd (fun h => h) with ⟨g, hg1, hexp, hd⟩ | ⟨f, _, _, hd⟩
  · rw [staticOut, items_when] at hd
    split at hd
    rotate_left
    · simp at hd
    rename_i hsh
    simp only [decls, List.mem_singleton, CItem.object.injEq] at hd
    obtain ⟨rfl, rfl, rfl, rfl, rfl⟩ := hd
    obtain ⟨x, hx, hex, rfl⟩ := (globals_final hc h he (statics_wf hb) hgen g).1 hg1
    obtain ⟨s, m, cs, q1, q2, q3⟩ := statics_sound hb hp hx
    obtain ⟨j1, j2, j3, j4, j5, _⟩ := static_load_keeps q3
    obtain ⟨k1, k2, k3, k4, k5⟩ := StaticItem.final_keeps c (Resolver.typeFor (l₁.removeExcluded c).resolver) x
    refine ⟨rfl, rfl, rfl, s, cs, x.annotations, ?_, ?_, j5, by rw [← k5]; exact hexp, ?_, ?_⟩
    · rw [k2, j2]; exact q1
    · rw [k2, j2]; exact hex
    · intro hmap
      have := shown_guard hm q2 hmap
      rw [Taken.guard, show Taken.attrs (.static x.path s) = s.attrs from rfl, ← j4, ← k4, hsh] at this
      exact List.all_eq_true.1 this.symm
    · intro rule u hu
      rw [static_type hc hlang q3 (hg.globals _ hg1 hexp) hu]
  · exfalso
    rw [funcOut, items_when] at hd
    split at hd
    · simp only [decls, List.mem_singleton, CItem.object.injEq] at hd
      obtain ⟨ps, a, r, hf⟩ := func_isFn (c := e.cfg) (f := f)
      exact hty _ _ _ (hd.2.2.2.1.trans hf)
    · simp at hd

end

end Cbindgen
