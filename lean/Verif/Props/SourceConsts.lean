import Verif.Lemmas.SourceConsts
import Verif.Props.SourceEnums

/-!
# C67: the constants of the sources in a C header
-/

namespace Cbindgen
open CSpec HeadSpec ScopeSpec LexSpec
open SrcSpec hiding Reaches Given Plain

theorem macros_append (a b : Out) : (a ++ b).macros = a.macros ++ b.macros := by simp [Out.append_def]

theorem macros_when (b : Bool) (o : Out) : (whenOut b o).macros = if b then o.macros else [] := by cases b <;> simp [whenOut]

theorem macros_outs (os : List Out) : (outs os).macros = os.flatMap Out.macros := by
  induction os with
  | nil => rfl
  | cons o os ih =>
    show (o ++ outs os).macros = _
    simp [Out.append_def, ih]

section
variable {R : Dialect} {on : Str → Bool} {e : Env} {b : Bindings}

theorem header_macro (hg : ∀ g, e.cfg.guard = some g → on g = false) {k : ConstItem} (hk : k ∈ b.constants) {d : Str × List Lx}
    (hd : d ∈ (constOut e on none k).macros) : d ∈ (headerOut R e on b).macros := by
  have hgu : (e.cfg.guard.all fun g => !on g) = true := by
    cases h : e.cfg.guard with
    | none => rfl
    | some g => simp [hg g h]
  simp only [headerOut, macros_append, macros_when, guardedOut, bindingsOut, constantsOut, macros_outs, hgu, if_true, List.mem_append,
    List.mem_flatMap, List.mem_map, List.mem_filter]
  refine Or.inl (Or.inr (Or.inr ?_))
  cases hp : k.onlyPrimitive with
  | true => exact Or.inl (Or.inl (Or.inl (Or.inl ⟨_, ⟨k, ⟨hk, by rw [hp]; rfl⟩, rfl⟩, hd⟩)))
  | false => exact Or.inl (Or.inl (Or.inr ⟨_, ⟨k, ⟨hk, by rw [hp]; rfl⟩, rfl⟩, hd⟩))

end

/-- Numbers and truth values have types that are loaded. -/
theorem scalar_load {t : SynTy} {lim : Nat} (h : ScalarLimit t lim) : ∃ ty, t.load = .ok (some ty) := by
  rcases h with h | ⟨rfl, _⟩
  · obtain ⟨q, h, _⟩ := cast_ok h
    exact ⟨_, h⟩
  · exact ⟨_, rfl⟩

section
variable {pc : ParseConfig} {lc : LoadConfig} {fuel fuel' : Nat} {i : Inputs} {c : LibConfig}
  {order : List (Str × Annotations) → List (Str × Annotations)} {l l₁ : Library} {b : Bindings}
  {R : Dialect} {on : Str → Bool} {D : List Str} {e : Env} {tx : Str} {rust : CfgSpec.Opt → Bool}

/-- **C67.** A constant of the sources is a macro of the header, and a C compiler computes its value in Rust from it, where
all the `cfg`s around the constant hold. -/
theorem C67_value_partial (h : Stages pc lc fuel fuel' i c order l l₁ b) (hgen : c.export_.shouldGenerate .constants = true)
    (hr : ReadWhere R on D e b tx rust []) (hmap : ∀ k cs, SrcSpec.Given pc i (.const k) cs → ∀ x ∈ cs, CfgSpec.Mapped e.cfg.defines x) :
    ∃ o, readHeader R on tx = some o ∧
      ∀ p, Usual p → Macros (ConstVal pc i c.export_.exclude rust) c.ren p o.macros := by
  refine ⟨_, C61_header_reads_back hr.good hr.text, fun p hp lim n v hv => ?_⟩
  refine hv (fun lim n v => ∃ ts ty, (c.ren n, ts) ∈ (headerOut R e on b).macros ∧ CValue p (headerOut R e on b).macros ts ty v) ?_
  intro k cs n lim v hS hc hn hl ⟨a, ha⟩ hv
  obtain ⟨lit, h1, h2⟩ := value_ok (ord := lc.fieldOrder) hv
  obtain ⟨ty, hty⟩ := scalar_load hl
  obtain ⟨x, m, hx, hg, hload⟩ := consts_complete h.built h.plain h.onePath hS (const_load_ok hty h1.load ha)
  obtain ⟨k1, k2, k3, k4, k5, w, k6, k7⟩ := const_load_keeps hload
  have hval : x.value = lit := by
    rw [k7 rfl]
    rw [h1.load] at k6
    exact (Except.ok.inj k6).symm
  have hb := (constants_final h.generated (consts_wf h.built) hgen _).2 ⟨x, hx, by rw [k1]; exact hn, rfl⟩
  have hsh : shown e.cfg on x.cfg = true := by
    rw [k2]
    have := shown_guard hr.same hg (hmap k cs hS.given)
    rw [Taken.guard, show Taken.attrs (.const k) = k.attrs from rfl] at this
    rw [this, List.all_eq_true]
    exact hc
  obtain ⟨t, ht⟩ := h2 p (headerOut R e on b).macros e c.ren hp (fun _ _ _ h => h)
  refine ⟨litToks e (lit.rename c.ren), t, header_macro hr.first hb ?_, ht⟩
  have hname : (x.renameFor c).writtenName e.cfg none = some (c.ren n) := by
    unfold ConstItem.writtenName
    simp only [inBody, ConstItem.renameFor, k3]
    simp only [constExportName, Except.ok.injEq] at k5
    rw [← k5]
    rfl
  have hpeel : (x.renameFor c).value.peel e.transparent = some (lit.rename c.ren) := by
    show (x.value.rename c.ren).peel _ = _
    rw [hval]
    exact h1.peel _ _
  have hvalid : (x.renameFor c).value.isValid e = true := by
    show (x.value.rename c.ren).isValid e = true
    rw [hval]
    exact h1.valid _ _
  unfold constOut
  rw [hvalid, hname, hpeel]
  simp only [Option.any_none, Bool.not_true, Bool.or_self, Bool.false_eq_true, if_false, macros_when]
  rw [show (x.renameFor c).cfg = x.cfg from rfl, hsh, not_variable hr.good.options.lang]
  simp

theorem ReadWhere.weaken {cs : List Cfg} (h : ReadWhere R on D e b tx rust cs) : ReadWhere R on D e b tx rust [] :=
  ⟨h.good, h.text, h.first, h.same, nofun, nofun⟩

/-- **C67.** The discriminants of an enum may refer to constants of the sources: they have the same values in C, where the
constants are the macros of the header. -/
theorem C67_enum_partial (h : Stages pc lc fuel fuel' i c order l l₁ b) (hgen : c.export_.shouldGenerate .constants = true)
    {s : SynEnum} {cs : List Cfg} {n : Str} (hr : ReadWhere R on D e b tx rust cs)
    (hmap' : ∀ k cs, SrcSpec.Given pc i (.const k) cs → ∀ x ∈ cs, CfgSpec.Mapped e.cfg.defines x)
    (hS : Sole pc lc i c (.enum s) cs n) (hN : Needed pc lc i c n) {r : Repr} {a : Annotations}
    {arm rule : RenameRule} (hI : EnumIs lc c s r a arm rule) (hexp : a.shouldExport = true) (hty : r.ty = none)
    (hmap : ∀ v ∈ s.variants, ∀ x ∈ conds v.attrs, CfgSpec.Mapped e.cfg.defines x) {ds : List (Str × Int)} {k : Int}
    (hd : Discriminants (ConstVal pc i c.export_.exclude rust) (reprLimit r.ty) rust 0 s.variants ds k) :
    ∃ o es, readHeader R on tx = some o ∧
      .enumeration (attrToks [a.deprecatedNote e.cfg .enum]) (tagOf e.cfg (enumName c s n)) none (nameOf e.cfg (enumName c s n)) es ∈ o.items ∧
      ∀ p, Usual p → EnumValues p o.macros 0 es (valuesOf lc c a rule n ds k) := by
  obtain ⟨o, h1, h2⟩ := C67_value_partial h hgen hr.weaken hmap'
  obtain ⟨o', es, h3, h4, h5⟩ := C66_enum_partial h hr hS hN hI hexp hty hmap hd
  rw [h1] at h3
  cases h3
  exact ⟨o, es, h1, h4, fun p hp => h5 p _ hp (h2 p hp)⟩

/-- **C67.** The same for an enum with a given size. -/
theorem C67_sized_partial (h : Stages pc lc fuel fuel' i c order l l₁ b) (hgen : c.export_.shouldGenerate .constants = true)
    {s : SynEnum} {cs : List Cfg} {n : Str} (hr : ReadWhere R on D e b tx rust cs)
    (hmap' : ∀ k cs, SrcSpec.Given pc i (.const k) cs → ∀ x ∈ cs, CfgSpec.Mapped e.cfg.defines x)
    (hS : Sole pc lc i c (.enum s) cs n) (hN : Needed pc lc i c n) {r : Repr} {a : Annotations}
    {arm rule : RenameRule} (hI : EnumIs lc c s r a arm rule) (hexp : a.shouldExport = true) {ty : IntKind × Bool} (hty : r.ty = some ty)
    {size : Str} (hsz : (ty, size) ∈ sizeTexts e.cfg.usizeIsSizeT)
    (hmap : ∀ v ∈ s.variants, ∀ x ∈ conds v.attrs, CfgSpec.Mapped e.cfg.defines x) {ds : List (Str × Int)} {k : Int}
    (hd : Discriminants (ConstVal pc i c.export_.exclude rust) (reprLimit r.ty) rust 0 s.variants ds k) :
    ∃ o es, readHeader R on tx = some o ∧
      .enumeration (attrToks [a.deprecatedNote e.cfg .enum]) (some (enumName c s n))
        (if typedEnum e.cfg on then some (.base false none size []) else none) none es ∈ o.items ∧
      ∀ p, Usual p → EnumValues p o.macros 0 es (valuesOf lc c a rule n ds k) := by
  obtain ⟨o, h1, h2⟩ := C67_value_partial h hgen hr.weaken hmap'
  obtain ⟨o', es, h3, h4, h5, _⟩ := C66_sized_partial h hr hS hN hI hexp hty hsz hmap hd
  rw [h1] at h3
  cases h3
  exact ⟨o, es, h1, h4, fun p hp => h5 p _ hp (h2 p hp)⟩

end

end Cbindgen
