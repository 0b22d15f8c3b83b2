import Verif.Props.SourceConsts
import Verif.Props.SourceCxxEnums

/-!
# C79: the constants of the sources in a C++ header
-/

namespace Cbindgen
open CSpec HeadSpec LexSpec
open SrcSpec hiding Reaches Given Plain Declares

/-- The integer types of Rust in C, with all their numbers. -/
theorem int_ok {n : Str} {lo hi : Int} (h : (n, lo, hi) ∈ intRanges) : ∃ q : Prim, SynTy.load (.path n .none) = .ok (some (.prim q)) ∧
    ∀ d : DeclConfig, ∃ w, (∀ b, meaning d b (.prim q) = .base b none w []) ∧
      ∀ p : PrimSpec.Platform, Usual p → ∃ bits sg, PrimSpec.cScalar p w = some (.int bits sg) ∧
        ∀ v, lo ≤ v → v < hi → HasValue (bits, sg) v := by
  have hbig : ∀ (bits : Nat), 32 ≤ bits → ∀ v : Int, 0 ≤ v → v < 2 ^ 32 → HasValue (bits, false) v := by
    intro bits hb v h1 h2
    have : (2 : Nat) ^ 32 ≤ 2 ^ bits := pow_le_of_le hb
    have h3 : (2 : Int) ^ 32 ≤ 2 ^ bits := by exact_mod_cast this
    refine ⟨h1, ?_⟩
    show v < 2 ^ bits
    omega
  have hbig' : ∀ (bits : Nat), 32 ≤ bits → ∀ v : Int, -2 ^ 31 ≤ v → v < 2 ^ 31 → HasValue (bits, true) v := by
    intro bits hb v h1 h2
    have : (2 : Nat) ^ 31 ≤ 2 ^ (bits - 1) := pow_le_of_le (by omega)
    have h3 : (2 : Int) ^ 31 ≤ 2 ^ (bits - 1) := by exact_mod_cast this
    show -2 ^ (bits - 1) ≤ v ∧ v < 2 ^ (bits - 1)
    omega
  simp only [intRanges, List.mem_cons, Prod.mk.injEq, List.not_mem_nil, or_false] at h
  rcases h with ⟨rfl, rfl, rfl⟩ | ⟨rfl, rfl, rfl⟩ | ⟨rfl, rfl, rfl⟩ | ⟨rfl, rfl, rfl⟩ | ⟨rfl, rfl, rfl⟩ | ⟨rfl, rfl, rfl⟩ |
    ⟨rfl, rfl, rfl⟩ | ⟨rfl, rfl, rfl⟩ | ⟨rfl, rfl, rfl⟩ | ⟨rfl, rfl, rfl⟩
  · exact ⟨_, rfl, fun d => ⟨c!"uint8_t", fun _ => rfl, fun p hp => ⟨8, false, rfl, fun v h1 h2 => ⟨h1, h2⟩⟩⟩⟩
  · exact ⟨_, rfl, fun d => ⟨c!"uint16_t", fun _ => rfl, fun p hp => ⟨16, false, rfl, fun v h1 h2 => ⟨h1, h2⟩⟩⟩⟩
  · exact ⟨_, rfl, fun d => ⟨c!"uint32_t", fun _ => rfl, fun p hp => ⟨32, false, rfl, fun v h1 h2 => ⟨h1, h2⟩⟩⟩⟩
  · exact ⟨_, rfl, fun d => ⟨c!"uint64_t", fun _ => rfl, fun p hp => ⟨64, false, rfl, fun v h1 h2 => ⟨h1, h2⟩⟩⟩⟩
  · refine ⟨_, rfl, fun d => ?_⟩
    obtain ⟨_, u, _, _, _⟩ := d
    cases u
    · exact ⟨c!"uintptr_t", fun _ => rfl, fun p hp => ⟨p.ptr, false, rfl, hbig _ hp.ptr⟩⟩
    · exact ⟨c!"size_t", fun _ => rfl, fun p hp => ⟨p.size, false, rfl, hbig _ hp.size⟩⟩
  · exact ⟨_, rfl, fun d => ⟨c!"int8_t", fun _ => rfl, fun p hp => ⟨8, true, rfl, fun v h1 h2 => ⟨h1, h2⟩⟩⟩⟩
  · exact ⟨_, rfl, fun d => ⟨c!"int16_t", fun _ => rfl, fun p hp => ⟨16, true, rfl, fun v h1 h2 => ⟨h1, h2⟩⟩⟩⟩
  · exact ⟨_, rfl, fun d => ⟨c!"int32_t", fun _ => rfl, fun p hp => ⟨32, true, rfl, fun v h1 h2 => ⟨h1, h2⟩⟩⟩⟩
  · exact ⟨_, rfl, fun d => ⟨c!"int64_t", fun _ => rfl, fun p hp => ⟨64, true, rfl, fun v h1 h2 => ⟨h1, h2⟩⟩⟩⟩
  · refine ⟨_, rfl, fun d => ?_⟩
    obtain ⟨_, u, _, _, _⟩ := d
    cases u
    · exact ⟨c!"intptr_t", fun _ => rfl, fun p hp => ⟨p.ptr, true, rfl, hbig' _ hp.ptr⟩⟩
    · exact ⟨c!"ptrdiff_t", fun _ => rfl, fun p hp => ⟨p.ptrdiff, true, rfl, hbig' _ hp.ptrdiff⟩⟩

theorem const_load_ty {ord : List LitField → List LitField} {path : Str} {m : Option Cfg} {ty : SynTy} {e : SynExpr} {as : List SAttr}
    {x : ConstItem} (h : loadConstant ord path m ty e as none = .ok x) {t : Ty} (ht : ty.load = .ok (some t)) : x.ty = t := by
  simp only [loadConstant, bind, Except.bind, ht] at h
  split at h
  · cases h
  split at h
  · cases h
  split at h
  · cases h
  cases h
  rfl

section
variable {R : Dialect} {on : Str → Bool} {e : Env} {b : Bindings}

theorem macros_spaces (ns : List Str) (o : Out) : (spacesOut ns o).macros = o.macros := by
  induction ns with
  | nil => rfl
  | cons n ns ih => exact ih

theorem cxx_macro (hg : ∀ g, e.cfg.guard = some g → on g = false) {k : ConstItem} (hk : k ∈ b.constants) {d : Str × List Lx}
    (hd : d ∈ (constOut e on none k).macros) : d ∈ (cxxHeaderOut R e on b).macros := by
  simp only [cxxHeaderOut, macros_append, macros_when, cxxBindingsOut, macros_spaces, constantsOut, macros_outs, cxx_first hg, if_true,
    List.mem_append, List.mem_flatMap, List.mem_map, List.mem_filter]
  refine Or.inl (Or.inr (Or.inr ?_))
  cases hp : k.onlyPrimitive with
  | true => exact Or.inl (Or.inl (Or.inl ⟨_, ⟨k, ⟨hk, by rw [hp]; rfl⟩, rfl⟩, hd⟩))
  | false => exact Or.inl (Or.inr ⟨_, ⟨k, ⟨hk, by rw [hp]; rfl⟩, rfl⟩, hd⟩)

theorem cxx_constant (hg : ∀ g, e.cfg.guard = some g → on g = false) {k : ConstItem} (hk : k ∈ b.constants) {d : CItem}
    (hd : d ∈ (constOut e on none k).items) :
    Declares (cxxHeaderOut R e on b).items (e.cfg.namespace_.toList ++ e.cfg.namespaces.getD []) false d := by
  refine cxx_declares hg (Declares.spaces (o := _ ++ _) _ (.here ?_))
  simp only [items_app, List.mem_append]
  cases hp : k.onlyPrimitive with
  | true => exact .inl (.inl (.inl (mem_outs (List.mem_map.2 ⟨k, List.mem_filter.2 ⟨hk, by rw [hp]; rfl⟩, rfl⟩) hd)))
  | false => exact .inl (.inr (mem_outs (List.mem_map.2 ⟨k, List.mem_filter.2 ⟨hk, by rw [hp]; rfl⟩, rfl⟩) hd))

end

/-- The objects that a header declares in the namespaces `ns`. -/
def constantIn (ds : List CItem) (ns : List Str) (ws : List Str) (n t : Str) (ts : List Lx) : Prop :=
  Declares ds ns false (.constant ws n (.base true none t []) ts)

/-- What a constant object stands for. -/
def standsFor : CItem → List (Str × List Lx)
  | .constant ws n (.base true none t []) ts =>
    if ∀ w ∈ ws, w ∈ constantWords then
      if t = c!"bool" then (if ts = [.word c!"false"] ∨ ts = [.word c!"true"] then [(n, ts)] else [])
      else [(n, [.punct '(', .word t, .punct ')'] ++ ts)]
    else []
  | _ => []

theorem stands {mac : Str × List Lx → Prop} {ds : List CItem} {ns : List Str} {d : CItem} (hd : Declares ds ns false d)
    {m : Str × List Lx} (hm : m ∈ standsFor d) : Standing mac (constantIn ds ns) m := by
  unfold standsFor at hm
  split at hm
  · split at hm
    · rename_i hw
      split at hm
      · rename_i ht
        subst ht
        split at hm
        · rename_i hts
          rw [List.mem_singleton.1 hm]
          rcases hts with rfl | rfl
          · exact .bool hd hw (.inl rfl)
          · exact .bool hd hw (.inr rfl)
        · cases hm
      · rw [List.mem_singleton.1 hm]
        exact .object hd hw
    · cases hm
  · cases hm

theorem words_fine (c : OutConfig) (k : ConstItem) : ∀ w ∈ wordsOf c none k, w ∈ constantWords := by
  unfold wordsOf
  intro w hw
  rcases List.mem_append.1 hw with hw | hw
  · split at hw
    · rw [List.mem_singleton.1 hw]; decide
    · cases hw
  · split at hw
    · rw [List.mem_singleton.1 hw, show inBody c none = false from rfl]; decide
    · cases hw

section
variable {pc : ParseConfig} {lc : LoadConfig} {fuel fuel' : Nat} {i : Inputs} {c : LibConfig}
  {order : List (Str × Annotations) → List (Str × Annotations)} {l : Library} {b : Bindings}
  {R : Dialect} {on : Str → Bool} {D : List Str} {e : Env} {tx : Str} {rust : CfgSpec.Opt → Bool}

/-- **C79.** A constant of the sources is a macro of a C++ header or a constant object in its namespaces, and a C++ compiler
computes its value in Rust from it, where all the `cfg`s around the constant hold. -/
theorem C79_value_partial (h : StagesX pc lc fuel fuel' i c order l b) (hgen : c.export_.shouldGenerate .constants = true)
    (hr : CxxReadWhere R on D e b tx rust []) (hmap : ∀ k cs, SrcSpec.Given pc i (.const k) cs → ∀ x ∈ cs, CfgSpec.Mapped e.cfg.defines x) :
    ∃ o M, readHeader R on tx = some o ∧
      (∀ m ∈ M, Standing (· ∈ o.macros) (constantIn o.items (e.cfg.namespace_.toList ++ e.cfg.namespaces.getD [])) m) ∧
      ∀ p, Usual p → Macros (CxxConstVal pc i c.export_.exclude rust) c.ren p M := by
  refine ⟨_, b.constants.flatMap (fun k => (constOut e on none k).items.flatMap standsFor) ++ (cxxHeaderOut R e on b).macros,
    C74_header_reads_back_partial hr.good hr.text, fun m hm => ?_, fun p hp lim n v hv => ?_⟩
  · rcases List.mem_append.1 hm with hm | hm
    · obtain ⟨k, hk, hm⟩ := List.mem_flatMap.1 hm
      obtain ⟨d, hd, hm⟩ := List.mem_flatMap.1 hm
      exact stands (cxx_constant hr.first hk hd) hm
    · exact .macro hm
  generalize hM : b.constants.flatMap (fun k => (constOut e on none k).items.flatMap standsFor) ++ (cxxHeaderOut R e on b).macros = M
  refine hv (fun lim n v => ∃ ts ty, (c.ren n, ts) ∈ M ∧ CValue p M ts ty v) ?_
  intro k cs n lim v hS hc hn hl ⟨a, ha⟩ hv
  obtain ⟨lit, h1, h2⟩ := value_ok (ord := lc.fieldOrder) hv
  obtain ⟨q, hty⟩ : ∃ q, k.ty.load = .ok (some (.prim q)) := by
    revert hl
    generalize k.ty = kty
    generalize k.expr = kex
    intro hl
    cases hl with
    | int _ h _ _ =>
      obtain ⟨q, h, _⟩ := int_ok h
      exact ⟨q, h⟩
    | bool => exact ⟨_, rfl⟩
  obtain ⟨x, m, hx, hg, hload⟩ := consts_complete h.built h.plain h.onePath hS (const_load_ok hty h1.load ha)
  obtain ⟨k1, k2, k3, k4, k5, w, k6, k7⟩ := const_load_keeps hload
  have hxty := const_load_ty hload hty
  have hval : x.value = lit := by
    rw [k7 rfl]
    rw [h1.load] at k6
    exact (Except.ok.inj k6).symm
  have hb := (constants_final h.generated (consts_wf h.built) hgen _).2 ⟨x, hx, by rw [k1]; exact hn, rfl⟩
  have hsh : shown e.cfg on x.cfg = true := by
    rw [k2]
    have := shown_guard hr.same hg (hmap k cs hS.given)
    rw [Taken.guard, show Taken.attrs (.const k) = k.attrs from rfl] at this
    rw [this, List.all_eq_true]
    exact hc
  obtain ⟨t, ht⟩ := h2 p M e c.ren hp (fun _ _ _ h => h)
  have hname : (x.renameFor c).writtenName e.cfg none = some (c.ren n) := by
    unfold ConstItem.writtenName
    simp only [inBody, ConstItem.renameFor, k3]
    simp only [constExportName, Except.ok.injEq] at k5
    rw [← k5]
    rfl
  have hpeel : (x.renameFor c).value.peel e.transparent = some (lit.rename c.ren) := by
    show (x.value.rename c.ren).peel _ = _
    rw [hval]
    exact h1.peel _ _
  have hvalid : (x.renameFor c).value.isValid e = true := by
    show (x.value.rename c.ren).isValid e = true
    rw [hval]
    exact h1.valid _ _
  have hout : constOut e on none (x.renameFor c) = (if isVariable e.cfg (x.renameFor c) then
      ⟨[.constant (wordsOf e.cfg none (x.renameFor c)) (c.ren n) (constTy e.cfg (x.renameFor c)).forgetFnPtr (litToks e (lit.rename c.ren))], [], []⟩
      else ⟨[], [(c.ren n, litToks e (lit.rename c.ren))], []⟩) := by
    unfold constOut
    rw [hvalid, hname, hpeel]
    simp only [Option.any_none, Bool.not_true, Bool.or_self, Bool.false_eq_true, if_false]
    rw [show (x.renameFor c).cfg = x.cfg from rfl, hsh]
    rfl
  cases hvar : isVariable e.cfg (x.renameFor c) with
  | false =>
    refine ⟨litToks e (lit.rename c.ren), t, ?_, ht⟩
    rw [← hM, List.mem_append]
    right
    refine cxx_macro hr.first hb ?_
    rw [hout, hvar]
    exact List.mem_singleton.2 rfl
  | true =>
    have hmem : ∀ m, m ∈ standsFor (.constant (wordsOf e.cfg none (x.renameFor c)) (c.ren n)
        (constTy e.cfg (x.renameFor c)).forgetFnPtr (litToks e (lit.rename c.ren))) → m ∈ M := by
      intro m hm
      rw [← hM, List.mem_append]
      left
      refine List.mem_flatMap.2 ⟨_, hb, List.mem_flatMap.2 ⟨_, ?_, hm⟩⟩
      rw [hout, hvar]
      exact List.mem_singleton.2 rfl
    have hct : constTy e.cfg (x.renameFor c) = meaning e.cfg.toDeclConfig true (.prim q) := by
      unfold constTy
      rw [show (x.renameFor c).ty = x.ty.rename c.ren [] from rfl, hxty]
      rfl
    generalize hws : wordsOf e.cfg none (x.renameFor c) = ws at hmem
    have hw : ∀ w ∈ ws, w ∈ constantWords := by
      rw [← hws]
      exact words_fine _ _
    revert hty hl h1 hct
    generalize k.ty = kty
    generalize k.expr = kex
    intro hl h1 hty hct
    cases hl with
    | int hlim h lo hi =>
      obtain ⟨q', hq, hq'⟩ := int_ok h
      rw [hty] at hq
      cases hq
      obtain ⟨w, hm, hsc⟩ := hq' e.cfg.toDeclConfig
      obtain ⟨bits, sg, h4, h5⟩ := hsc p hp
      refine ⟨_, _, hmem _ ?_, .cast ht h4 (h5 v lo hi)⟩
      rw [hct, hm]
      have hnb : w ≠ c!"bool" := by
        rintro rfl
        cases h4
      show _ ∈ standsFor (.constant ws _ (.base true none w []) _)
      rw [standsFor, if_pos hw, if_neg hnb]
      exact List.mem_singleton.2 rfl
    | @bool bb =>
      cases hty
      refine ⟨_, t, hmem _ ?_, ht⟩
      have hlit : lit = .expr (if bb then c!"true" else c!"false") := by
        have := h1.load
        cases bb <;> (cases this; rfl)
      have : litToks e (lit.rename c.ren) = [.word (if bb then c!"true" else c!"false")] := by
        rw [hlit]
        cases bb <;> rfl
      rw [hct, this]
      show _ ∈ standsFor (.constant ws _ (.base true none c!"bool" []) _)
      rw [standsFor, if_pos hw, if_pos rfl, if_pos]
      · exact List.mem_singleton.2 rfl
      · cases bb
        · exact .inl rfl
        · exact .inr rfl

theorem CxxReadWhere.weaken {cs : List Cfg} (h : CxxReadWhere R on D e b tx rust cs) : CxxReadWhere R on D e b tx rust [] :=
  ⟨h.good, h.text, h.first, h.same, nofun, nofun⟩

/-- **C79.** The discriminants of an enum may refer to constants of the sources: they have the same values in C++, where the
constants are macros or constant objects of the header. -/
theorem C79_enum_partial (h : StagesX pc lc fuel fuel' i c order l b) (hgen : c.export_.shouldGenerate .constants = true)
    (hmap' : ∀ k cs, SrcSpec.Given pc i (.const k) cs → ∀ x ∈ cs, CfgSpec.Mapped e.cfg.defines x)
    {s : SynEnum} {cs : List Cfg} {n : Str}
    (hr : CxxReadWhere R on D e b tx rust cs) (hS : CxxSole pc lc i c (.enum s) cs n) (hN : CxxNeeded pc lc i c n) {r : Repr} {a : Annotations}
    {arm rule : RenameRule} (hI : EnumIs lc c s r a arm rule) (hexp : a.shouldExport = true) (hdata : withData s = false)
    (hmap : ∀ v ∈ s.variants, ∀ x ∈ conds v.attrs, CfgSpec.Mapped e.cfg.defines x)
    {ty : Option CTy} (hty : SizeIs e.cfg.usizeIsSizeT r.ty ty) {ds : List (Str × Int)} {k : Int}
    (hd : Discriminants (CxxConstVal pc i c.export_.exclude rust) (reprLimit r.ty) rust 0 s.variants ds k) :
    ∃ o es M, readHeader R on tx = some o ∧
      Declares o.items (e.cfg.namespace_.toList ++ e.cfg.namespaces.getD []) false (cxxEnumOf e.cfg a (c.ren n) ty es) ∧
      (∀ m ∈ M, Standing (· ∈ o.macros) (constantIn o.items (e.cfg.namespace_.toList ++ e.cfg.namespaces.getD [])) m) ∧
      ∀ p, Usual p → Macros (CxxConstVal pc i c.export_.exclude rust) c.ren p M ∧ EnumValues p M 0 es (valuesOf lc c a rule n ds k) := by
  obtain ⟨o, M, h1, h2, h3⟩ := C79_value_partial h hgen hr.weaken hmap'
  obtain ⟨o', es, h4, h5, h6⟩ := C77_enum_partial h hr hS hN hI hexp hdata hmap hty hd
  rw [h1] at h4
  cases h4
  exact ⟨o, es, M, h1, h5, h2, fun p hp => ⟨h3 p hp, h6 p M hp (h3 p hp)⟩⟩

/-- **C79.** The same for an enum with data. -/
theorem C79_data_partial (h : StagesX pc lc fuel fuel' i c order l b) (hgen : c.export_.shouldGenerate .constants = true)
    (hmap₀ : ∀ k cs, SrcSpec.Given pc i (.const k) cs → ∀ x ∈ cs, CfgSpec.Mapped e.cfg.defines x)
    {s : SynEnum} {cs : List Cfg} {n : Str}
    (hr : CxxReadWhere R on D e b tx rust cs) (hS : CxxSole pc lc i c (.enum s) cs n) (hN : CxxNeeded pc lc i c n) {r : Repr} {a : Annotations}
    {arm rule : RenameRule} (hI : EnumIs lc c s r a arm rule) (hexp : a.shouldExport = true) (hdata : withData s = true)
    (hmap : ∀ v ∈ s.variants, ∀ x ∈ conds v.attrs, CfgSpec.Mapped e.cfg.defines x)
    (hmap' : ∀ v ∈ s.variants, ∀ f ∈ listOf v.fields, ∀ x ∈ conds f.attrs, CfgSpec.Mapped e.cfg.defines x)
    (hb : NoBodies R on e.cfg n) (hb' : ∀ v ∈ s.variants, NoBodies R on e.cfg (v.ident ++ c!"_Body"))
    {ty : Option CTy} (hty : SizeIs e.cfg.usizeIsSizeT r.ty ty) {ds : List (Str × Int)} {k : Int}
    (hd : Discriminants (CxxConstVal pc i c.export_.exclude rust) (reprLimit r.ty) rust 0 s.variants ds k)
    {bs ms : List CItem} (hms : CxxArms (cxxEnumEnv lc c e.cfg r a arm rule n) rust (cxxBodyOf e.cfg) s.variants bs ms) :
    ∃ o es M, readHeader R on tx = some o ∧
      Declares o.items (e.cfg.namespace_.toList ++ e.cfg.namespaces.getD []) false
        (.record (if r.style = .rust then .union else .struct)
          (attrToks [mustUseText a e.cfg.structure_.mustUse, a.deprecatedNote e.cfg .struct])
          (tagOf e.cfg (c.ren n)) (nameOf e.cfg (c.ren n))
          (cxxEnumOf e.cfg a c!"Tag" ty es :: (bs ++
            if r.style = .rust then .record .struct [] none none [.object false [] c!"tag" (.base false none c!"Tag" []) []] :: ms
            else [.object false [] c!"tag" (.base false none c!"Tag" []) [], .record .union [] none none ms]))) ∧
      (∀ m ∈ M, Standing (· ∈ o.macros) (constantIn o.items (e.cfg.namespace_.toList ++ e.cfg.namespaces.getD [])) m) ∧
      ∀ p, Usual p → Macros (CxxConstVal pc i c.export_.exclude rust) c.ren p M ∧ EnumValues p M 0 es (valuesOf lc c a rule n ds k) := by
  obtain ⟨o, M, h1, h2, h3⟩ := C79_value_partial h hgen hr.weaken hmap₀
  obtain ⟨o', es, h4, h5, h6⟩ := C77_data_partial h hr hS hN hI hexp hdata hmap hmap' hb hb' hty hd hms
  rw [h1] at h4
  cases h4
  exact ⟨o, es, M, h1, h5, h2, fun p hp => ⟨h3 p hp, h6 p M hp (h3 p hp)⟩⟩

end

end Cbindgen
