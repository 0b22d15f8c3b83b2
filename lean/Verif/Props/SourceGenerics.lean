import Verif.Lemmas.SourceGenericFns

/-!
# C71: generic definitions of Rust sources in a C header
-/

namespace Cbindgen
open CSpec HeadSpec ScopeSpec LexSpec MonoSpec
open SrcSpec hiding Reaches Given Plain

/-- `m` is the name of the instance `n<as>` of a definition that is in the tables `l`: the name that `mangle` makes of the
loaded arguments, where `Self` stands for `o`. -/
def SrcSpec.InstanceName (c : LibConfig) (l : Library) (o : Option Str) (n : Str) (as : SynArgs) (m : Str) : Prop :=
  ∃ gs, as.load = .ok gs ∧ gs ≠ [] ∧ m = c.manglePath n (gs.map (GArg.shape o)) ∧ (l.getItems c n).isSome = true

theorem instanceName_ok {c : LibConfig} {l : Library} {o : Option Str} (n : Str) (as : SynArgs) (m : Str)
    (h : InstanceName c l o n as m) : ∃ gs, as.load = .ok gs ∧ gs ≠ [] ∧ fullName c n (gs.map (GArg.shape o)) = some m ∧
      (l.getItems c n).isSome = true := by
  obtain ⟨gs, h1, h2, rfl, h3⟩ := h
  exact ⟨gs, h1, h2, rfl, h3⟩

section
variable {pc : ParseConfig} {lc : LoadConfig} {fuel fuel' : Nat} {i : Inputs} {c : LibConfig}
  {order : List (Str × Annotations) → List (Str × Annotations)} {l l₁ : Library} {b : Bindings}
  {R : Dialect} {on : Str → Bool} {D : List Str} {e : Env} {t : Str} {rust : CfgSpec.Opt → Bool}

/-- **C71 (partial).** A function of the sources whose types use generic definitions, at any depth of pointers, arrays and
function pointers, is declared in the header with the C type of the same function with the names of the instances instead
of the uses, where all the `cfg`s around it hold.  Missing: functions with attributes that change their parameters. -/
theorem C71_function_partial (hb : buildLibrary pc lc fuel i = .ok l) (hfo : Reorders lc.fieldOrder) (hp : InputsPlain i)
    (ho : OnePath pc i) (hc : c.language = .c) (h : l.generate c order fuel' = .ok b)
    (he : (((l.transferAnnotations order).simplify c).sortFunctions c).expand c fuel' = .ok l₁)
    (hgen : c.export_.shouldGenerate .functions = true) (hg : HeaderGood R on D e b) (ht : headerText e b = some t)
    (hguard : ∀ g, e.cfg.guard = some g → on g = false) (hm : CfgSpec.Matches e.cfg.defines rust on)
    {path : Str} {owner : Option Str} {ext : Bool} {sf : SynFn} {cs : List Cfg}
    (hgiven : SrcSpec.Given pc i (.fn path owner ext sf) cs) (hmap : ∀ x ∈ cs, CfgSpec.Mapped e.cfg.defines x)
    (hon : ∀ x ∈ cs, CfgSpec.holds rust x = true) (hex : path ∉ c.export_.exclude)
    {a : Annotations} (ha : Annotations.load sf.attrs = .ok a) (hexp : a.shouldExport = true)
    (harr : a.list c!"ptrs-as-arrays" = none) {rule : RenameRule} (hr : a.ruleOr c.renameArgs = some rule)
    {s' : SynSig} (hs : SigOut (InstanceName c l owner) sf.sig s')
    {T : CTy} (hT : CFn (envOf c e.cfg (tagFor c l₁) rule owner) s' T) :
    ∃ o attrs, readHeader R on t = some o ∧ .object ext attrs path T.forgetFnPtr [] ∈ o.items := by
  have hl : e.cfg.language = .c := hg.options.lang
  obtain ⟨rs, hrs, hmem⟩ := mem_functions hb
  obtain ⟨r, hr1, m, hr2, hr3⟩ := hrs.complete hp ho hgiven
  obtain ⟨g, hgl, hf1, hf2, hf3, hf4, _, hf5⟩ := cfn_ok (envOf_for hl) hT ha path ext m
  obtain ⟨f, hf, hsame⟩ := sigOut_ok instanceName_ok hs hgl hf5.ret hf5.args
  have hfl := (hmem f).2 ⟨r, hr1, path, owner, ext, sf, m, hr2, hf⟩
  obtain ⟨l', hl', hbd⟩ := Library.generate_ok h
  obtain ⟨ms, hms, h1, h2⟩ := functions_prepared_by hc hl' he
  have hwf := build_wf hb
  have hpl := build_plain hfo hb
  obtain ⟨j1, _⟩ := load_cfg hf
  obtain ⟨f', hf'⟩ := h2 f hfl (by rw [j1]; exact hex)
  have hfb : f' ∈ b.functions := by
    unfold Library.collect at hbd
    rw [Option.map_eq_some_iff] at hbd
    obtain ⟨d, _, rfl⟩ := hbd
    dsimp only
    rw [if_pos hgen]
    exact (h1 f').2 ⟨f, hfl, by rw [j1]; exact hex, hf'⟩
  rw [hsame.final hc hwf hpl hms hfl hf5.ret hf5.args] at hf'
  obtain ⟨k1, k2, k3, k4⟩ := final_keeps hf'
  have hty : funcTy e.cfg f' = T := (final_typed hc rfl rfl hf5 (by rw [hf4]; exact hr) (by rw [hf4]; exact harr) rfl hf').2.2.2.2.2
  refine ⟨_, attrToks (funcAttrs e.cfg f') ++ attrToks (funcPost e.cfg f'), C61_header_reads_back hg ht,
    header_func hguard hfb (by rw [k4, hf4]; exact hexp) ?_⟩
  have hsh : shown e.cfg on f'.cfg = true := by
    rw [k3, hf3]
    have := shown_guard hm hr3 hmap
    rw [Taken.guard] at this
    rw [show Taken.attrs (.fn path owner ext sf) = sf.attrs from rfl] at this
    rw [this, List.all_eq_true]
    exact hon
  rw [funcOut, items_when, hsh, hty, k1, k2, hf1, hf2]
  simp [decls]

end

end Cbindgen
