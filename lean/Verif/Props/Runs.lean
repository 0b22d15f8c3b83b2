import Verif.Props.Main
import Verif.Props.OnlyConstsCxx
import Verif.Props.OnlyEnumerators
import Verif.Props.OnlyTypes
import Verif.Props.SourceConsts
import Verif.Props.SourceCxxConsts

/-!
# C80: what a run of the program writes for the sources

`CWritten` and `CxxWritten` say what a header has to declare for given settings and sources; they are read off the file that a
run leaves behind.
-/

namespace Cbindgen
open CSpec HeadSpec LexSpec MainSpec ScopeSpec
open SrcSpec hiding Reaches Given Plain Declares

/-! ## What is claimed -/

/-- The namespaces of the settings. -/
def Settings.spaces (s : Settings) : List Str := s.out.namespace_.toList ++ s.out.namespaces.getD []

/-- All the `cfg`s have a macro and hold. -/
def Holds (s : Settings) (rust : CfgSpec.Opt → Bool) (cs : List Cfg) : Prop :=
  (∀ x ∈ cs, CfgSpec.Mapped s.out.defines x) ∧ ∀ x ∈ cs, CfgSpec.holds rust x = true

/-- The constants of the sources are under `cfg`s that have macros. -/
def ConstsMapped (s : Settings) (i : Inputs) : Prop :=
  ∀ k cs, SrcSpec.Given s.parse i (.const k) cs → ∀ x ∈ cs, CfgSpec.Mapped s.out.defines x

/-- The blocks of text in the settings define types only. -/
def OnlyTypes (s : Settings) (R : Dialect) (on : Str → Bool) : Prop :=
  ∀ k ∈ [s.out.header, s.out.autogenWarning, s.out.afterIncludes, s.out.trailer], ∀ d ∈ (blockOut R on k).items, IsType d

/-- A macro that a text of the settings defines. -/
def InTexts (s : Settings) (R : Dialect) (on : Str → Bool) (d : Str × List Lx) : Prop :=
  ∃ k ∈ [s.out.header, s.out.autogenWarning, s.out.afterIncludes, s.out.trailer], ∃ tx o, k = some tx ∧
    readHeader R on tx = some o ∧ d ∈ o.macros

/-- What a C++ header has to declare. -/
structure CxxWritten (s : Settings) (i : Inputs) (R : Dialect) (on : Str → Bool) (rust : CfgSpec.Opt → Bool) (o : Out) : Prop where
  /-- the functions of the sources -/
  functions : s.out.export_.shouldGenerate .functions = true → ∀ path owner ext sf cs a rule T,
    SrcSpec.Given s.parse i (.fn path owner ext sf) cs → Holds s rust cs → path ∉ s.out.export_.exclude →
    Annotations.load sf.attrs = .ok a → a.shouldExport = true → a.list c!"ptrs-as-arrays" = none →
    a.ruleOr s.out.function.renameArgs = some rule → CxxFn (cxxEnv s.lib s.out rule owner) sf.sig T →
    ∃ attrs, Declares o.items s.spaces true (.object ext attrs path T.forgetFnPtr [])
  /-- its statics -/
  statics : s.out.export_.shouldGenerate .globals = true → ∀ path st cs a rule u,
    SoleStatic s.parse i path st cs → Holds s rust cs → path ∉ s.out.export_.exclude →
    Annotations.load st.attrs = .ok a → a.shouldExport = true → CxxStatic (cxxEnv s.lib s.out rule none) st.mutable st.ty u →
    Declares o.items s.spaces true (.object true [] path u.forgetFnPtr [])
  /-- the structs that are needed -/
  structs : ∀ t st cs n al a rule ps ms, CxxSole s.parse s.load i s.lib t cs n → CxxNeeded s.parse s.load i s.lib n →
    structOf t = some st → Holds s rust cs → NoBodies R on s.out n → LayoutIs s.load st.attrs .c al →
    Annotations.load st.attrs = .ok a → a.shouldExport = true → a.list c!"field-names" = none →
    a.ruleOr s.renameFields = some rule → (∀ f ∈ listOf st.fields, ∀ x ∈ conds f.attrs, CfgSpec.Mapped s.out.defines x) →
    CxxGenerics (cxxEnv s.lib s.out rule none) st.generics ps →
    CxxMembers (cxxEnvIn (genericNames st.generics) s.lib s.out rule (some (unraw st.ident))) (memberName s.out.caseFns rule) rust
      (countOf st.fields) (listOf st.fields) ms →
    Declares o.items s.spaces false
      (withParams ps (.record .struct
        (attrToks [alignText s.out al, mustUseText a s.out.structure_.mustUse, a.deprecatedNote s.out .struct])
        (tagOf s.out (s.lib.ren n)) (nameOf s.out (s.lib.ren n)) ms))
  /-- the unions -/
  unions : ∀ st cs n al a rule ps ms, CxxSole s.parse s.load i s.lib (.union st) cs n → CxxNeeded s.parse s.load i s.lib n →
    Holds s rust cs → NoBodies R on s.out n → LayoutIs s.load st.attrs .c al →
    Annotations.load st.attrs = .ok a → a.shouldExport = true → a.list c!"field-names" = none →
    a.ruleOr s.renameFields = some rule → (∀ f ∈ st.fields, ∀ x ∈ conds f.attrs, CfgSpec.Mapped s.out.defines x) →
    CxxGenerics (cxxEnv s.lib s.out rule none) st.generics ps →
    CxxMembers (cxxEnvIn (genericNames st.generics) s.lib s.out rule (some (unraw st.ident))) (armName s.out.caseFns rule) rust
      none st.fields ms →
    Declares o.items s.spaces false
      (withParams ps (.record .union (attrToks [alignText s.out al]) (tagOf s.out (s.lib.ren n)) (nameOf s.out (s.lib.ren n)) ms))
  /-- the aliases -/
  aliases : ∀ st cs n rule ps u, CxxSole s.parse s.load i s.lib (.alias st) cs n → CxxNeeded s.parse s.load i s.lib n →
    Holds s rust cs → CxxGenerics (cxxEnv s.lib s.out rule none) st.generics ps →
    CxxType (cxxEnvIn (genericNames st.generics) s.lib s.out rule none) false st.ty u →
    Declares o.items s.spaces false (withParams ps (.alias (s.lib.ren n) u.forgetFnPtr))
  /-- the structs that are transparent -/
  transparents : ∀ t st cs n al a rule ps ms u, CxxSole s.parse s.load i s.lib t cs n → CxxNeeded s.parse s.load i s.lib n →
    structOf t = some st → Holds s rust cs → LayoutIs s.load st.attrs .transparent al →
    Annotations.load st.attrs = .ok a → a.shouldExport = true → CxxGenerics (cxxEnv s.lib s.out rule none) st.generics ps →
    CxxMembers (cxxEnvIn (genericNames st.generics) s.lib s.out rule (some (unraw st.ident))) (memberName s.out.caseFns rule) rust
      (countOf st.fields) (listOf st.fields) ms →
    CxxFirstType (cxxEnvIn (genericNames st.generics) s.lib s.out rule (some (unraw st.ident))) (listOf st.fields) u →
    Declares o.items s.spaces false (withParams ps (.alias (s.lib.ren n) u.forgetFnPtr))
  /-- the constants and enums with their values -/
  values : s.out.export_.shouldGenerate .constants = true → ConstsMapped s i →
    ∃ M, (∀ m ∈ M, Standing (· ∈ o.macros) (constantIn o.items s.spaces) m) ∧
      (∀ p, Usual p → Macros (CxxConstVal s.parse i s.out.export_.exclude rust) s.lib.ren p M) ∧
      (∀ en cs n r a arm rule ty ds k, CxxSole s.parse s.load i s.lib (.enum en) cs n → CxxNeeded s.parse s.load i s.lib n →
        Holds s rust cs → EnumIs s.load s.lib en r a arm rule → a.shouldExport = true → withData en = false →
        (∀ v ∈ en.variants, ∀ x ∈ conds v.attrs, CfgSpec.Mapped s.out.defines x) → SizeIs s.out.usizeIsSizeT r.ty ty →
        Discriminants (CxxConstVal s.parse i s.out.export_.exclude rust) (reprLimit r.ty) rust 0 en.variants ds k →
        ∃ es, Declares o.items s.spaces false (cxxEnumOf s.out a (s.lib.ren n) ty es) ∧
          ∀ p, Usual p → EnumValues p M 0 es (valuesOf s.load s.lib a rule n ds k)) ∧
      ∀ en cs n r a arm rule ty ds k bs ms, CxxSole s.parse s.load i s.lib (.enum en) cs n → CxxNeeded s.parse s.load i s.lib n →
        Holds s rust cs → EnumIs s.load s.lib en r a arm rule → a.shouldExport = true → withData en = true →
        (∀ v ∈ en.variants, ∀ x ∈ conds v.attrs, CfgSpec.Mapped s.out.defines x) →
        (∀ v ∈ en.variants, ∀ f ∈ listOf v.fields, ∀ x ∈ conds f.attrs, CfgSpec.Mapped s.out.defines x) →
        NoBodies R on s.out n → (∀ v ∈ en.variants, NoBodies R on s.out (v.ident ++ c!"_Body")) → SizeIs s.out.usizeIsSizeT r.ty ty →
        Discriminants (CxxConstVal s.parse i s.out.export_.exclude rust) (reprLimit r.ty) rust 0 en.variants ds k →
        CxxArms (cxxEnumEnv s.load s.lib s.out r a arm rule n) rust (cxxBodyOf s.out) en.variants bs ms →
        ∃ es, Declares o.items s.spaces false
            (.record (if r.style = .rust then .union else .struct)
              (attrToks [mustUseText a s.out.structure_.mustUse, a.deprecatedNote s.out .struct])
              (tagOf s.out (s.lib.ren n)) (nameOf s.out (s.lib.ren n))
              (cxxEnumOf s.out a c!"Tag" ty es :: (bs ++
                if r.style = .rust then .record .struct [] none none [.object false [] c!"tag" (.base false none c!"Tag" []) []] :: ms
                else [.object false [] c!"tag" (.base false none c!"Tag" []) [], .record .union [] none none ms]))) ∧
          ∀ p, Usual p → EnumValues p M 0 es (valuesOf s.load s.lib a rule n ds k)
  /-- and no other functions -/
  onlyFunctions : s.out.export_.shouldGenerate .functions = true → OnlyTypes s R on →
    ∀ ns link ext attrs bits path ps x ret, Declares o.items ns link (.object ext attrs path (.fn ps x ret) bits) →
    link = true ∧ ns = s.spaces ∧ bits = [] ∧ ∃ owner sf cs a, SrcSpec.Given s.parse i (.fn path owner ext sf) cs ∧
      path ∉ s.out.export_.exclude ∧ Annotations.load sf.attrs = .ok a ∧ a.shouldExport = true ∧
      ((∀ x ∈ cs, CfgSpec.Mapped s.out.defines x) → ∀ x ∈ cs, CfgSpec.holds rust x = true) ∧
      ∀ rule T, a.list c!"ptrs-as-arrays" = none → a.ruleOr s.out.function.renameArgs = some rule →
        CxxFn (cxxEnv s.lib s.out rule owner) sf.sig T → T.forgetFnPtr = .fn ps x ret
  /-- nor other statics -/
  onlyStatics : s.out.export_.shouldGenerate .globals = true → OnlyTypes s R on →
    ∀ ns link ext attrs bits path ty, Declares o.items ns link (.object ext attrs path ty bits) → (∀ ps x r, ty ≠ .fn ps x r) →
    link = true ∧ ns = s.spaces ∧ ext = true ∧ attrs = [] ∧ bits = [] ∧ ∃ st cs a, SrcSpec.Given s.parse i (.static path st) cs ∧
      path ∉ s.out.export_.exclude ∧ Annotations.load st.attrs = .ok a ∧ a.shouldExport = true ∧
      ((∀ x ∈ cs, CfgSpec.Mapped s.out.defines x) → ∀ x ∈ cs, CfgSpec.holds rust x = true) ∧
      ∀ rule u, CxxStatic (cxxEnv s.lib s.out rule none) st.mutable st.ty u → u.forgetFnPtr = ty
  /-- nor other types -/
  onlyDefinitions : NoTypesIn R on s.out → ∀ ns link d n, Declares o.items ns link d → n ∈ d.defines →
    link = false ∧ ns = s.spaces ∧ CxxSource s.parse i s.lib s.out.defines rust n
  /-- nor other macros -/
  onlyMacros : ∀ m ∈ o.macros, InTexts s R on m ∨ (∃ g, s.out.guard = some g ∧ m = (g, [])) ∨
    MacroSource s.parse i s.lib s.out.caseFns s.out.defines rust m.1
  /-- nor other constant objects -/
  onlyConstants : ∀ ns link ws n ty ts, Declares o.items ns link (.constant ws n ty ts) →
    (∀ k ∈ [s.out.header, s.out.autogenWarning, s.out.afterIncludes, s.out.trailer],
      ¬ Declares (blockOut R on k).items ns link (.constant ws n ty ts)) →
    link = false ∧ ns = s.spaces ∧ MacroSource s.parse i s.lib s.out.caseFns s.out.defines rust n
  /-- nor other enumerators -/
  onlyEnumerators : NoTypesIn R on s.out → ∀ ns link d es, Declares o.items ns link d → d.defines ≠ [] →
    d.enumerators = some es → EnumSource s.parse s.load i s.lib s.out.defines rust es
  /-- also within types -/
  onlyTags : NoTypesIn R on s.out → NoEnumsInside R on s.out → ∀ ns link d, ∀ m ∈ d.members, ∀ es, Declares o.items ns link d →
    d.defines ≠ [] → m.enumerators = some es → EnumSource s.parse s.load i s.lib s.out.defines rust es

/-- What a C header has to declare.  `tag` gives the keyword before a name, if there is one. -/
structure CWritten (s : Settings) (i : Inputs) (tag : Str → Option DeclKind) (R : Dialect) (on : Str → Bool)
    (rust : CfgSpec.Opt → Bool) (o : Out) : Prop where
  /-- the functions of the sources -/
  functions : s.out.export_.shouldGenerate .functions = true → ∀ path owner ext sf cs a rule T,
    SrcSpec.Given s.parse i (.fn path owner ext sf) cs → Holds s rust cs → path ∉ s.out.export_.exclude →
    Annotations.load sf.attrs = .ok a → a.shouldExport = true → a.list c!"ptrs-as-arrays" = none →
    a.ruleOr s.out.function.renameArgs = some rule → CFn (envOf s.lib s.out tag rule owner) sf.sig T →
    ∃ attrs, .object ext attrs path T.forgetFnPtr [] ∈ o.items
  /-- its statics -/
  statics : s.out.export_.shouldGenerate .globals = true → ∀ path st cs a rule u,
    SoleStatic s.parse i path st cs → Holds s rust cs → path ∉ s.out.export_.exclude →
    Annotations.load st.attrs = .ok a → a.shouldExport = true → CStatic (envOf s.lib s.out tag rule none) st.mutable st.ty u →
    .object true [] path u.forgetFnPtr [] ∈ o.items
  /-- the structs that are needed -/
  structs : ∀ t st cs n al a rule ms, Sole s.parse s.load i s.lib t cs n → Needed s.parse s.load i s.lib n →
    structOf t = some st → Holds s rust cs → NoBodies R on s.out n → LayoutIs s.load st.attrs .c al →
    Annotations.load st.attrs = .ok a → a.shouldExport = true → a.list c!"field-names" = none →
    a.ruleOr s.renameFields = some rule → (∀ f ∈ listOf st.fields, ∀ x ∈ conds f.attrs, CfgSpec.Mapped s.out.defines x) →
    Members (envOf s.lib s.out tag rule (some (unraw st.ident))) (memberName s.out.caseFns rule) rust
      (countOf st.fields) (listOf st.fields) ms →
    .record .struct (attrToks [alignText s.out al, mustUseText a s.out.structure_.mustUse, a.deprecatedNote s.out .struct])
      (tagOf s.out (s.lib.ren n)) (nameOf s.out (s.lib.ren n)) ms ∈ o.items
  /-- the unions -/
  unions : ∀ st cs n al a rule ms, Sole s.parse s.load i s.lib (.union st) cs n → Needed s.parse s.load i s.lib n →
    Holds s rust cs → NoBodies R on s.out n → LayoutIs s.load st.attrs .c al →
    Annotations.load st.attrs = .ok a → a.shouldExport = true → a.list c!"field-names" = none →
    a.ruleOr s.renameFields = some rule → (∀ f ∈ st.fields, ∀ x ∈ conds f.attrs, CfgSpec.Mapped s.out.defines x) →
    Members (envOf s.lib s.out tag rule (some (unraw st.ident))) (armName s.out.caseFns rule) rust none st.fields ms →
    .record .union (attrToks [alignText s.out al]) (tagOf s.out (s.lib.ren n)) (nameOf s.out (s.lib.ren n)) ms ∈ o.items
  /-- the aliases -/
  aliases : ∀ st cs n rule u, Sole s.parse s.load i s.lib (.alias st) cs n → Needed s.parse s.load i s.lib n →
    Holds s rust cs → CType (envOf s.lib s.out tag rule none) false st.ty u → .alias (s.lib.ren n) u.forgetFnPtr ∈ o.items
  /-- the structs that are transparent -/
  transparents : ∀ t st cs n al a rule ms u, Sole s.parse s.load i s.lib t cs n → Needed s.parse s.load i s.lib n →
    structOf t = some st → Holds s rust cs → LayoutIs s.load st.attrs .transparent al →
    Annotations.load st.attrs = .ok a → a.shouldExport = true →
    Members (envOf s.lib s.out tag rule (some (unraw st.ident))) (memberName s.out.caseFns rule) rust
      (countOf st.fields) (listOf st.fields) ms →
    FirstType (envOf s.lib s.out tag rule (some (unraw st.ident))) (listOf st.fields) u →
    .alias (s.lib.ren n) u.forgetFnPtr ∈ o.items
  /-- the structs and unions for enums with data -/
  data : ∀ en cs n r a arm rule ms, Sole s.parse s.load i s.lib (.enum en) cs n → Needed s.parse s.load i s.lib n →
    Holds s rust cs → EnumIs s.load s.lib en r a arm rule → a.shouldExport = true → withData en = true →
    (∀ v ∈ en.variants, ∀ x ∈ conds v.attrs, CfgSpec.Mapped s.out.defines x) →
    (∀ v ∈ en.variants, ∀ f ∈ listOf v.fields, ∀ x ∈ conds f.attrs, CfgSpec.Mapped s.out.defines x) →
    NoBodies R on s.out n → Arms (enumEnvOf s.load s.lib s.out tag r a arm rule n) rust en.variants ms →
    .record (if r.style = .rust then .union else .struct)
      (attrToks [mustUseText a s.out.structure_.mustUse, a.deprecatedNote s.out .struct])
      (tagOf s.out (s.lib.ren n)) (nameOf s.out (s.lib.ren n))
      (.object false [] c!"tag" (.base false (if r.ty = none ∧ hasName s.out.style = false then some .enum else none)
          (s.lib.ren n ++ c!"_Tag") []) [] ::
        if r.style = .rust then ms else [.record .union [] none none ms]) ∈ o.items
  /-- the constants and enums with their values -/
  values : s.out.export_.shouldGenerate .constants = true → ConstsMapped s i →
    (∀ p, Usual p → Macros (ConstVal s.parse i s.out.export_.exclude rust) s.lib.ren p o.macros) ∧
    (∀ en cs n r a arm rule ds k, Sole s.parse s.load i s.lib (.enum en) cs n → Needed s.parse s.load i s.lib n →
      Holds s rust cs → EnumIs s.load s.lib en r a arm rule → a.shouldExport = true → r.ty = none →
      (∀ v ∈ en.variants, ∀ x ∈ conds v.attrs, CfgSpec.Mapped s.out.defines x) →
      Discriminants (ConstVal s.parse i s.out.export_.exclude rust) (reprLimit r.ty) rust 0 en.variants ds k →
      ∃ es, .enumeration (attrToks [a.deprecatedNote s.out .enum]) (tagOf s.out (enumName s.lib en n)) none
          (nameOf s.out (enumName s.lib en n)) es ∈ o.items ∧
        ∀ p, Usual p → EnumValues p o.macros 0 es (valuesOf s.load s.lib a rule n ds k)) ∧
    ∀ en cs n r a arm rule ty size ds k, Sole s.parse s.load i s.lib (.enum en) cs n → Needed s.parse s.load i s.lib n →
      Holds s rust cs → EnumIs s.load s.lib en r a arm rule → a.shouldExport = true → r.ty = some ty →
      (ty, size) ∈ sizeTexts s.out.usizeIsSizeT → (∀ v ∈ en.variants, ∀ x ∈ conds v.attrs, CfgSpec.Mapped s.out.defines x) →
      Discriminants (ConstVal s.parse i s.out.export_.exclude rust) (reprLimit r.ty) rust 0 en.variants ds k →
      ∃ es, .enumeration (attrToks [a.deprecatedNote s.out .enum]) (some (enumName s.lib en n))
          (if typedEnum s.out on then some (.base false none size []) else none) none es ∈ o.items ∧
        (∀ p, Usual p → EnumValues p o.macros 0 es (valuesOf s.load s.lib a rule n ds k)) ∧
        ((s.out.cppCompatibleC && on cplusplus) = false → .alias (enumName s.lib en n)
          (if on c23 then .base false (some .enum) (enumName s.lib en n) [] else .base false none size []) ∈ o.items)
  /-- and no other functions -/
  onlyFunctions : s.out.export_.shouldGenerate .functions = true → NoBlocks R on s.out →
    ∀ ext attrs bits path ps x ret, .object ext attrs path (.fn ps x ret) bits ∈ o.items →
    ∃ owner sf cs a, SrcSpec.Given s.parse i (.fn path owner ext sf) cs ∧
      path ∉ s.out.export_.exclude ∧ Annotations.load sf.attrs = .ok a ∧ a.shouldExport = true ∧
      ((∀ x ∈ cs, CfgSpec.Mapped s.out.defines x) → ∀ x ∈ cs, CfgSpec.holds rust x = true) ∧
      ∀ rule T, a.list c!"ptrs-as-arrays" = none → a.ruleOr s.out.function.renameArgs = some rule →
        CFn (envOf s.lib s.out tag rule owner) sf.sig T → T.forgetFnPtr = .fn ps x ret
  /-- nor other statics -/
  onlyStatics : s.out.export_.shouldGenerate .globals = true → NoBlocks R on s.out →
    ∀ ext attrs bits path ty, .object ext attrs path ty bits ∈ o.items → (∀ ps x r, ty ≠ .fn ps x r) →
    ext = true ∧ attrs = [] ∧ bits = [] ∧ ∃ st cs a, SrcSpec.Given s.parse i (.static path st) cs ∧
      path ∉ s.out.export_.exclude ∧ Annotations.load st.attrs = .ok a ∧ a.shouldExport = true ∧
      ((∀ x ∈ cs, CfgSpec.Mapped s.out.defines x) → ∀ x ∈ cs, CfgSpec.holds rust x = true) ∧
      ∀ rule u, CStatic (envOf s.lib s.out tag rule none) st.mutable st.ty u → u.forgetFnPtr = ty
  /-- nor other types -/
  onlyDefinitions : NoTypesIn R on s.out → ∀ d ∈ o.items, ∀ n ∈ d.defines, CSource s.parse i s.lib s.out.defines rust n
  /-- nor other macros -/
  onlyMacros : ∀ m ∈ o.macros, InTexts s R on m ∨ (∃ g, s.out.guard = some g ∧ m = (g, [])) ∨
    MacroSource s.parse i s.lib s.out.caseFns s.out.defines rust m.1
  /-- nor other enumerators -/
  onlyEnumerators : NoTypesIn R on s.out → ∀ d ∈ o.items, d.defines ≠ [] → ∀ es, d.enumerators = some es →
    EnumSource s.parse s.load i s.lib s.out.defines rust es

/-- The header that a run leaves: the contents of the file of `--output`, or else what it prints. -/
def Cli.header (a : Cli) (r : RunResult) : Option Bytes :=
  match a.out.out with
  | some p => r.disk.file p
  | none => some r.stdout

/-- A run that writes a header. -/
structure WritesTo (w : World) (a : Cli) (d : Disk) (r : RunResult) : Prop where
  run : w.run a d = .exit r
  ok : r.exit = 0
  outer : w.nested = false
  /-- the file of `--symfile` is another one -/
  other : ∀ p, a.out.out = some p → a.out.symfile ≠ some p

/-- What is asked of the settings and sources of a run. -/
structure SourcesFine (s : Settings) (i : Inputs) (on : Str → Bool) (rust : CfgSpec.Opt → Bool) : Prop where
  plain : InputsPlain i
  onePath : OnePath s.parse i
  bare : ∀ t cs a, SrcSpec.Given s.parse i (.alias t) cs → Annotations.load t.attrs = .ok a → a.isEmpty = true
  first : ∀ g, s.out.guard = some g → on g = false
  same : CfgSpec.Matches s.out.defines rust on

/-! ## Runs -/

section
variable {w : World} {a : Cli} {d : Disk} {r : RunResult} {R : Dialect} {on : Str → Bool} {D : List Str} {rust : CfgSpec.Opt → Bool}

/-- A run that does not fail. -/
theorem run_of {s : Settings} {i : Inputs} {v : Str} {e : Env} {b : Bindings} {t : Str} (ha : a.accepted = true)
    (hv : (a.out.verify && a.out.out.isNone) = false) (hl : w.load a = .ok (s, i, v)) (hn : w.nested = false)
    (hg : w.generate s i v = .ok (e, b)) (ht : headerText e b = some t) :
    w.run a d = .exit (runOutput a.out false (utf8 t) (utf8 b.symfileText) d) := by
  unfold World.run
  rw [ha, hv, hl]
  simp only [Bool.not_true, Bool.false_eq_true, if_false, hn]
  unfold World.finish
  rw [hg]
  simp only [ht]

theorem left_header {content symbols : Bytes} (hs : ∀ p, a.out.out = some p → a.out.symfile ≠ some p)
    (h0 : (runOutput a.out false content symbols d).exit = 0) : a.header (runOutput a.out false content symbols d) = some content := by
  unfold Cli.header
  cases ho : a.out.out with
  | some p => exact (runOutput_file ho (hs p ho) h0).1
  | none =>
    unfold runOutput
    rw [ho]
    rfl

/-- What is written for bindings that are generated from sources, in C++. -/
theorem cxx_written {s : Settings} {i : Inputs} {v : Str} {e : Env} {b : Bindings} {t : Str} (hg : w.generate s i v = .ok (e, b))
    (ht : headerText e b = some t) (hw : w.order [] = []) (hgd : CxxHeaderGood R on D e b) (hi : SourcesFine s i on rust) :
    ∃ o, readHeader R on t = some o ∧ CxxWritten s i R on rust o := by
  obtain ⟨he, l, l₁, hb, hgen, hex⟩ := generate_stages hg
  have hlg : s.lib.language = .cxx := by
    show s.out.language = .cxx
    rw [← he]
    exact hgd.lang
  have hS : StagesX s.parse s.load w.crates w.fuel i s.lib w.order l b :=
    ⟨hb, hi.plain, hi.onePath, hlg, hw, hi.bare, hgen⟩
  have hr : ∀ cs, Holds s rust cs → CxxReadWhere R on D e b t rust cs := fun cs hcs =>
    ⟨hgd, ht, by rw [he]; exact hi.first, by rw [he]; exact hi.same, by rw [he]; exact hcs.1, hcs.2⟩
  have hread := C74_header_reads_back_partial hgd ht
  refine ⟨_, hread, ?_⟩
  revert hread
  generalize cxxHeaderOut R e on b = o
  intro hread
  have hspaces : e.cfg.namespace_.toList ++ e.cfg.namespaces.getD [] = s.spaces := by rw [he]; rfl
  constructor
  · intro q path owner ext sf cs a rule T g1 g2 g3 g4 g5 g6 g7 g8
    obtain ⟨o', attrs, h1, h2⟩ := C75_declared_partial hb hi.plain hi.onePath hlg hgen q (hr cs g2) g1 g3 g4 g5 g6 g7 (by rw [he]; exact g8)
    rw [hread] at h1
    cases h1
    exact ⟨attrs, hspaces ▸ h2⟩
  · intro q path st cs a rule u g1 g2 g3 g4 g5 g6
    obtain ⟨o', h1, h2⟩ := C75_static_partial hb hi.plain hi.onePath hlg hgen q (hr cs g2) g1 g3 g4 g5 (by rw [he]; exact g6)
    rw [hread] at h1
    cases h1
    exact hspaces ▸ h2
  · intro t st cs n al a rule ps ms g1 g2 g3 g4 g5 g6 g7 g8 g9 g10 g11 g12 g13
    obtain ⟨o', h1, h2⟩ := C76_struct_partial hS (hr cs g4) g1 g2 g3 (by rw [he]; exact g5) g6 g7 g8 g9 g10 (by rw [he]; exact g11)
      (by rw [he]; exact g12) (by rw [he]; exact g13)
    rw [hread] at h1
    cases h1
    rw [hspaces, he] at h2
    exact h2
  · intro st cs n al a rule ps ms g1 g2 g4 g5 g6 g7 g8 g9 g10 g11 g12 g13
    obtain ⟨o', h1, h2⟩ := C76_union_partial hS (hr cs g4) g1 g2 (by rw [he]; exact g5) g6 g7 g8 g9 g10 (by rw [he]; exact g11)
      (by rw [he]; exact g12) (by rw [he]; exact g13)
    rw [hread] at h1
    cases h1
    rw [hspaces, he] at h2
    exact h2
  · intro st cs n rule ps u g1 g2 g3 g4 g5
    obtain ⟨o', h1, h2⟩ := C76_alias_partial hS (hr cs g3) g1 g2 (by rw [he]; exact g4) (by rw [he]; exact g5)
    rw [hread] at h1
    cases h1
    rw [hspaces] at h2
    exact h2
  · intro t st cs n al a rule ps ms u g1 g2 g3 g4 g5 g6 g7 g8 g9 g10
    obtain ⟨o', h1, h2⟩ := C76_transparent_partial hS (hr cs g4) g1 g2 g3 g5 g6 g7 (by rw [he]; exact g8) (by rw [he]; exact g9)
      (by rw [he]; exact g10)
    rw [hread] at h1
    cases h1
    rw [hspaces] at h2
    exact h2
  · intro q hm
    obtain ⟨o', M, h1, h2, h3⟩ := C79_value_partial hS q (hr [] ⟨nofun, nofun⟩) (by rw [he]; exact hm)
    rw [hread] at h1
    cases h1
    rw [hspaces] at h2
    refine ⟨M, h2, h3, ?_, ?_⟩
    · intro en cs n r a arm rule ty ds k g1 g2 g3 g4 g5 g6 g7 g8 g9
      obtain ⟨o', es, k1, k2, k3⟩ := C77_enum_partial hS (hr cs g3) g1 g2 g4 g5 g6 (by rw [he]; exact g7) (by rw [he]; exact g8) g9
      rw [hread] at k1
      cases k1
      rw [hspaces, he] at k2
      exact ⟨es, k2, fun p hp => k3 p M hp (h3 p hp)⟩
    · intro en cs n r a arm rule ty ds k bs ms g1 g2 g3 g4 g5 g6 g7 g8 g9 g10 g11 g12 g13
      obtain ⟨o', es, k1, k2, k3⟩ := C77_data_partial hS (hr cs g3) g1 g2 g4 g5 g6 (by rw [he]; exact g7) (by rw [he]; exact g8)
        (by rw [he]; exact g9) (by rw [he]; exact g10) (by rw [he]; exact g11) g12 (by rw [he]; exact g13)
      rw [hread] at k1
      cases k1
      rw [hspaces, he] at k2
      exact ⟨es, k2, fun p hp => k3 p M hp (h3 p hp)⟩
  · intro q hn ns link ext attrs bits path ps x ret hd
    have := C75_only_partial hb hi.plain hlg hgen q hgd ht (by rw [he]; exact hn) (by rw [he]; exact hi.same) hread hd
    rw [hspaces, he] at this
    exact this
  · intro q hn ns link ext attrs bits path ty hd hty
    have := C75_static_only_partial hb hi.plain hlg hgen q hgd ht (by rw [he]; exact hn) (by rw [he]; exact hi.same) hread hd hty
    rw [hspaces, he] at this
    exact this
  · intro hn ns link d n hd hd'
    have := C82_cxx_partial hS hgd ht (rust := rust) (by rw [he]; exact hi.same) (by rw [he]; exact hn) hread hd hd'
    rw [hspaces, he] at this
    exact this
  · intro m hmm
    have := C84_cxx_macros_partial hS hgd ht (rust := rust) (by rw [he]; exact hi.same) (by rw [he]; rfl) hread hmm
    rw [he] at this
    exact this
  · intro ns link ws n ty ts hd hn
    have := C84_cxx_objects_partial hS hgd ht (rust := rust) (by rw [he]; exact hi.same) (by rw [he]; rfl) hread (by rw [he]; exact hn) hd
    rw [hspaces, he] at this
    exact this
  · intro hn ns link d es hd hd' hes
    have := C85_cxx_partial hS hgd ht (rust := rust) (by rw [he]; exact hi.same) (by rw [he]; exact hn) hread hd hd' hes
    rw [he] at this
    exact this
  · intro hn hn' ns link d m hdm es hd hd' hes
    have := C85_tags_partial hS hgd ht (rust := rust) (by rw [he]; exact hi.same) (by rw [he]; exact hn) (by rw [he]; exact hn') hread hd hd' hdm hes
    rw [he] at this
    exact this

/-- **C80.** After a run for C++ that succeeds, the file of `--output`, or else what was printed, has the functions, statics, structs, unions, aliases, constants and enums
of the sources, with their types and values, and no other functions, statics, types, constants and
enumerators. -/
theorem C80_cxx_partial (h : WritesTo w a d r) (hw : w.order [] = [])
    (hgood : ∀ s i v e b, w.load a = .ok (s, i, v) → w.generate s i v = .ok (e, b) → CxxHeaderGood R on D e b)
    (hin : ∀ s i v, w.load a = .ok (s, i, v) → SourcesFine s i on rust) :
    ∃ s i v t o, w.load a = .ok (s, i, v) ∧ a.header r = some (utf8 t) ∧ readHeader R on t = some o ∧
      CxxWritten s i R on rust o := by
  obtain ⟨s, i, v, e, b, t, hl, hg, ht, rfl⟩ := run_ok h.run h.ok h.outer
  obtain ⟨o, h1, h2⟩ := cxx_written hg ht hw (hgood s i v e b hl hg) (hin s i v hl)
  exact ⟨s, i, v, t, o, hl, left_header h.other h.ok, h1, h2⟩

/-- The same for C. -/
theorem c_written {s : Settings} {i : Inputs} {v : Str} {e : Env} {b : Bindings} {t : Str} (hg : w.generate s i v = .ok (e, b))
    (ht : headerText e b = some t) (hw : w.order [] = []) (hgd : HeaderGood R on D e b) (hi : SourcesFine s i on rust) :
    ∃ o l l₁, readHeader R on t = some o ∧ buildLibrary s.parse s.load w.crates i = .ok l ∧
      (((l.transferAnnotations w.order).simplify s.lib).sortFunctions s.lib).expand s.lib w.fuel = .ok l₁ ∧
      CWritten s i (tagFor s.lib l₁) R on rust o := by
  obtain ⟨he, l, l₁, hb, hgen, hex⟩ := generate_stages hg
  have hlg : s.lib.language = .c := by
    show s.out.language = .c
    rw [← he]
    exact hgd.options.lang
  have hS : Stages s.parse s.load w.crates w.fuel i s.lib w.order l l₁ b :=
    ⟨hb, hi.plain, hi.onePath, hlg, hw, hi.bare, hgen, hex⟩
  have hr : ∀ cs, Holds s rust cs → ReadWhere R on D e b t rust cs := fun cs hcs =>
    ⟨hgd, ht, by rw [he]; exact hi.first, by rw [he]; exact hi.same, by rw [he]; exact hcs.1, hcs.2⟩
  have hread := C61_header_reads_back hgd ht
  refine ⟨_, l, l₁, hread, hb, hex, ?_⟩
  revert hread
  generalize headerOut R e on b = o
  intro hread
  constructor
  · intro q path owner ext sf cs a rule T g1 g2 g3 g4 g5 g6 g7 g8
    obtain ⟨o', attrs, h1, h2⟩ := C63_declared_partial hb hi.plain hi.onePath hlg hgen hex q hgd ht (by rw [he]; exact hi.first)
      (by rw [he]; exact hi.same) g1 (by rw [he]; exact g2.1) g2.2 g3 g4 g5 g6 g7 (by rw [he]; exact g8)
    rw [hread] at h1
    cases h1
    exact ⟨attrs, h2⟩
  · intro q path st cs a rule u g1 g2 g3 g4 g5 g6
    obtain ⟨o', h1, h2⟩ := C65_declared_partial hb hi.plain hi.onePath hlg hgen hex q (hr cs g2) g1 g3 g4 g5 (by rw [he]; exact g6)
    rw [hread] at h1
    cases h1
    exact h2
  · intro t st cs n al a rule ms g1 g2 g3 g4 g5 g6 g7 g8 g9 g10 g11 g13
    obtain ⟨o', h1, h2⟩ := C64_struct_partial hS (hr cs g4) g1 g2 g3 (by rw [he]; exact g5) g6 g7 g8 g9 g10 (by rw [he]; exact g11)
      (by rw [he]; exact g13)
    rw [hread] at h1
    cases h1
    rw [he] at h2
    exact h2
  · intro st cs n al a rule ms g1 g2 g4 g5 g6 g7 g8 g9 g10 g11 g13
    obtain ⟨o', h1, h2⟩ := C64_union_partial hS (hr cs g4) g1 g2 (by rw [he]; exact g5) g6 g7 g8 g9 g10 (by rw [he]; exact g11)
      (by rw [he]; exact g13)
    rw [hread] at h1
    cases h1
    rw [he] at h2
    exact h2
  · intro st cs n rule u g1 g2 g3 g5
    obtain ⟨o', h1, h2⟩ := C64_alias_partial hS (hr cs g3) g1 g2 (by rw [he]; exact g5)
    rw [hread] at h1
    cases h1
    exact h2
  · intro t st cs n al a rule ms u g1 g2 g3 g4 g5 g6 g7 g9 g10
    obtain ⟨o', h1, h2⟩ := C64_transparent_partial hS (hr cs g4) g1 g2 g3 g5 g6 g7 (by rw [he]; exact g9) (by rw [he]; exact g10)
    rw [hread] at h1
    cases h1
    exact h2
  · intro en cs n r a arm rule ms g1 g2 g3 g4 g5 g6 g7 g8 g9 g10
    obtain ⟨o', h1, h2⟩ := C66_data_partial hS (hr cs g3) g1 g2 g4 g5 g6 (by rw [he]; exact g7) (by rw [he]; exact g8)
      (by rw [he]; exact g9) (by rw [he]; exact g10)
    rw [hread] at h1
    cases h1
    rw [he] at h2
    exact h2
  · intro q hm
    obtain ⟨o', h1, h3⟩ := C67_value_partial hS q (hr [] ⟨nofun, nofun⟩) (by rw [he]; exact hm)
    rw [hread] at h1
    cases h1
    refine ⟨h3, ?_, ?_⟩
    · intro en cs n r a arm rule ds k g1 g2 g3 g4 g5 g6 g7 g9
      obtain ⟨o', es, k1, k2, k3⟩ := C66_enum_partial hS (hr cs g3) g1 g2 g4 g5 g6 (by rw [he]; exact g7) g9
      rw [hread] at k1
      cases k1
      rw [he] at k2
      exact ⟨es, k2, fun p hp => k3 p _ hp (h3 p hp)⟩
    · intro en cs n r a arm rule ty size ds k g1 g2 g3 g4 g5 g6 g7 g8 g9
      obtain ⟨o', es, k1, k2, k3, k4⟩ := C66_sized_partial hS (hr cs g3) g1 g2 g4 g5 g6 (by rw [he]; exact g7) (by rw [he]; exact g8) g9
      rw [hread] at k1
      cases k1
      rw [he] at k2 k4
      exact ⟨es, k2, fun p hp => k3 p _ hp (h3 p hp), k4⟩
  · intro q hn ext attrs bits path ps x ret hd
    have := C63_only_partial hb hi.plain hlg hgen hex q hgd ht (by rw [he]; exact hn) (by rw [he]; exact hi.same) hread hd
    rw [he] at this
    exact this
  · intro q hn ext attrs bits path ty hd hty
    have := C65_only_partial hb hi.plain hlg hgen hex q hgd ht (by rw [he]; exact hn) (by rw [he]; exact hi.same) hread hd hty
    rw [he] at this
    exact this
  · intro hn d hd n hd'
    have := C82_c_partial hS hgd ht (rust := rust) (by rw [he]; exact hi.same) (by rw [he]; exact hn) hread hd hd'
    rw [he] at this
    exact this
  · intro m hmm
    have := C84_c_partial hS hgd ht (rust := rust) (by rw [he]; exact hi.same) (by rw [he]; rfl) hread hmm
    rw [he] at this
    exact this
  · intro hn d hd hd' es hes
    have := C85_c_partial hS hgd ht (rust := rust) (by rw [he]; exact hi.same) (by rw [he]; exact hn) hread hd hd' hes
    rw [he] at this
    exact this

/-- **C80.** The same for C. -/
theorem C80_c_partial (h : WritesTo w a d r) (hw : w.order [] = [])
    (hgood : ∀ s i v e b, w.load a = .ok (s, i, v) → w.generate s i v = .ok (e, b) → HeaderGood R on D e b)
    (hin : ∀ s i v, w.load a = .ok (s, i, v) → SourcesFine s i on rust) :
    ∃ s i v t o l l₁, w.load a = .ok (s, i, v) ∧ a.header r = some (utf8 t) ∧ readHeader R on t = some o ∧
      buildLibrary s.parse s.load w.crates i = .ok l ∧
      (((l.transferAnnotations w.order).simplify s.lib).sortFunctions s.lib).expand s.lib w.fuel = .ok l₁ ∧
      CWritten s i (tagFor s.lib l₁) R on rust o := by
  obtain ⟨s, i, v, e, b, t, hl, hg, ht, rfl⟩ := run_ok h.run h.ok h.outer
  obtain ⟨o, l, l₁, h1, h2⟩ := c_written hg ht hw (hgood s i v e b hl hg) (hin s i v hl)
  exact ⟨s, i, v, t, o, l, l₁, hl, left_header h.other h.ok, h1, h2⟩

end

end Cbindgen
