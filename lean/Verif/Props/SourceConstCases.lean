import Verif.Props.SourceConsts
import Verif.Props.SourceEnumCases

/-! # Cases for C67 -/

namespace Cbindgen
open CSpec HeadSpec ScopeSpec LexSpec
open SrcSpec hiding Reaches Given Plain

mutual
/-- The constants that an item declares. -/
def FItem.consts : FItem → List (SynConst × List Cfg)
  | .const k => [(k, conds k.attrs)]
  | .mod as _ sub => (FItem.constsAll sub).map fun x => (x.1, conds as ++ x.2)
  | _ => []
def FItem.constsAll : List FItem → List (SynConst × List Cfg)
  | [] => []
  | i :: is => i.consts ++ FItem.constsAll is
end

theorem mem_constsAll {x : SynConst × List Cfg} {i : FItem} : ∀ {is : List FItem}, i ∈ is → x ∈ i.consts → x ∈ FItem.constsAll is
  | j :: is, hi, hx => by
    rw [FItem.constsAll, List.mem_append]
    rcases List.mem_cons.1 hi with rfl | hi
    · exact Or.inl hx
    · exact Or.inr (mem_constsAll hi hx)

theorem occurs_consts {cfg : ParseConfig} {crate : Str} {is : List FItem} {t : Taken} {cs : List Cfg} {k : SynConst}
    (h : Occurs cfg crate is t cs) (hn : t = .const k) : (k, cs) ∈ FItem.constsAll is ∧ k.isPub = true := by
  induction h with
  | here hi _ hd =>
    subst hn
    cases hd with
    | const _ hp => exact ⟨mem_constsAll hi (by simp [FItem.consts]), hp⟩
  | nested hi _ _ ih =>
    refine ⟨mem_constsAll hi ?_, (ih hn).2⟩
    rw [FItem.consts]
    exact List.mem_map.2 ⟨_, (ih hn).1, rfl⟩

/-- No `impl` and no `bitflags!`. -/
def FItem.bare : FItem → Bool
  | .impl .. => false
  | .bitflags .. => false
  | .mod .. => false
  | _ => true

theorem occurs_bare {cfg : ParseConfig} {crate : Str} {is : List FItem} {t : Taken} {cs : List Cfg}
    (h : Occurs cfg crate is t cs) (hn : is.all FItem.bare = true) : (∀ r k, t ≠ .assoc r k) ∧ ∀ b, t ≠ .bitflags b := by
  cases h with
  | here hi _ hd =>
    have := List.all_eq_true.1 hn _ hi
    cases hd <;> first | (cases this; done) | exact ⟨nofun, nofun⟩
  | nested hi _ _ =>
    have := List.all_eq_true.1 hn _ hi
    cases this

namespace ConstCases
open SourceCases (pc env R on rust fits unix)
open ScopeCases (ident)
open DefCases (reprC named)
open EnumCases (F lc c D opts fn number operator variant_good)

def u32 : SynTy := .path c!"u32" .none
def int (n : Nat) : SynExpr := .lit (.int n [])
def ref (n : Str) : SynExpr := .path [] n .none

/-- `pub const N: u32 = 3;` -/
def n : SynConst := { ident := c!"N", ty := u32, expr := int 3 }
/-- `#[cfg(unix)] pub const F: u32 = N << 2 | 1;` -/
def fl : SynConst :=
  { ident := c!"F", ty := u32, expr := .binary (.binary (ref c!"N") .shl (int 2)) .bitOr (int 1), attrs := [{ attr := cfgUnix }] }
/-- `pub const B: bool = true;` -/
def bt : SynConst := { ident := c!"B", ty := .path c!"bool" .none, expr := .lit (.bool true) }
/-- `const A: u32 = 5;` -/
def a : SynConst := { ident := c!"A", ty := u32, expr := int 5, isPub := false }
/-- `pub const S: u32 = A + 1;` -/
def s : SynConst := { ident := c!"S", ty := u32, expr := .binary (ref c!"A") .add (int 1) }
/-- `pub const T: u32 = 1 << 31;` -/
def t : SynConst := { ident := c!"T", ty := u32, expr := .binary (int 1) .shl (int 31) }
/-- `pub const U: u8 = 200 << 1;` -/
def u : SynConst := { ident := c!"U", ty := .path c!"u8" .none, expr := .binary (int 200) .shl (int 1) }
/-- `pub const X: u32 = !1;` -/
def x : SynConst := { ident := c!"X", ty := u32, expr := .unary .not (int 1) }
/-- `pub const Y: i32 = !1;` -/
def y : SynConst := { ident := c!"Y", ty := .path c!"i32" .none, expr := .unary .not (int 1) }
/-- `#[repr(C)] enum E { V = N as isize, W }` -/
def e : SynEnum :=
  ⟨c!"E", [], [⟨c!"V", .unit, some (.cast (ref c!"N") (.path c!"isize" .none)), []⟩, ⟨c!"W", .unit, none, []⟩], [reprC]⟩

def items : List FItem := [.const n, .const fl, .const bt, .const a, .const s, .const t, .const u, .const x, .const y, .enum e, .fn fn]
def inputs : Inputs := { stdTypes := true, srcs := [(c!"lib", some items)] }

def pu32 : Ty := .prim (.integer true false .b32)
def item (n : Str) (ty : Ty) (v : Lit) (g : Option Cfg) : ConstItem := { path := n, exportName := n, ty := ty, value := v, cfg := g }
def nItem : ConstItem := item c!"N" pu32 (.expr c!"3") none
def flItem : ConstItem :=
  item c!"F" pu32 (.binop (.binop (.path none c!"N") c!"<<" (.expr c!"2")) c!"|" (.expr c!"1")) (some (.boolean c!"unix"))
def btItem : ConstItem := item c!"B" (.prim .bool) (.expr c!"true") none
def sItem : ConstItem := item c!"S" pu32 (.binop (.path none c!"A") c!"+" (.expr c!"1")) none
def tItem : ConstItem := item c!"T" pu32 (.binop (.expr c!"1") c!"<<" (.expr c!"31")) none
def uItem : ConstItem := item c!"U" (.prim (.integer true false .b8)) (.binop (.expr c!"200") c!"<<" (.expr c!"1")) none
def xItem : ConstItem := item c!"X" pu32 (.unary c!"~" (.expr c!"1")) none
def yItem : ConstItem := item c!"Y" (.prim (.integer true true .b32)) (.unary c!"~" (.expr c!"1")) none
def constants : List ConstItem := [nItem, flItem, btItem, sItem, tItem, uItem, xItem, yItem]
def eItem : EnumItem :=
  { path := c!"E", exportName := c!"E", repr := { style := .c },
    variants := [{ name := c!"V", exportName := c!"V", disc := some (.cast (.prim (.integer true true .size)) (.path none c!"N")) },
      { name := c!"W", exportName := c!"W" }] }

def lib : Library :=
  { Library.addStdTypes {} with
    constants := [(c!"N", .single nItem), (c!"F", .cfg [flItem]), (c!"B", .single btItem), (c!"S", .single sItem),
      (c!"T", .single tItem), (c!"U", .single uItem), (c!"X", .single xItem), (c!"Y", .single yItem)],
    enums := [(c!"E", .single eItem)], functions := [EnumCases.f none] }
/-- The library after the instances are made. -/
def lib₁ : Library := { lib with opaqueItems := lib.opaqueItems.take 1 }
def lib' : Library := { lib₁ with functions := [EnumCases.f (some .enum)] }

theorem built : buildLibrary pc lc 1 inputs = .ok lib := rfl

def bindings : Bindings := ⟨constants, [], [.enum eItem], [EnumCases.f (some .enum)]⟩

theorem expanded : (((lib.transferAnnotations id).simplify c).sortFunctions c).expand c 1 = .ok lib₁ := rfl

theorem generated : lib.generate c id 1 = .ok bindings := by
  refine Library.generate_of (l' := lib') rfl ?_
  rw [DetSpec.collect_of (d := ⟨[.enum eItem], [c!"E"]⟩) rfl]
  simp only [DetSpec.bindingsOf]
  rw [show [Container.enum eItem] = [Container.enum eItem] ++ [] from rfl, sortItems_enums (by decide) (by decide)]
  rfl

theorem e_good : EnumGood R on D env eItem where
  name := ident (n := c!"E") (by decide)
  attrs := nofun
  variants := by
    intro v hv
    simp only [eItem, List.mem_cons, List.not_mem_nil, or_false] at hv
    rcases hv with rfl | rfl
    · exact variant_good ⟨by simp, by decide⟩ rfl (by
        rintro d ⟨⟩
        exact ⟨⟨⟨trivial, rfl⟩, by unfold LitText; exact ⟨by simp [pathText], by decide⟩⟩, by decide, by decide⟩) rfl
    · exact variant_good ⟨by simp, by decide⟩ rfl nofun rfl
  doc := nofun
  size := nofun
  data := nofun

theorem const_good {n : Str} {ty : Ty} {v : Lit} {g : Option Cfg} (hn : Word n ∧ n ∉ D) (hp : v.peel env.transparent = some v) (hv : LitText R env v) :
    ConstGood R D env none (item n ty v g) where
  name := by
    intro m hm
    cases hm
    exact hn
  value := by
    intro w hw
    have : some v = some w := hp.symm.trans hw
    cases this
    exact hv
  doc := nofun
  variable_ := nofun

theorem word_text {w : Str} (h : Word w) : LitText R env (.path none w) := h

theorem constants_good : ∀ k ∈ constants, ConstGood R D env none k := by
  intro k hk
  have hw : ∀ w ∈ [c!"N", c!"F", c!"B", c!"S", c!"T", c!"U", c!"X", c!"Y"], Word w ∧ w ∉ D := by unfold Word; decide
  have shl : BinaryText c!"<<" := operator (ls := [.punct '<', .punct '<']) (by decide) (by decide)
  have num : ∀ w ∈ [c!"1", c!"2", c!"3", c!"31", c!"200", c!"true"], ExprText w := by
    intro w hw
    simp only [List.mem_cons, List.not_mem_nil, or_false] at hw
    rcases hw with rfl | rfl | rfl | rfl | rfl | rfl
    · exact number (ls := [.word c!"1"]) (by decide) (by decide)
    · exact number (ls := [.word c!"2"]) (by decide) (by decide)
    · exact number (ls := [.word c!"3"]) (by decide) (by decide)
    · exact number (ls := [.word c!"31"]) (by decide) (by decide)
    · exact number (ls := [.word c!"200"]) (by decide) (by decide)
    · exact number (ls := [.word c!"true"]) (by decide) (by decide)
  simp only [constants, List.mem_cons, List.not_mem_nil, or_false] at hk
  have cpl : UnaryText c!"~" := ⟨[.punct '~'], by decide, fun d => scans_text (d := d) (b := false) (x := false) (by decide)⟩
  rcases hk with rfl | rfl | rfl | rfl | rfl | rfl | rfl | rfl
  · exact const_good (hw _ (by simp)) rfl (num _ (by simp))
  · exact const_good (hw _ (by simp)) rfl ⟨⟨word_text (w := c!"N") ⟨by simp, by decide⟩, shl, num _ (by simp)⟩,
      operator (ls := [.punct '|']) (by decide) (by decide), num _ (by simp)⟩
  · exact const_good (hw _ (by simp)) rfl (num _ (by simp))
  · exact const_good (hw _ (by simp)) rfl ⟨word_text (w := c!"A") ⟨by simp, by decide⟩,
      operator (ls := [.punct '+']) (by decide) (by decide), num _ (by simp)⟩
  · exact const_good (hw _ (by simp)) rfl ⟨num _ (by simp), shl, num _ (by simp)⟩
  · exact const_good (hw _ (by simp)) rfl ⟨num _ (by simp), shl, num _ (by simp)⟩
  · exact const_good (hw _ (by simp)) rfl ⟨cpl, num _ (by simp)⟩
  · exact const_good (hw _ (by simp)) rfl ⟨cpl, num _ (by simp)⟩

theorem bindings_good : HeaderGood R on D env bindings where
  options := opts
  cpp := nofun
  spaces := nofun
  version := by unfold CommentSafe; decide
  guard := nofun
  header := nofun
  autogen := nofun
  after := nofun
  trailer := nofun
  sys := nofun
  quoted := nofun
  constants := constants_good
  globals := nofun
  items := by
    intro x hx _
    simp only [bindings, List.mem_singleton] at hx
    subst hx
    exact e_good
  functions := by
    intro f' hf _
    simp only [bindings, List.mem_singleton] at hf
    subst hf
    exact {
      name := ident (n := c!"f") (by decide)
      ret := trivial
      args := by
        intro a ha
        simp only [EnumCases.f, ScopeCases.takes, List.mem_singleton] at ha
        subst ha
        exact ⟨fun n hn => by cases hn; exact ident (by decide), ⟨ident (n := c!"E") (by decide), trivial⟩, nofun⟩
      lengths := by
        intro a ha hl
        simp only [EnumCases.f, ScopeCases.takes, List.mem_singleton] at ha
        subst ha
        simp at hl
      params := by
        refine ⟨by simp [EnumCases.f, ScopeCases.takes, isVoidList, meaningFnArg, ScopeCases.ptr], trivial, ?_⟩
        intro a ha
        simp only [EnumCases.f, ScopeCases.takes, List.mem_singleton] at ha
        subst ha
        trivial
      attrs := by
        intro o ho
        simp only [EnumCases.f, funcAttrs, funcPost, ScopeCases.takes, Bool.false_eq_true, if_false, List.cons_append,
          List.nil_append, List.mem_cons, List.not_mem_nil, or_false] at ho
        rcases ho with rfl | rfl | rfl | rfl | rfl <;> exact nofun
      doc := nofun }

theorem plain : InputsPlain inputs where
  srcs := by
    intro name is h
    simp only [inputs, List.mem_singleton, Prod.mk.injEq, Option.some.injEq] at h
    obtain ⟨_, rfl⟩ := h
    refine ⟨⟨trivial, trivial, trivial, trivial, trivial, trivial, trivial, trivial, trivial, trivial, trivial, trivial⟩,
      ⟨trivial, trivial, trivial, trivial, trivial, trivial, trivial, trivial, trivial, trivial, ?_, trivial⟩⟩
    show ParserSpec.UnsafeOne _
    intro args h
    simp [fn, noMangle] at h
  lib := by
    intro ws root p is h
    simp [inputs] at h

theorem onePath : OnePath pc inputs where
  names := by
    intro ws root p q cs cs' h
    simp [inputs] at h
  paths := by
    intro ws root p cs cs' h
    simp [inputs] at h

theorem given_occurs {t : Taken} {cs : List Cfg} (h : SrcSpec.Given pc inputs t cs) : ∃ cfg crate, Occurs cfg crate items t cs := by
  cases h with
  | src hs ho =>
    simp only [inputs, List.mem_singleton, Prod.mk.injEq, Option.some.injEq] at hs
    obtain ⟨_, rfl⟩ := hs
    exact ⟨_, _, ho⟩
  | lib hl => simp [inputs] at hl

theorem stages : Stages pc lc 1 1 inputs c id lib lib₁ bindings where
  built := built
  plain := plain
  onePath := onePath
  language := rfl
  ordered := rfl
  bare := by
    intro s cs a h ha
    obtain ⟨_, _, ho⟩ := given_occurs h
    have := occurs_types ho rfl
    simp [items, FItem.typesAll, FItem.types] at this
  generated := generated
  expanded := expanded

theorem top {i : FItem} {t : Taken} {cs : List Cfg} (hi : i ∈ items) (hv : ¬ Hidden i.attrs)
    (hd : Declares (fileConfig pc c!"lib") c!"lib" i t cs) : SrcSpec.Given pc inputs t cs :=
  .src (name := c!"lib") (is := items) (by simp [inputs]) (.here hi hv hd)

/-- The public constants of the sources with their conditions. -/
def consts : List (SynConst × List Cfg) :=
  [(n, []), (fl, [.boolean c!"unix"]), (bt, []), (s, []), (t, []), (u, []), (x, []), (y, [])]

theorem given_const {k : SynConst} {cs : List Cfg} (h : SrcSpec.Given pc inputs (.const k) cs) : (k, cs) ∈ consts := by
  obtain ⟨_, _, ho⟩ := given_occurs h
  clear h
  obtain ⟨h₁, h₂⟩ := occurs_consts ho rfl
  simp only [items, FItem.constsAll, FItem.consts, List.mem_append, List.mem_cons, List.not_mem_nil, or_false,
    List.append_nil, Prod.mk.injEq] at h₁
  rcases h₁ with ⟨rfl, rfl⟩ | ⟨rfl, rfl⟩ | ⟨rfl, rfl⟩ | ⟨rfl, rfl⟩ | ⟨rfl, rfl⟩ | ⟨rfl, rfl⟩ | ⟨rfl, rfl⟩ | ⟨rfl, rfl⟩ | ⟨rfl, rfl⟩
  · exact .head _
  · exact .tail _ (.head _)
  · exact .tail _ (.tail _ (.head _))
  · cases h₂
  · exact .tail _ (.tail _ (.tail _ (.head _)))
  · exact .tail _ (.tail _ (.tail _ (.tail _ (.head _))))
  · exact .tail _ (.tail _ (.tail _ (.tail _ (.tail _ (.head _)))))
  · exact .tail _ (.tail _ (.tail _ (.tail _ (.tail _ (.tail _ (.head _))))))
  · exact .tail _ (.tail _ (.tail _ (.tail _ (.tail _ (.tail _ (.tail _ (.head _)))))))

theorem sole {k : SynConst} {cs : List Cfg} (h : SrcSpec.Given pc inputs (.const k) cs)
    (h' : ∀ x ∈ consts, unraw x.1.ident = unraw k.ident → x = (k, cs)) : SoleConst pc inputs k cs (unraw k.ident) where
  given := h
  name := rfl
  others := fun k' cs' hg hn => Or.inl (by
    have := h' _ (given_const hg) hn
    simp only [Prod.mk.injEq] at this
    exact this)
  assoc := by
    intro r k' cs' hg
    obtain ⟨_, _, ho⟩ := given_occurs hg
    exact absurd rfl ((occurs_bare ho rfl).1 r k')
  flags := by
    intro b cs' hg
    obtain ⟨_, _, ho⟩ := given_occurs hg
    exact absurd rfl ((occurs_bare ho rfl).2 b)

theorem sole_n : SoleConst pc inputs n [] c!"N" :=
  sole (k := n) (top (i := .const n) (by simp [items]) (by simp [Hidden, ParserSpec.Ignored, FItem.attrs, n]) (.const (Or.inl rfl) rfl)) (by
    intro x hx hn
    simp only [consts, List.mem_cons, List.not_mem_nil, or_false] at hx
    rcases hx with rfl | rfl | rfl | rfl | rfl | rfl | rfl | rfl <;> first | rfl | exact absurd hn (by decide))

theorem sole_fl : SoleConst pc inputs fl [.boolean c!"unix"] c!"F" :=
  sole (k := fl) (top (i := .const fl) (by simp [items]) (by simp [Hidden, ParserSpec.Ignored, FItem.attrs, fl, cfgUnix]) (.const (Or.inl rfl) rfl)) (by
    intro x hx hn
    simp only [consts, List.mem_cons, List.not_mem_nil, or_false] at hx
    rcases hx with rfl | rfl | rfl | rfl | rfl | rfl | rfl | rfl <;> first | rfl | exact absurd hn (by decide))

theorem sole_bt : SoleConst pc inputs bt [] c!"B" :=
  sole (k := bt) (top (i := .const bt) (by simp [items]) (by simp [Hidden, ParserSpec.Ignored, FItem.attrs, bt]) (.const (Or.inl rfl) rfl)) (by
    intro x hx hn
    simp only [consts, List.mem_cons, List.not_mem_nil, or_false] at hx
    rcases hx with rfl | rfl | rfl | rfl | rfl | rfl | rfl | rfl <;> first | rfl | exact absurd hn (by decide))

/-- The values of the constants in Rust. -/
def K : Nat → Str → Int → Prop := ConstVal pc inputs c.export_.exclude rust

theorem value_n : K (2 ^ 32) c!"N" 3 :=
  ConstVal.intro sole_n nofun List.not_mem_nil (.inl rfl) ⟨{}, rfl⟩ (.int (n := 3) (by decide) (by decide))

theorem value_fl : K (2 ^ 32) c!"F" 13 := by
  refine ConstVal.intro sole_fl ?_ List.not_mem_nil (.inl rfl) ⟨{}, rfl⟩ ?_
  · intro x hx
    obtain rfl := List.mem_singleton.1 hx
    rfl
  · exact .small (n := 13) (.op (x := 12) (y := 1) (.shift (x := 3) (k := 2) (.name value_n (by decide)) (.int (by decide)) rfl (by decide) (by decide))
      (.int (by decide)) rfl (by decide) (by decide))

theorem value_bt : K 2 c!"B" 1 :=
  ConstVal.intro sole_bt nofun List.not_mem_nil (.inr ⟨rfl, rfl⟩) ⟨{}, rfl⟩ (.bool (b := true))

theorem mapped : ∀ k cs, SrcSpec.Given pc inputs (.const k) cs → ∀ x ∈ cs, CfgSpec.Mapped env.cfg.defines x := by
  intro k cs h x hx
  have := given_const h
  simp only [consts, List.mem_cons, List.not_mem_nil, or_false, Prod.mk.injEq] at this
  rcases this with ⟨_, rfl⟩ | ⟨_, rfl⟩ | ⟨_, rfl⟩ | ⟨_, rfl⟩ | ⟨_, rfl⟩ | ⟨_, rfl⟩ | ⟨_, rfl⟩ | ⟨_, rfl⟩ <;> try (cases hx; done)
  obtain rfl := List.mem_singleton.1 hx
  exact ⟨(c!"unix", c!"UNIX"), by simp [env], by decide, rfl⟩

theorem read {t : Str} (ht : headerText env bindings = some t) : ReadWhere R on D env bindings t rust [] where
  good := bindings_good
  text := ht
  first := nofun
  same := fits
  mapped := nofun
  holds := nofun

def rE : Repr := { style := .c }

theorem isE : EnumIs lc c e rE {} .snakeCase .none where
  repr := ⟨rfl, .inl rfl, rfl⟩
  annotations := rfl
  arms := rfl
  rule := rfl

def V : EnumEnv := enumEnvOf lc c env.cfg (tagFor c lib₁) rE {} .snakeCase .none c!"E"

theorem disc_value : RustValue K (reprLimit none) (.cast (ref c!"N") (.path c!"isize" .none)) 3 :=
  .small (n := 3) (.cast (.name value_n (by decide)) rfl (by decide))

theorem e_declarable : Declarable lc (.enum e) := by
  refine .enum (V := V) (rust := rust) nofun isE.repr isE.annotations rfl isE.arms (fun _ => rfl) (fun _ => rfl) ?_
  intro v hv
  simp only [e, List.mem_cons, List.not_mem_nil, or_false] at hv
  rcases hv with rfl | rfl
  · exact ⟨fun e he => by cases he; exact ⟨_, _, 3, disc_value⟩, _, _, .unit rfl (a := {}) rfl⟩
  · exact ⟨nofun, _, _, .unit rfl (a := {}) rfl⟩

theorem sole_e : Sole pc lc inputs c (.enum e) [] c!"E" where
  given := top (i := .enum e) (by simp [items]) (by simp [Hidden, ParserSpec.Ignored, FItem.attrs, e, reprC]) .enum
  declarable := e_declarable
  name := rfl
  others := fun t' cs' h h' => Or.inl (by
    obtain ⟨_, _, ho⟩ := given_occurs h
    have := occurs_types ho h'
    simp only [items, FItem.typesAll, FItem.types, List.append_nil, List.nil_append, List.mem_singleton, Prod.mk.injEq] at this
    exact this)
  std := by decide
  instances := no_instance rfl (by decide)
  kept := List.not_mem_nil
  wanted := by intro k _; cases k <;> rfl

theorem needed_e : Needed pc lc inputs c c!"E" := by
  have h : Params (DefCases.E F none) fn.sig.inputs [.mk (some c!"x") (.ptr false false none (.base false none c!"E" []))] :=
    .ident (n := c!"x") (.raw (.some (DefCases.named_type (n := c!"E") (by decide) rfl rfl))) (fun h => h) .nil
  have hg : SrcSpec.Given pc inputs (.fn c!"f" none false fn) [] := by
    refine top (i := .fn fn) (by simp [items]) (by simp [Hidden, ParserSpec.Ignored, FItem.attrs, fn, noMangle]) ?_
    exact Declares.fn (Or.inl rfl) (Or.inr (Or.inl rfl)) (Or.inr ⟨by decide, Or.inl (by simp [fn, noMangle]), rfl⟩)
  exact .function hg List.not_mem_nil (a := {}) rfl rfl (rfl : (DefCases.E F none).owner = none) (.mk h .default)
    (.ident (List.mem_singleton.2 rfl) (.raw (.named (by decide) .none)))

end ConstCases

open ConstCases in
open SourceCases (env R on rust) in
open EnumCases (lc c) in
/-- Cases for C67: a number, an expression with another constant under a `cfg`, a truth value, and an enum whose first
discriminant is a constant. -/
example : ∃ t o es, headerText env ConstCases.bindings = some t ∧ readHeader R on t = some o ∧
    .enumeration [] (some c!"E") none (some c!"E") es ∈ o.items ∧
    ∀ p, Usual p →
      (∃ ts ty, (c!"N", ts) ∈ o.macros ∧ CValue p o.macros ts ty 3) ∧ (∃ ts ty, (c!"F", ts) ∈ o.macros ∧ CValue p o.macros ts ty 13) ∧
      (∃ ts ty, (c!"B", ts) ∈ o.macros ∧ CValue p o.macros ts ty 1) ∧ EnumValues p o.macros 0 es [(c!"V", 3), (c!"W", 4)] := by
  obtain ⟨t, ht⟩ := Option.isSome_iff_exists.1 (show (headerText env ConstCases.bindings).isSome = true by decide +kernel)
  obtain ⟨o₁, h₁, k₁⟩ := C67_value_partial stages rfl (read ht) mapped
  obtain ⟨o₂, es, h₂, k₂, k₃⟩ := C67_enum_partial stages rfl (read ht) mapped sole_e needed_e isE rfl rfl
    (by
      intro v hv x hx
      simp only [e, List.mem_cons, List.not_mem_nil, or_false] at hv
      rcases hv with rfl | rfl <;> cases hx)
    (ds := [(c!"V", 3), (c!"W", 4)]) (k := 5) (.set nofun rfl disc_value (.next nofun rfl .nil))
  obtain rfl := Option.some.inj (h₁.symm.trans h₂)
  exact ⟨t, o₁, es, ht, h₁, k₂, fun p hp => ⟨k₁ p hp _ _ _ value_n, k₁ p hp _ _ _ value_fl, k₁ p hp _ _ _ value_bt, k₃ p hp⟩⟩

/-! ## Where the code deviates -/

/-- An expression ends with a word or a parenthesis. -/
theorem cvalue_last {p : PrimSpec.Platform} {M : List (Str × List Lx)} {ts : List Lx} {ty : Nat × Bool} {v : Int}
    (h : CValue p M ts ty v) : ts.getLast? = some (.punct ')') ∨ ∃ w, ts.getLast? = some (.word w) := by
  induction h with
  | const => exact .inr ⟨_, rfl⟩
  | yes => exact .inr ⟨_, rfl⟩
  | no => exact .inr ⟨_, rfl⟩
  | limit => exact .inr ⟨_, rfl⟩
  | «macro» => exact .inr ⟨_, rfl⟩
  | @neg ts _ _ _ ih => cases ts with
    | nil => simp at ih
    | cons t ts => simpa [List.getLast?_cons_cons] using ih
  | @not ts _ _ _ ih => cases ts with
    | nil => simp at ih
    | cons t ts => simpa [List.getLast?_cons_cons] using ih
  | @cast ts _ _ _ _ _ _ _ _ ih => cases ts with
    | nil => simp at ih
    | cons t ts => simpa [List.getLast?_cons_cons] using ih
  | op => exact .inl (List.getLast?_concat ..)
  | shift => exact .inl (List.getLast?_concat ..)

/-- An expression starts with a word, a parenthesis, a minus or a tilde. -/
theorem cvalue_first {p : PrimSpec.Platform} {M : List (Str × List Lx)} {ts : List Lx} {ty : Nat × Bool} {v : Int}
    (h : CValue p M ts ty v) : (∃ w, ts.head? = some (.word w)) ∨ ts.head? = some (.punct '(') ∨ ts.head? = some (.punct '-') ∨
      ts.head? = some (.punct '~') := by
  cases h with
  | const => exact .inl ⟨_, rfl⟩
  | yes => exact .inl ⟨_, rfl⟩
  | no => exact .inl ⟨_, rfl⟩
  | limit => exact .inl ⟨_, rfl⟩
  | «macro» => exact .inl ⟨_, rfl⟩
  | neg => exact .inr (.inr (.inl rfl))
  | not => exact .inr (.inr (.inr rfl))
  | cast => exact .inr (.inl rfl)
  | op => exact .inr (.inl rfl)
  | shift => exact .inr (.inl rfl)

theorem split_binary {p : PrimSpec.Platform} {M : List (Str × List Lx)} {ts us : List Lx} {t u : Nat × Bool} {x y : Int} {a b o q : Str}
    (h₁ : CValue p M ts t x) (h₂ : CValue p M us u y) (ho : o ≠ []) (hq : '(' ∉ q ∧ ')' ∉ q ∧ '-' ∉ q ∧ '~' ∉ q)
    (h : ts ++ (o.map .punct ++ us) = .word a :: (q.map .punct ++ [.word b])) : ts = [.word a] ∧ o = q ∧ us = [.word b] := by
  have l₁ := cvalue_last h₁
  have f₂ := cvalue_first h₂
  have inj : ∀ {o q : Str}, o.map Lx.punct = q.map Lx.punct → o = q := fun h => List.map_inj_right (fun _ _ h => Lx.punct.inj h) |>.1 h
  cases ts with
  | nil => simp at l₁
  | cons w ts =>
    simp only [List.cons_append, List.cons.injEq] at h
    obtain ⟨rfl, h⟩ := h
    have hts : ts = [] := by
      rcases List.append_eq_append_iff.1 h with ⟨r, h3, h4⟩ | ⟨r, h3, h4⟩
      · rcases List.eq_nil_or_concat ts with rfl | ⟨ts', z, rfl⟩
        · rfl
        · have hz : z ∈ q.map Lx.punct := by rw [h3]; simp
          obtain ⟨k, hk, rfl⟩ := List.mem_map.1 hz
          rw [List.concat_eq_append, ← List.cons_append, List.getLast?_concat] at l₁
          rcases l₁ with l₁ | ⟨w, l₁⟩
          · cases l₁
            exact absurd hk hq.2.1
          · cases l₁
      · cases o with
        | nil => exact absurd rfl ho
        | cons k o =>
          have : Lx.punct k ∈ [Lx.word b] := by rw [h4]; simp
          simp at this
    subst hts
    refine ⟨rfl, ?_⟩
    rw [List.nil_append] at h
    rcases List.append_eq_append_iff.1 h with ⟨r, h3, h4⟩ | ⟨r, h3, h4⟩
    · cases r with
      | nil => exact ⟨inj (by simpa using h3.symm), by simpa using h4⟩
      | cons z r =>
        have hz : z ∈ q.map Lx.punct := by rw [h3]; simp
        obtain ⟨k, hk, rfl⟩ := List.mem_map.1 hz
        rw [h4] at f₂
        rcases f₂ with ⟨w, f₂⟩ | f₂ | f₂ | f₂
        · cases f₂
        · cases f₂; exact absurd hk hq.1
        · cases f₂; exact absurd hk hq.2.2.1
        · cases f₂; exact absurd hk hq.2.2.2
    · cases r with
      | nil => exact ⟨inj (by simpa using h3), by simpa using h4.symm⟩
      | cons z r =>
        cases us with
        | nil => simp at f₂
        | cons z' us => simp at h4

theorem operator_text {x y z : Nat} {o : Str} (h : cOp x y o = some z ∨ cShift x y o = some z) : o ≠ [] := by
  rintro rfl
  rcases h with h | h <;> cases h

/-- The value of two words with an operator. -/
theorem cvalue_binary {p : PrimSpec.Platform} {M : List (Str × List Lx)} {a b q : Str} (hq : '(' ∉ q ∧ ')' ∉ q ∧ '-' ∉ q ∧ '~' ∉ q) (hne : q ≠ [])
    {ty : Nat × Bool} {v : Int} (h : CValue p M ([.punct '('] ++ [.word a] ++ q.map .punct ++ [.word b] ++ [.punct ')']) ty v) :
    ∃ (t u : Nat × Bool) (x y z : Nat), CValue p M [.word a] t x ∧ CValue p M [.word b] u y ∧ v = z ∧
      ((cOp x y q = some z ∧ IntSpec.Holds (common t u) z) ∨ (cShift x y q = some z ∧ IntSpec.Holds t z)) := by
  have hlast : ∀ {xs ys : List Lx}, [Lx.punct '('] ++ xs ++ [.punct ')'] = [Lx.punct '('] ++ ys ++ [.punct ')'] → xs = ys := by
    intro xs ys h
    simpa using h
  generalize hts : [Lx.punct '('] ++ [.word a] ++ q.map .punct ++ [.word b] ++ [.punct ')'] = ts at h
  have hts' : [Lx.punct '('] ++ (.word a :: (q.map .punct ++ [.word b])) ++ [.punct ')'] = ts := by rw [← hts]; simp
  cases h with
  | const => simp at hts
  | yes => simp at hts
  | no => simp at hts
  | limit => simp at hts
  | «macro» => simp at hts
  | neg => simp at hts
  | not => simp at hts
  | cast =>
    cases q with
    | nil => exact absurd rfl hne
    | cons k q =>
      simp only [List.map_cons, List.cons_append, List.nil_append, List.cons.injEq, Lx.punct.injEq, true_and] at hts
      exact absurd hts.2.1 (by rintro rfl; exact hq.2.1 (by simp))
  | @op ts us t u o x y z h1 h2 h3 h4 =>
    have : ts ++ (o.map .punct ++ us) = .word a :: (q.map .punct ++ [.word b]) := by
      refine (hlast ?_).symm
      rw [hts']
      simp
    obtain ⟨rfl, rfl, rfl⟩ := split_binary h1 h2 (operator_text (.inl h3)) hq this
    exact ⟨t, u, x, y, z, h1, h2, rfl, .inl ⟨h3, h4⟩⟩
  | @shift ts us t u o x y z h1 h2 h5 h3 h4 =>
    have : ts ++ (o.map .punct ++ us) = .word a :: (q.map .punct ++ [.word b]) := by
      refine (hlast ?_).symm
      rw [hts']
      simp
    obtain ⟨rfl, rfl, rfl⟩ := split_binary h1 h2 (operator_text (.inr h3)) hq this
    exact ⟨_, u, x, y, z, h1, h2, rfl, .inr ⟨h3, h4⟩⟩

/-- The value of one word that is neither a macro nor known otherwise. -/
theorem cvalue_word {p : PrimSpec.Platform} {M : List (Str × List Lx)} {w : Str} {ty : Nat × Bool} {v : Int} (h : CValue p M [.word w] ty v)
    (hM : (M.all fun m => m.1 != w) = true) (hk : w ∉ c!"true" :: c!"false" :: cLimits.map (·.1)) :
    ∃ n s, IntSpec.IsConstant w n s ∧ IntSpec.constType p n s = some ty ∧ v = n := by
  generalize hts : [Lx.word w] = ts at h
  cases h with
  | const h1 h2 => cases hts; exact ⟨_, _, h1, h2, rfl⟩
  | yes => cases hts; simp at hk
  | no => cases hts; simp at hk
  | limit hl =>
    cases hts
    have := List.mem_map_of_mem (f := (·.1)) hl
    exact absurd (List.mem_cons_of_mem _ (List.mem_cons_of_mem _ this)) hk
  | «macro» hm =>
    cases hts
    have := List.all_eq_true.1 hM _ hm
    simp at this
  | neg => simp at hts
  | not => simp at hts
  | cast => simp at hts
  | op => simp at hts
  | shift => simp at hts

/-- A number without a suffix. -/
theorem constant_digits {p : PrimSpec.Platform} {w : Str} {n : Nat} {s : Str} {ty : Nat × Bool} (hw : ∀ c ∈ w, c.isDigit = true)
    (h : IntSpec.IsConstant w n s) (ht : IntSpec.constType p n s = some ty) :
    n = w.foldl (fun a c => 10 * a + (c.toNat - '0'.toNat)) 0 ∧ s = [] := by
  obtain ⟨ds, rfl, h1, h2, h3, h4⟩ := h
  have hs : s = [] := by
    unfold IntSpec.constType at ht
    rw [Option.bind_eq_some_iff] at ht
    obtain ⟨ts, hts, _⟩ := ht
    obtain ⟨l₁, l₂, he, _⟩ := List.lookup_eq_some_iff.1 hts
    have : s ∈ [c!"", c!"u", c!"l", c!"ul", c!"ll", c!"ull"] := by
      have := congrArg (List.map (·.1)) he
      simp only [List.map_cons, List.map_nil, List.map_append] at this
      rw [this]
      simp
    cases s with
    | nil => rfl
    | cons c s =>
      have hc := hw c (by simp)
      simp only [List.mem_cons, List.not_mem_nil, or_false] at this
      rcases this with h | h | h | h | h | h <;> cases h <;> exact absurd hc (by decide)
  subst hs
  exact ⟨by rw [List.append_nil]; exact h4.symm, rfl⟩

namespace ConstCases
open SourceCases (pc env R on)

theorem written {k : ConstItem} (hk : k ∈ constants) {w : Str} {ts : List Lx} (h : (constOut env on none k).macros = [(w, ts)]) :
    (w, ts) ∈ (headerOut R env on bindings).macros :=
  header_macro (b := bindings) (fun _ h => by cases h) hk (by rw [h]; simp)

end ConstCases

open ConstCases in
open SourceCases (env R on pc) in
open EnumCases (lc c) in
/-- **C67** is false where an `int` of C is too small: `pub const T: u32 = 1 << 31` becomes a macro without a value where an
`int` has 32 bits. -/
theorem C67_shift_refuted : ∃ tx o ts, Stages pc lc 1 1 inputs c id lib lib₁ ConstCases.bindings ∧
    SrcSpec.Given pc inputs (.const t) [] ∧ t.expr = .binary (.lit (.int 1 [])) .shl (.lit (.int 31 [])) ∧ limitOf t.ty = some (2 ^ 32) ∧
    headerText env ConstCases.bindings = some tx ∧ readHeader R on tx = some o ∧ (c!"T", ts) ∈ o.macros ∧
    ∀ p ty v, p.int = 32 → ¬ CValue p o.macros ts ty v := by
  obtain ⟨tx, ht⟩ := Option.isSome_iff_exists.1 (show (headerText env ConstCases.bindings).isSome = true by decide +kernel)
  refine ⟨tx, _, [.punct '('] ++ [.word c!"1"] ++ c!"<<".map .punct ++ [.word c!"31"] ++ [.punct ')'], stages,
    top (i := .const t) (by simp [items]) (by simp [Hidden, ParserSpec.Ignored, FItem.attrs, t]) (.const (Or.inl rfl) rfl), rfl, rfl, ht,
    C61_header_reads_back bindings_good ht, written (k := tItem) (by simp [constants]) (by decide +kernel), ?_⟩
  intro p ty v hp h
  obtain ⟨t, u, x, y, z, h1, h2, _, h3⟩ := cvalue_binary (by decide) (by decide) h
  obtain ⟨n, s, k1, k2, k3⟩ := cvalue_word h1 (by decide +kernel) (by decide)
  obtain ⟨n', s', j1, j2, j3⟩ := cvalue_word h2 (by decide +kernel) (by decide)
  obtain ⟨k4, rfl⟩ := constant_digits (by decide) k1 k2
  obtain ⟨j4, _⟩ := constant_digits (by decide) j1 j2
  have hn : n = 1 := k4
  have hn' : n' = 31 := j4
  subst hn hn'
  have hx : x = 1 := by omega
  have hy : y = 31 := by omega
  subst hx hy
  have hty : t = (p.int, true) := by
    unfold IntSpec.constType at k2
    simp only [IntSpec.candidates, List.lookup] at k2
    have : IntSpec.Holds (p.int, true) 1 := by rw [hp]; unfold IntSpec.Holds; decide
    simpa [List.find?, this] using k2.symm
  rcases h3 with ⟨h3, _⟩ | ⟨h3, h4⟩
  · cases h3
  · cases h3
    rw [hty, hp] at h4
    exact absurd h4 (by unfold IntSpec.Holds; decide)

open ConstCases in
open SourceCases (env R on pc) in
open EnumCases (lc c) in
/-- **C67** is false where bits are cut off: `pub const U: u8 = 200 << 1` is 144 in Rust, and 400 in C. -/
theorem C67_cut_refuted : ∃ tx o ts, Stages pc lc 1 1 inputs c id lib lib₁ ConstCases.bindings ∧
    SrcSpec.Given pc inputs (.const u) [] ∧ u.expr = .binary (.lit (.int 200 [])) .shl (.lit (.int 1 [])) ∧ limitOf u.ty = some (2 ^ 8) ∧
    headerText env ConstCases.bindings = some tx ∧ readHeader R on tx = some o ∧ (c!"U", ts) ∈ o.macros ∧
    ∀ p, Usual p → ∃ ty, CValue p o.macros ts ty 400 := by
  obtain ⟨tx, ht⟩ := Option.isSome_iff_exists.1 (show (headerText env ConstCases.bindings).isSome = true by decide +kernel)
  refine ⟨tx, _, litToks env uItem.value, stages,
    top (i := .const u) (by simp [items]) (by simp [Hidden, ParserSpec.Ignored, FItem.attrs, u]) (.const (Or.inl rfl) rfl), rfl, rfl, ht,
    C61_header_reads_back bindings_good ht, written (k := uItem) (by simp [constants]) (by decide +kernel), fun p hp => ?_⟩
  have hv : RustValue noConsts (2 ^ 31) u.expr 400 :=
    .small (n := 400) (.shift (x := 200) (k := 1) (.int (by decide)) (.int (by decide)) rfl (by decide) (by decide))
  obtain ⟨l, h1, h2⟩ := value_ok (ord := id) hv
  have : l = uItem.value := by
    have h3 : u.expr.load id = .ok uItem.value := rfl
    rw [h1.load] at h3
    exact Except.ok.inj h3
  subst this
  exact h2 p (headerOut R env on ConstCases.bindings).macros env id hp nofun

open ConstCases in
open SourceCases (env R on pc) in
open EnumCases (lc c) in
/-- **C67** is false for the complement in a type without sign: `pub const X: u32 = !1` is 4294967294 in Rust, and -2 in C. -/
theorem C67_not_refuted : ∃ tx o ts, Stages pc lc 1 1 inputs c id lib lib₁ ConstCases.bindings ∧
    SrcSpec.Given pc inputs (.const x) [] ∧ x.expr = .unary .not (.lit (.int 1 [])) ∧ limitOf x.ty = some (2 ^ 32) ∧
    headerText env ConstCases.bindings = some tx ∧ readHeader R on tx = some o ∧ (c!"X", ts) ∈ o.macros ∧
    ∀ p, Usual p → ∃ ty, CValue p o.macros ts ty (-2) := by
  obtain ⟨tx, ht⟩ := Option.isSome_iff_exists.1 (show (headerText env ConstCases.bindings).isSome = true by decide +kernel)
  refine ⟨tx, _, litToks env xItem.value, stages,
    top (i := .const x) (by simp [items]) (by simp [Hidden, ParserSpec.Ignored, FItem.attrs, x]) (.const (Or.inl rfl) rfl), rfl, rfl, ht,
    C61_header_reads_back bindings_good ht, written (k := xItem) (by simp [constants]) (by decide +kernel), fun p hp => ?_⟩
  have hv : RustValue noConsts (2 ^ 31) x.expr (-(1 : Nat) - 1) := .not (by decide) (by decide) (by decide)
  obtain ⟨l, h1, h2⟩ := value_ok (ord := id) hv
  have : l = xItem.value := by
    have h3 : x.expr.load id = .ok xItem.value := rfl
    rw [h1.load] at h3
    exact Except.ok.inj h3
  subst this
  exact h2 p (headerOut R env on ConstCases.bindings).macros env id hp nofun

open ConstCases in
open SourceCases (env R on pc) in
open EnumCases (lc c) in
/-- **C67** is false for constants that refer to private ones: `const A: u32 = 5; pub const S: u32 = A + 1;` gives a macro `S`
that uses `A`, which the header does not define. -/
theorem C67_private_refuted : ∃ tx o ts, Stages pc lc 1 1 inputs c id lib lib₁ ConstCases.bindings ∧
    SrcSpec.Given pc inputs (.const s) [] ∧ s.expr = .binary (.path [] c!"A" .none) .add (.lit (.int 1 [])) ∧
    headerText env ConstCases.bindings = some tx ∧ readHeader R on tx = some o ∧ (c!"S", ts) ∈ o.macros ∧ Lx.word c!"A" ∈ ts ∧
    (∀ ts', (c!"A", ts') ∉ o.macros) ∧ ∀ p ty v, ¬ CValue p o.macros ts ty v := by
  obtain ⟨tx, ht⟩ := Option.isSome_iff_exists.1 (show (headerText env ConstCases.bindings).isSome = true by decide +kernel)
  have hno : ((headerOut R env on ConstCases.bindings).macros.all fun m => m.1 != c!"A") = true := by decide +kernel
  refine ⟨tx, _, [.punct '('] ++ [.word c!"A"] ++ c!"+".map .punct ++ [.word c!"1"] ++ [.punct ')'], stages,
    top (i := .const s) (by simp [items]) (by simp [Hidden, ParserSpec.Ignored, FItem.attrs, s]) (.const (Or.inl rfl) rfl), rfl, ht,
    C61_header_reads_back bindings_good ht, written (k := sItem) (by simp [constants]) (by decide +kernel), by simp, ?_, ?_⟩
  · intro ts' h
    have := List.all_eq_true.1 hno _ h
    simp at this
  · intro p ty v h
    obtain ⟨t, u, x, y, z, h1, _⟩ := cvalue_binary (by decide) (by decide) h
    obtain ⟨n, s, ⟨ds, k1, k2, k3, _⟩, _⟩ := cvalue_word h1 hno (by decide)
    cases ds with
    | nil => exact k2 rfl
    | cons c ds =>
      have := k3 c (by simp)
      rw [← (List.cons.inj k1).1] at this
      exact absurd this (by decide)

end Cbindgen
