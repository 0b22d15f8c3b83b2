import Verif.Lemmas.Scope

/-!
# What the declarations of an item need (C62)
-/

namespace Cbindgen.ScopeSpec
open LexSpec CSpec HeadSpec

/-- Users give no blocks of code with declarations. -/
structure NoBlocks (R : Dialect) (on : Str → Bool) (c : OutConfig) : Prop where
  header : (blockOut R on c.header).items = []
  autogen : (blockOut R on c.autogenWarning).items = []
  after : (blockOut R on c.afterIncludes).items = []
  trailer : (blockOut R on c.trailer).items = []
  pre : ∀ p, (blockOut R on (c.preBodyOf p)).items = []
  post : ∀ p, (blockOut R on (c.postBodyOf p)).items = []

/-- Items of C are not generic, and only the structs of variants start with a tag; these have no condition of their
own. -/
def Shaped (c : OutConfig) : Container → Prop
  | .struct x => x.genericParams = [] ∧ x.hasTagField = false
  | .union x => x.genericParams = []
  | .typedef x => x.genericParams = []
  | .opaque _ => True
  | .enum x => ∀ v ∈ x.variants, ∀ m b i ic, v.body = .body m b i ic → b.genericParams = [] ∧ b.cfg = none ∧
      (b.hasTagField = true → (x.size c).isSome = true ∧ ∃ f fs p, b.fields = f :: fs ∧ f.ty = .path p x.tagName [] none)

theorem needs_uses {c : OutConfig} {x : Container} (hx : Shaped c x) {p n : Str} {k : Option DeclKind}
    (h : ItemNeeds x p n k) : LibSpec.ItemUses x p := by
  cases x with
  | struct x =>
    obtain ⟨f, hf, h⟩ := h
    exact .inl ⟨f, hf, h.refers.uses, by simp [LibSpec.IsParam, hx.1]⟩
  | union x =>
    obtain ⟨f, hf, h⟩ := h
    exact ⟨f, hf, h.refers.uses, by simp [LibSpec.IsParam, show x.genericParams = [] from hx]⟩
  | enum x =>
    obtain ⟨_, v, hv, m, b, i, ic, hb, f, hf, h⟩ := h
    exact ⟨v, hv, .inl ⟨m, b, i, ic, hb, .inl ⟨f, hf, h.refers.uses,
      by simp [LibSpec.IsParam, (hx v hv m b i ic hb).1]⟩⟩⟩
  | typedef x => exact ⟨h.refers.uses, by simp [LibSpec.IsParam, show x.genericParams = [] from hx]⟩
  | «opaque» x => exact h

/-! ## Lists of declarations -/

/-- What the declaration needs is declared in `acc`, is needed by the item, or is the name of a primitive type. -/
def Supplied (c : DeclConfig) (x : Container) (acc : List CItem) (d : CItem) : Prop :=
  ∀ u ∈ itemNeeds d, Given acc u ∨ (∃ p, ItemNeeds x p u.2 u.1) ∨ PrimName c u

def Chain (c : DeclConfig) (x : Container) (acc ds : List CItem) : Prop :=
  ∀ before d after, ds = before ++ d :: after → Supplied c x (acc ++ before) d

section
variable {c : DeclConfig} {x : Container}

theorem Given.mono {a b : List CItem} {u : Name} (h : ∀ d ∈ a, d ∈ b) (hg : Given a u) : Given b u := by
  obtain ⟨d, hd, hu⟩ := hg
  exact ⟨d, h d hd, hu⟩

theorem Supplied.mono {a b : List CItem} {d : CItem} (h : ∀ d ∈ a, d ∈ b) (hs : Supplied c x a d) : Supplied c x b d :=
  fun u hu => (hs u hu).imp (Given.mono h) id

theorem chain_nil {acc : List CItem} : Chain c x acc [] := by
  intro before d after h
  simp at h

theorem chain_of {acc ds : List CItem} (h : ∀ d ∈ ds, Supplied c x acc d) : Chain c x acc ds := by
  intro before d after hd
  exact (h d (by simp [hd])).mono fun _ h => List.mem_append_left _ h

theorem chain_one {acc : List CItem} {d : CItem} (h : Supplied c x acc d) : Chain c x acc [d] :=
  chain_of (by simpa using h)

theorem chain_append {acc a b : List CItem} (ha : Chain c x acc a) (hb : Chain c x (acc ++ a) b) :
    Chain c x acc (a ++ b) := by
  intro before d after h
  rw [List.append_eq_append_iff] at h
  rcases h with ⟨w, h1, h2⟩ | ⟨w, h1, h2⟩
  · subst h1
    simpa using hb w d after h2
  · cases w with
    | nil =>
      simp only [List.append_nil, List.nil_append] at h1 h2
      subst h1
      simpa using hb [] d after h2.symm
    | cons y ys =>
      simp only [List.cons_append, List.cons.injEq] at h2
      obtain ⟨rfl, _⟩ := h2
      exact ha before d ys h1

end

/-! ## Items -/

theorem items_outs (os : List Out) : (outs os).items = os.flatMap Out.items := by
  induction os with
  | nil => rfl
  | cons o os ih =>
    show (o ++ outs os).items = _
    simp [Out.append_def, ih]

theorem items_when (b : Bool) (o : Out) : (whenOut b o).items = if b then o.items else [] := by
  cases b <;> simp [whenOut]

theorem items_append (a b : Out) : (a ++ b).items = a.items ++ b.items := by simp [Out.append_def]

theorem not_variable {c : OutConfig} (hc : c.language = .c) (k : ConstItem) : isVariable c k = false := by
  simp [isVariable, hc]

theorem items_const {e : Env} (hc : e.cfg.language = .c) {on : Str → Bool} {s : Option StructItem} {k : ConstItem} :
    (constOut e on s k).items = [] := by
  unfold constOut
  split
  · rfl
  · split
    · rw [items_when]; simp [not_variable hc]
    · rfl

theorem items_assoc {e : Env} (hc : e.cfg.language = .c) {on : Str → Bool} {s : StructItem} : (assocOut e on s).items = [] := by
  rw [assocOut, items_outs]
  simp only [List.flatMap_eq_nil_iff, List.mem_map]
  rintro _ ⟨k, _, rfl⟩
  exact items_const hc

section
variable {R : Dialect} {on : Str → Bool} {e : Env}

theorem record_needs (hn : NoBlocks R on e.cfg) {kind : DeclKind} {attrs : List (Option Str)} {p n : Str}
    {ms : List CItem} : itemNeeds (recordOf R e.cfg on kind attrs p n ms) = itemsNeed ms := by
  simp [recordOf, itemNeeds, hn.pre, hn.post]

theorem struct_items (hc : e.cfg.language = .c) (s : StructItem) :
    (structOut R e on s).items = if shown e.cfg on s.cfg then [structItemOf R e.cfg on s] else [] := by
  simp [structOut, items_when, items_append, items_assoc hc, decls, structDecl_c hc]

theorem alias_needs {n : Str} {t : CTy} {u : Name} (h : u ∈ aliasNeeds n t) : u ∈ needs t := by
  unfold aliasNeeds at h
  split at h
  · split at h
    · simp at h
    · simp only [List.mem_singleton] at h
      subst h
      simp [needs, values]
  · exact h

theorem typedef_supplied (hc : e.cfg.language = .c) {t : TypedefItem} {x : Container} {acc : List CItem}
    (h : ∀ p n k, TyNeeds t.aliased p n k → ItemNeeds x p n k) :
    Supplied e.cfg.toDeclConfig x acc (aliasOf e.cfg t) := by
  intro u hu
  rcases needs_meaning (c := e.cfg.toDeclConfig) hc
    (alias_needs (by simpa only [aliasOf, itemNeeds] using hu)) with ⟨p, hp⟩ | hp
  · exact .inr (.inl ⟨p, h _ _ _ hp⟩)
  · exact .inr (.inr hp)

theorem members_supplied (hc : e.cfg.language = .c) {fs : List Field} {x : Container} {acc : List CItem}
    (h : ∀ f ∈ fs, ∀ p n k, TyNeeds f.ty p n k → Given acc (k, n) ∨ ItemNeeds x p n k) :
    ∀ u ∈ itemsNeed (membersOf e.cfg on fs), Given acc u ∨ (∃ p, ItemNeeds x p u.2 u.1) ∨
      PrimName e.cfg.toDeclConfig u := by
  intro u hu
  rcases membersNeed hc hu with ⟨f, hf, p, hp⟩ | hp
  · rcases h f hf _ _ _ hp with h | h
    · exact .inl h
    · exact .inr (.inl ⟨p, h⟩)
  · exact .inr (.inr hp)

/-! ## Enums -/

/-- The names of the tag enum. -/
theorem tag_given (hc : e.cfg.language = .c) (hcpp : e.cfg.cppCompatibleC = true → on cplusplus = false) (x : EnumItem) :
    ((x.size e.cfg).isSome = true ∨ hasName e.cfg.style = true → Given (tagEnumOut e on x).items (none, x.tagName)) ∧
    ((x.size e.cfg).isSome = true ∨ hasTag e.cfg.style = true → Given (tagEnumOut e on x).items (some .enum, x.tagName)) := by
  have hn : (e.cfg.cppCompatibleC && on cplusplus) = false := by
    cases h : e.cfg.cppCompatibleC
    · rfl
    · simp [hcpp h]
  rw [tagEnumOut, if_neg (by simp [hc])]
  cases hs : x.size e.cfg with
  | none =>
    simp only [decls, Given, List.mem_singleton, exists_eq_left, gives, Option.isSome_none, Bool.false_eq_true, false_or]
    constructor
    · intro h; simp [nameOf, h, hc]
    · intro h; simp [tagOf, h]
  | some p =>
    simp only [hn, Bool.not_false, whenOut, if_true]
    constructor
    · intro _
      exact ⟨_, by simp only [items_append, decls]; exact List.mem_append_right _ (.head _), by simp [gives]⟩
    · intro _
      exact ⟨_, by simp only [items_append, decls]; exact List.mem_append_left _ (.head _), by simp [gives]⟩

theorem size_prim {c : OutConfig} {x : EnumItem} {p : Str} (h : x.size c = some p) :
    PrimName c.toDeclConfig (none, p) := by
  simp only [EnumItem.size, Option.map_eq_some_iff] at h
  obtain ⟨t, _, rfl⟩ := h
  exact ⟨rfl, _, rfl⟩

theorem base_needs {b : Bool} {k : Option DeclKind} {n : Str} {as : List CTyArg} {u : Name}
    (h : u ∈ needs (.base b k n as)) : u = (k, n) := by
  simp only [needs, mentions, values, List.mem_append, List.mem_filter, List.mem_singleton] at h
  grind

/-- What the tag enum needs. -/
theorem tag_chain (hc : e.cfg.language = .c) (x : EnumItem) (y : Container) : Chain e.cfg.toDeclConfig y [] (tagEnumOut e on x).items := by
  rw [tagEnumOut, if_neg (by simp [hc])]
  cases hs : x.size e.cfg with
  | none =>
    refine chain_one fun u hu => ?_
    simp [itemNeeds] at hu
  | some p =>
    have hp := size_prim hs
    simp only [items_append, items_when, decls]
    refine chain_append (chain_one fun u hu => ?_) ?_
    · simp only [itemNeeds] at hu
      split at hu
      · simp only [Option.map_some, Option.getD_some] at hu
        rw [base_needs hu]
        exact .inr (.inr hp)
      · simp at hu
    · by_cases h : (!(e.cfg.cppCompatibleC && on cplusplus)) = true
      · rw [if_pos h]
        refine chain_one fun u hu => ?_
        have hu := alias_needs (by simpa only [itemNeeds] using hu)
        split at hu
        · rw [base_needs hu]
          exact .inl ⟨_, .head _, by simp [gives]⟩
        · rw [base_needs hu]
          exact .inr (.inr hp)
      · rw [if_neg h]
        exact chain_nil

theorem mem_bodies (hc : e.cfg.language = .c) {x : EnumItem} {d : CItem} : d ∈ (outs (x.variants.map (bodyOut R e on))).items ↔
    ∃ v ∈ x.variants, ∃ m b ic, v.body = .body m b false ic ∧ shown e.cfg on v.cfg = true ∧
      shown e.cfg on b.cfg = true ∧ d = structItemOf R e.cfg on b := by
  rw [items_outs, List.mem_flatMap]
  constructor
  · rintro ⟨o, ho, hd⟩
    obtain ⟨v, hv, rfl⟩ := List.mem_map.1 ho
    unfold bodyOut at hd
    split at hd
    · rename_i m b ic hb
      rw [items_when, struct_items hc] at hd
      split at hd
      · split at hd
        · exact ⟨v, hv, m, b, ic, hb, by assumption, by assumption, by simpa using hd⟩
        · simp at hd
      · simp at hd
    · simp at hd
  · rintro ⟨v, hv, m, b, ic, hb, h1, h2, rfl⟩
    exact ⟨_, List.mem_map.2 ⟨v, hv, rfl⟩, by simp [bodyOut, hb, items_when, struct_items hc, h1, h2]⟩

/-- What the fields of a variant need: the tag, and what the enum needs. -/
theorem fields_supplied (hc : e.cfg.language = .c) (hcpp : e.cfg.cppCompatibleC = true → on cplusplus = false) {x : EnumItem}
    (ht : x.tag.isSome = true) (hx : Shaped e.cfg (.enum x)) {v : EnumVariant} (hv : v ∈ x.variants) {m : Str}
    {b : StructItem} {i ic : Bool} (hb : v.body = .body m b i ic) : ∀ f ∈ b.fields, ∀ p n k, TyNeeds f.ty p n k →
      Given (tagEnumOut e on x).items (k, n) ∨ ItemNeeds (.enum x) p n k := by
  intro f hf p n k h
  obtain ⟨_, _, h3⟩ := hx v hv m b i ic hb
  cases htag : b.hasTagField with
  | false => exact .inr ⟨ht, v, hv, m, b, i, ic, hb, f, by simpa [htag] using hf, h⟩
  | true =>
    obtain ⟨hs, f0, fs, q, hfs, hty⟩ := h3 htag
    rw [hfs] at hf
    rcases List.mem_cons.1 hf with rfl | hf
    · left
      have hr := h.refers
      rw [hty] at hr
      cases hr
      exact (tag_given hc hcpp x).1 (.inl hs)
    · exact .inr ⟨ht, v, hv, m, b, i, ic, hb, f, by simpa [htag, hfs] using hf, h⟩

theorem style_some (s : Style) (h : hasName s = false) : hasTag s = true := by
  cases s <;> simp_all [hasTag, hasName]

theorem payload_supplied (hc : e.cfg.language = .c) (hcpp : e.cfg.cppCompatibleC = true → on cplusplus = false)
    {x : EnumItem} (ht : x.tag.isSome = true) (hx : Shaped e.cfg (.enum x)) {u : Name}
    (hu : u ∈ itemsNeed (x.variants.flatMap (payloadOf e.cfg on))) :
    Given ((tagEnumOut e on x).items ++ (outs (x.variants.map (bodyOut R e on))).items) u ∨
      (∃ p, ItemNeeds (.enum x) p u.2 u.1) ∨ PrimName e.cfg.toDeclConfig u := by
  rw [itemsNeed_mem] at hu
  obtain ⟨d, hd, hu⟩ := hu
  obtain ⟨v, hv, hd⟩ := List.mem_flatMap.1 hd
  unfold payloadOf at hd
  split at hd
  · simp at hd
  · rename_i m b i ic hb
    split at hd
    · rename_i hsh
      rw [List.mem_singleton] at hd
      subst hd
      cases i with
      | true =>
        simp only [if_true, itemNeeds] at hu
        exact (members_supplied hc (fields_supplied hc hcpp ht hx hv hb) u hu).imp
          (Given.mono fun _ h => List.mem_append_left _ h) id
      | false =>
        simp only [Bool.false_eq_true, if_false, itemNeeds] at hu
        rw [base_needs hu]
        left
        have hcfg : shown e.cfg on b.cfg = true := by
          rw [(hx v hv m b false ic hb).2.1]; rfl
        refine ⟨_, List.mem_append_right _ ((mem_bodies hc).2 ⟨v, hv, m, b, ic, hb, hsh, hcfg, rfl⟩), ?_⟩
        simp only [structItemOf, recordOf, gives, tagOf, nameOf]
        cases hty : hasName e.cfg.style with
        | true => simp [hc]
        | false => simp [hc, style_some _ hty]
    · simp at hd

theorem enum_chain (hn : NoBlocks R on e.cfg) (hc : e.cfg.language = .c)
    (hcpp : e.cfg.cppCompatibleC = true → on cplusplus = false) {x : EnumItem} (hx : Shaped e.cfg (.enum x)) :
    Chain e.cfg.toDeclConfig (.enum x) [] (enumOut R e on x).items := by
  rw [enumOut, if_neg (fun h => by simp [hc] at h), items_when]
  split
  · rw [items_append]
    refine chain_append (tag_chain hc x _) ?_
    split
    · rename_i ht
      rw [items_append]
      refine chain_append (chain_of fun d hd => ?_) (chain_one fun u hu => ?_)
      · obtain ⟨v, hv, m, b, ic, hb, _, _, rfl⟩ := (mem_bodies hc).1 hd
        intro u hu
        rw [structItemOf, record_needs hn] at hu
        simpa using members_supplied hc (fields_supplied hc hcpp ht hx hv hb) u hu
      · simp only [List.nil_append]
        rw [dataOf, record_needs hn, dataMembers] at hu
        rw [tagPart, if_neg (fun h => by simp [hc] at h)] at hu
        simp only [itemsNeed, List.mem_append] at hu
        rcases hu with hu | hu
        · simp only [tagMember, itemNeeds] at hu
          rw [base_needs hu]
          left
          refine Given.mono (fun _ h => List.mem_append_left _ h) ?_
          have := tag_given hc hcpp x
          cases hs : (x.size e.cfg).isSome with
          | true =>
            have hs' : (x.size e.cfg).isNone = false := by cases h : x.size e.cfg <;> simp_all
            simpa [hc, hs'] using this.1 (.inl hs)
          | false =>
            have hs' : (x.size e.cfg).isNone = true := by cases h : x.size e.cfg <;> simp_all
            cases hty : hasName e.cfg.style with
            | true => simpa [hc, hs', hty] using this.1 (.inr hty)
            | false => simpa [hc, hs', hty] using this.2 (.inr (style_some _ hty))
        · refine payload_supplied hc hcpp ht hx ?_
          split at hu
          · exact hu
          · simpa [itemsNeed, itemNeeds] using hu
    · exact chain_nil
  · exact chain_nil

/-- What an item needs. -/
theorem container_chain (hn : NoBlocks R on e.cfg) (hc : e.cfg.language = .c)
    (hcpp : e.cfg.cppCompatibleC = true → on cplusplus = false) {x : Container} (hx : Shaped e.cfg x) :
    Chain e.cfg.toDeclConfig x [] (containerOut R e on x).items := by
  cases x with
  | enum x => exact enum_chain hn hc hcpp hx
  | struct x =>
    have hf : x.fields.drop (if x.hasTagField then 1 else 0) = x.fields := by simp [hx.2]
    simp only [containerOut]
    split
    · rename_i t ht
      rw [items_append, items_assoc hc, List.append_nil, typedefOut, templated_c hc, items_when]
      split
      · refine chain_one (typedef_supplied hc fun p n k h => ?_)
        unfold StructItem.asTypedef at ht
        split at ht
        · rename_i f fs hfs
          split at ht
          · simp only [Option.some.injEq] at ht
            subst ht
            exact ⟨f, by rw [hf, hfs]; exact .head _, h⟩
          · simp at ht
        · simp at ht
      · exact chain_nil
    · rw [struct_items hc]
      split
      · refine chain_one fun u hu => ?_
        rw [structItemOf, record_needs hn] at hu
        exact members_supplied (x := .struct x) hc (fun f hm p n k h => .inr ⟨f, by rw [hf]; exact hm, h⟩) u hu
      · exact chain_nil
  | union x =>
    rw [containerOut, unionOut, templated_c hc, items_when]
    split
    · refine chain_one fun u hu => ?_
      rw [record_needs hn] at hu
      exact members_supplied (x := .union x) hc (fun f hm p n k h => .inr ⟨f, hm, h⟩) u hu
    · exact chain_nil
  | «opaque» x =>
    rw [containerOut, opaqueOut, templated_c hc, items_when]
    split
    · refine chain_one fun u hu => ?_
      split at hu <;> simp [itemNeeds, aliasNeeds] at hu
    · exact chain_nil
  | typedef x =>
    rw [containerOut, typedefOut, templated_c hc, items_when]
    split
    · exact chain_one (typedef_supplied hc fun p n k h => h)
    · exact chain_nil

end

end Cbindgen.ScopeSpec
