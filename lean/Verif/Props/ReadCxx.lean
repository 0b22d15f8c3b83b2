import Verif.Props.Scope

/-!
# C74: the text of a C++ header reads back

The reader of `Verif.Spec.Header` for C++ knows namespaces, blocks for the linkage of a language, `enum class`, aliases
with `using`, and variables with values.  `Declares` says in which namespaces a declaration is, and whether it has the
linkage of C; that is what a C++ compiler makes of the name.  Not covered: templates, member functions (their meaning is
in C72), constants in the body of a struct, and values that are structs.
-/

namespace Cbindgen
open LexSpec CSpec HeadSpec

namespace HeadSpec

/-- A declaration among others: the namespaces that it is in, the outermost first, and whether it has the linkage of C. -/
inductive Declares : List CItem → List Str → Bool → CItem → Prop
  | here {ds : List CItem} {d : CItem} (h : d ∈ ds) : Declares ds [] false d
  | space {ds inner : List CItem} {n : Str} {ns : List Str} {c : Bool} {d : CItem} (h : .space n inner ∈ ds)
      (hd : Declares inner ns c d) : Declares ds (n :: ns) c d
  | linkage {ds inner : List CItem} {ns : List Str} {c : Bool} {d : CItem} (h : .linkage c!"C" inner ∈ ds)
      (hd : Declares inner ns c d) : Declares ds ns true d

/-- A function, or a variable that is defined elsewhere. -/
def IsObject : CItem → Prop
  | .object .. => True
  | .template _ d => IsObject d
  | _ => False

/-- Not a block with declarations, and not something that is declared in Rust. -/
def IsType : CItem → Prop
  | .object .. => False
  | .linkage .. => False
  | .space .. => False
  | .template _ d => IsType d
  | _ => True

theorem types_templated {c : OutConfig} {b : Bool} {ps : List GParam} {d : CItem} (h : IsType d) : IsType (templated c b ps d) := by
  unfold templated
  split
  · exact h
  · exact h

theorem Declares.mono {a b : List CItem} {ns : List Str} {c : Bool} {d : CItem} (h : ∀ x ∈ a, x ∈ b) (hd : Declares a ns c d) :
    Declares b ns c d := by
  cases hd with
  | here hd => exact .here (h _ hd)
  | space hs hd => exact .space (h _ hs) hd
  | linkage hs hd => exact .linkage (h _ hs) hd

theorem Declares.spaces {o : Out} {c : Bool} {d : CItem} (ns : List Str) (h : Declares o.items [] c d) :
    Declares (spacesOut ns o).items ns c d := by
  induction ns with
  | nil => exact h
  | cons n ns ih => exact .space (List.mem_singleton.2 rfl) ih

theorem mem_outs {o : Out} {os : List Out} (ho : o ∈ os) {d : CItem} (hd : d ∈ o.items) : d ∈ (outs os).items := by
  induction os with
  | nil => cases ho
  | cons x xs ih =>
    show d ∈ (x ++ outs xs).items
    simp only [Out.append_def, List.mem_append]
    rcases List.mem_cons.1 ho with rfl | ho
    · exact .inl hd
    · exact .inr (ih ho)

theorem items_app (a b : Out) : (a ++ b).items = a.items ++ b.items := by simp [Out.append_def]

end HeadSpec

section
variable {R : Dialect} {on : Str → Bool} {D : List Str} {e : Env}

/-- **C74.** The text of a whole C++ header, read where exactly the macros in `on` are defined, gives the items of the
bindings whose conditions hold, in their order, all of them in the namespaces; the functions and variables of Rust are
in one block `extern "C"`.  Nothing but the blocks of code that users give is added.  Missing: defaults of the parameters of
templates, enums with parameters, member functions, constants in bodies, values that are structs. -/
theorem C74_header_reads_back_partial {b : Bindings} (h : CxxHeaderGood R on D e b) {t : Str} (ht : headerText e b = some t) :
    readHeader R on t = some (cxxHeaderOut R e on b) := by
  obtain ⟨ls, h1, h2⟩ := header_toksCxx (wc := e.cfg.writer) h
  simp only [headerText, Option.map_eq_some_iff] at ht
  obtain ⟨⟨t', w'⟩, hx, rfl⟩ := ht
  have hl := lex_of h1 (by decide) hx
  have hr := h2.2 [] [] [] [] rfl Fresh.nil
  have e : run R on {} ls = some ⟨[], none, [⟨(cxxHeaderOut R e on b).items, []⟩], (cxxHeaderOut R e on b).macros,
      (cxxHeaderOut R e on b).includes⟩ := by simpa using hr
  simp [readHeader, hl, e]

/-- **C74.** A second inclusion declares nothing but the blocks that users give for the start and the end of the file,
which are outside the guard. -/
theorem C74_guarded_partial {b : Bindings} (h : CxxHeaderGood R on D e b) {t g : Str} (ht : headerText e b = some t)
    (hg : e.cfg.guard = some g) (hon : on g = true) :
    readHeader R on t = some (blockOut R on e.cfg.header ++ blockOut R on e.cfg.trailer) := by
  rw [C74_header_reads_back_partial h ht]
  simp [cxxHeaderOut, hg, hon, whenOut, Out.append_def]

theorem cxx_first (hf : ∀ g, e.cfg.guard = some g → on g = false) : (e.cfg.guard.all fun g => !on g) = true := by
  cases h : e.cfg.guard with
  | none => rfl
  | some g => simp [hf g h]

theorem cxx_declares {b : Bindings} (hf : ∀ g, e.cfg.guard = some g → on g = false) {ns : List Str} {c : Bool} {d : CItem}
    (h : Declares (cxxBindingsOut R e on b).items ns c d) : Declares (cxxHeaderOut R e on b).items ns c d := by
  refine h.mono fun x hx => ?_
  simp only [cxxHeaderOut, cxx_first hf, whenOut, if_true, items_app, List.mem_append]
  exact .inl (.inr (.inr hx))

/-- The functions and variables of Rust. -/
def linkedOut (e : Env) (on : Str → Bool) (b : Bindings) : Out :=
  outs ((b.globals.filter fun g => g.annotations.shouldExport).map (staticOut e.cfg on)) ++
  outs ((b.functions.filter fun f => f.annotations.shouldExport).map (funcOut e.cfg on))

theorem cxx_linked {b : Bindings} {d : CItem} (hd : d ∈ (linkedOut e on b).items) :
    Declares (cxxBindingsOut R e on b).items (e.cfg.namespace_.toList ++ e.cfg.namespaces.getD []) true d := by
  refine Declares.spaces (o := _ ++ _) _ ?_
  refine .linkage (inner := (linkedOut e on b).items) ?_ (.here hd)
  rw [items_app, List.mem_append]
  right
  have : ¬ (b.functions = [] ∧ b.globals = []) := by
    rintro ⟨h1, h2⟩
    simp [linkedOut, h1, h2, outs, Out.append_def] at hd
  rw [cxxLinkageOut, if_neg this, items_app, List.mem_append]
  exact .inr (List.mem_singleton.2 rfl)

/-- **C74.** A function of the bindings whose condition holds is declared in the namespaces, with the linkage of C: its
name in C++ stands for the symbol that Rust exports. -/
theorem C74_function_linkage_partial {b : Bindings} (h : CxxHeaderGood R on D e b) {t : Str} (ht : headerText e b = some t)
    (hf : ∀ g, e.cfg.guard = some g → on g = false) {f : FuncItem} (hm : f ∈ b.functions)
    (hx : f.annotations.shouldExport = true) (hs : shown e.cfg on f.cfg = true) :
    ∃ o, readHeader R on t = some o ∧
      Declares o.items (e.cfg.namespace_.toList ++ e.cfg.namespaces.getD []) true
        (.object f.externDecl (attrToks (funcAttrs e.cfg f) ++ attrToks (funcPost e.cfg f)) f.path (funcTy e.cfg f).forgetFnPtr []) := by
  refine ⟨_, C74_header_reads_back_partial h ht, cxx_declares hf (cxx_linked ?_)⟩
  rw [linkedOut, items_app, List.mem_append]
  exact .inr (mem_outs (List.mem_map.2 ⟨f, List.mem_filter.2 ⟨hm, hx⟩, rfl⟩) (by simp [funcOut, hs, whenOut, decls]))

/-- **C74.** The same for a variable: it is declared `extern`, with its type. -/
theorem C74_static_linkage_partial {b : Bindings} (h : CxxHeaderGood R on D e b) {t : Str} (ht : headerText e b = some t)
    (hf : ∀ g, e.cfg.guard = some g → on g = false) {s : StaticItem} (hm : s ∈ b.globals)
    (hx : s.annotations.shouldExport = true) (hs : shown e.cfg on s.cfg = true) :
    ∃ o, readHeader R on t = some o ∧
      Declares o.items (e.cfg.namespace_.toList ++ e.cfg.namespaces.getD []) true
        (.object true [] s.exportName (staticTy e.cfg s).forgetFnPtr []) := by
  refine ⟨_, C74_header_reads_back_partial h ht, cxx_declares hf (cxx_linked ?_)⟩
  rw [linkedOut, items_app, List.mem_append]
  exact .inl (mem_outs (List.mem_map.2 ⟨s, List.mem_filter.2 ⟨hm, hx⟩, rfl⟩) (by simp [staticOut, hs, whenOut, decls]))

/-- **C74.** What an item of the bindings declares is in the namespaces. -/
theorem C74_item_space_partial {b : Bindings} (h : CxxHeaderGood R on D e b) {t : Str} (ht : headerText e b = some t)
    (hf : ∀ g, e.cfg.guard = some g → on g = false) {x : Container} (hm : x ∈ b.items)
    (hx : x.annotations.shouldExport = true) {d : CItem} (hd : d ∈ (containerOut R e on x).items) :
    ∃ o, readHeader R on t = some o ∧ Declares o.items (e.cfg.namespace_.toList ++ e.cfg.namespaces.getD []) false d := by
  refine ⟨_, C74_header_reads_back_partial h ht, cxx_declares hf (Declares.spaces (o := _ ++ _) _ (.here ?_))⟩
  simp only [items_app, List.mem_append]
  exact .inl (.inl (.inr (mem_outs (List.mem_map.2 ⟨x, List.mem_filter.2 ⟨hm, hx⟩, rfl⟩) hd)))

/-! ### Nothing else is declared -/

theorem types_outs {os : List Out} (h : ∀ o ∈ os, ∀ d ∈ o.items, IsType d) : ∀ d ∈ (outs os).items, IsType d := by
  induction os with
  | nil => intro d hd; cases hd
  | cons x xs ih =>
    intro d hd
    rw [show outs (x :: xs) = x ++ outs xs from rfl, items_app, List.mem_append] at hd
    rcases hd with hd | hd
    · exact h x (by simp) d hd
    · exact ih (fun o ho => h o (by simp [ho])) d hd

theorem types_when {p : Bool} {o : Out} (h : ∀ d ∈ o.items, IsType d) : ∀ d ∈ (whenOut p o).items, IsType d := by
  cases p
  · intro d hd; cases hd
  · exact h

theorem types_const {s : Option StructItem} {k : ConstItem} : ∀ d ∈ (constOut e on s k).items, IsType d := by
  unfold constOut
  split
  · intro d hd; cases hd
  · split
    · refine types_when ?_
      split
      · intro d hd
        rw [List.mem_singleton.1 hd]; trivial
      · intro d hd; cases hd
    · intro d hd; cases hd

theorem types_assoc {s : StructItem} : ∀ d ∈ (assocOut e on s).items, IsType d :=
  types_outs (by
    intro o ho
    obtain ⟨k, _, rfl⟩ := List.mem_map.1 ho
    exact types_const)

theorem types_one {d : CItem} (h : IsType d) : ∀ x ∈ (decls [d]).items, IsType x := by
  intro x hx
  rw [List.mem_singleton.1 hx]
  exact h

theorem types_append {a b : Out} (ha : ∀ d ∈ a.items, IsType d) (hb : ∀ d ∈ b.items, IsType d) : ∀ d ∈ (a ++ b).items, IsType d := by
  intro d hd
  rw [items_app, List.mem_append] at hd
  exact hd.elim (ha d) (hb d)

theorem types_container (hl : e.cfg.language = .cxx) {x : Container} : ∀ d ∈ (containerOut R e on x).items, IsType d := by
  cases x with
  | enum x =>
    refine types_when ?_
    by_cases hx : x.tag.isSome = true
    · rw [if_pos ⟨hl, hx⟩]
      exact types_one trivial
    · rw [if_neg (fun h => hx h.2), if_neg hx]
      refine types_append ?_ nofun
      rw [tagEnumOut, if_pos hl]
      refine types_one ?_
      unfold cxxTagEnum
      simp only
      split <;> trivial
  | struct x =>
    simp only [containerOut]
    split
    · exact types_append (types_when (types_one (types_templated trivial))) types_assoc
    · refine types_when (types_append (types_one ?_) types_assoc)
      unfold structDecl
      split
      · trivial
      · exact types_templated trivial
  | union x => exact types_when (types_one (types_templated trivial))
  | «opaque» x =>
    refine types_when (types_one (types_templated ?_))
    split <;> trivial
  | typedef x => exact types_when (types_one (types_templated trivial))

theorem type_notObject : ∀ {d : CItem}, IsType d → ¬ IsObject d
  | .template _ d, h, ho => type_notObject (d := d) h ho
  | .object .., h, _ => h
  | .alias .., _, h => h
  | .forward .., _, h => h
  | .record .., _, h => h
  | .enumeration .., _, h => h
  | .enumClass .., _, h => h
  | .constant .., _, h => h
  | .usingSpace .., _, h => h
  | .linkage .., h, _ => h
  | .space .., h, _ => h

theorem types_declares {ds : List CItem} (h : ∀ d ∈ ds, IsType d) {ns : List Str} {c : Bool} {d : CItem} (hd : Declares ds ns c d) :
    ¬ IsObject d := by
  cases hd with
  | here hd => exact type_notObject (h _ hd)
  | space hs _ => exact absurd (h _ hs) nofun
  | linkage hs _ => exact absurd (h _ hs) nofun

theorem declares_append {a b : List CItem} {ns : List Str} {c : Bool} {d : CItem} (h : Declares (a ++ b) ns c d) :
    Declares a ns c d ∨ Declares b ns c d := by
  cases h with
  | here h => exact (List.mem_append.1 h).imp .here .here
  | space h hd => exact (List.mem_append.1 h).imp (.space · hd) (.space · hd)
  | linkage h hd => exact (List.mem_append.1 h).imp (.linkage · hd) (.linkage · hd)

theorem declares_spaces {o : Out} {ns ms : List Str} {c : Bool} {d : CItem} (h : Declares (spacesOut ns o).items ms c d)
    (hd : IsObject d) : ∃ ms', ms = ns ++ ms' ∧ Declares o.items ms' c d := by
  induction ns generalizing ms with
  | nil => exact ⟨ms, rfl, h⟩
  | cons n ns ih =>
    have hs : ∀ x ∈ (spacesOut (n :: ns) o).items, x = .space n (spacesOut ns o).items := fun x hx => List.mem_singleton.1 hx
    cases h with
    | here h => rw [hs _ h] at hd; cases hd
    | linkage h => cases hs _ h
    | space h h' =>
      cases hs _ h
      obtain ⟨ms', rfl, h''⟩ := ih h'
      exact ⟨ms', rfl, h''⟩

theorem linked_objects {b : Bindings} : ∀ d ∈ (linkedOut e on b).items, IsObject d ∧
    ((∃ g ∈ b.globals, g.annotations.shouldExport = true ∧ shown e.cfg on g.cfg = true ∧
        d = .object true [] g.exportName (staticTy e.cfg g).forgetFnPtr []) ∨
      ∃ f ∈ b.functions, f.annotations.shouldExport = true ∧ shown e.cfg on f.cfg = true ∧
        d = .object f.externDecl (attrToks (funcAttrs e.cfg f) ++ attrToks (funcPost e.cfg f)) f.path
          (funcTy e.cfg f).forgetFnPtr []) := by
  intro d hd
  simp only [linkedOut, items_app, ScopeSpec.items_outs, List.mem_append, List.mem_flatMap, List.mem_map, List.mem_filter] at hd
  rcases hd with ⟨_, ⟨g, ⟨hg, hx⟩, rfl⟩, hd⟩ | ⟨_, ⟨g, ⟨hg, hx⟩, rfl⟩, hd⟩
  · rw [staticOut, ScopeSpec.items_when] at hd
    split at hd
    · rename_i hs
      have := List.mem_singleton.1 hd
      exact ⟨by rw [this]; trivial, .inl ⟨g, hg, hx, hs, this⟩⟩
    · cases hd
  · rw [funcOut, ScopeSpec.items_when] at hd
    split at hd
    · rename_i hs
      have := List.mem_singleton.1 hd
      exact ⟨by rw [this]; trivial, .inr ⟨g, hg, hx, hs, this⟩⟩
    · cases hd

theorem declares_linkage {b : Bindings} {ns : List Str} {c : Bool} {d : CItem} (h : Declares (cxxLinkageOut e on b).items ns c d)
    (hobj : IsObject d) : c = true ∧ ns = [] ∧ d ∈ (linkedOut e on b).items := by
  unfold cxxLinkageOut at h
  split at h
  · exact absurd hobj (types_declares (ds := []) nofun h)
  · rw [items_app] at h
    rcases declares_append h with h1 | h1
    · refine absurd hobj (types_declares ?_ h1)
      intro d hd
      obtain ⟨n, _, rfl⟩ := List.mem_map.1 hd
      trivial
    · clear h
      have hs : ∀ x ∈ (aroundOut (.linkage c!"C") (linkedOut e on b)).items, x = .linkage c!"C" (linkedOut e on b).items :=
        fun x hx => List.mem_singleton.1 hx
      cases h1 with
      | here hb => rw [hs _ hb] at hobj; cases hobj
      | space hb _ => cases hs _ hb
      | linkage hb hd' =>
        cases hs _ hb
        cases hd' with
        | here hd' => exact ⟨rfl, rfl, hd'⟩
        | space hb _ => exact absurd (linked_objects _ hb).1 nofun
        | linkage hb _ => exact absurd (linked_objects _ hb).1 nofun

/-- **C74.** The header declares no other functions and variables, and none without the linkage of C or outside the
namespaces, if the blocks of code that users give declare only types. -/
theorem C74_only_partial {b : Bindings} (h : CxxHeaderGood R on D e b) {t : Str} (ht : headerText e b = some t)
    (hn : ∀ k ∈ [e.cfg.header, e.cfg.autogenWarning, e.cfg.afterIncludes, e.cfg.trailer], ∀ d ∈ (blockOut R on k).items, IsType d)
    {o : Out} (hr : readHeader R on t = some o) {ns : List Str} {c : Bool} {d : CItem}
    (hd : Declares o.items ns c d) (hobj : IsObject d) :
    c = true ∧ ns = e.cfg.namespace_.toList ++ e.cfg.namespaces.getD [] ∧
    ((∃ g ∈ b.globals, g.annotations.shouldExport = true ∧ shown e.cfg on g.cfg = true ∧
        d = .object true [] g.exportName (staticTy e.cfg g).forgetFnPtr []) ∨
      ∃ f ∈ b.functions, f.annotations.shouldExport = true ∧ shown e.cfg on f.cfg = true ∧
        d = .object f.externDecl (attrToks (funcAttrs e.cfg f) ++ attrToks (funcPost e.cfg f)) f.path
          (funcTy e.cfg f).forgetFnPtr []) := by
  rw [C74_header_reads_back_partial h ht] at hr
  cases hr
  have hblock : ∀ k ∈ [e.cfg.header, e.cfg.autogenWarning, e.cfg.afterIncludes, e.cfg.trailer],
      ¬ Declares (blockOut R on k).items ns c d := fun k hk h => types_declares (hn k hk) h hobj
  have hnil : ¬ Declares [] ns c d := fun h => types_declares (ds := []) nofun h hobj
  have hb : Declares (cxxBindingsOut R e on b).items ns c d := by
    simp only [cxxHeaderOut, items_app, ScopeSpec.items_when] at hd
    rcases declares_append hd with hd | hd
    · rcases declares_append hd with hd | hd
      · exact absurd hd (hblock _ (by simp))
      · split at hd
        · rcases declares_append hd with hd | hd
          · rcases declares_append hd with hd | hd
            · rcases declares_append hd with hd | hd
              · rcases declares_append hd with hd | hd
                · exact absurd hd hnil
                · exact absurd hd (hblock _ (by simp))
              · exact absurd hd hnil
            · exact absurd hd (hblock _ (by simp))
          · exact hd
        · exact absurd hd hnil
    · exact absurd hd (hblock _ (by simp))
  unfold cxxBindingsOut at hb
  obtain ⟨ms, rfl, hb'⟩ := declares_spaces hb hobj
  revert hb'
  clear hb
  intro hb
  have hconst : ∀ p, ∀ d ∈ (constantsOut e on p b.constants).items, IsType d := fun p => types_outs (by
    intro o ho
    obtain ⟨k, _, rfl⟩ := List.mem_map.1 ho
    exact types_const)
  simp only [items_app] at hb
  rcases declares_append hb with hb | hb
  · rcases declares_append hb with hb | hb
    · rcases declares_append hb with hb | hb
      · exact absurd hobj (types_declares (hconst _) hb)
      · refine absurd hobj (types_declares (types_outs ?_) hb)
        intro o ho
        obtain ⟨k, _, rfl⟩ := List.mem_map.1 ho
        exact types_container h.lang
    · exact absurd hobj (types_declares (hconst _) hb)
  · obtain ⟨rfl, rfl, hm⟩ := declares_linkage hb hobj
    exact ⟨rfl, by simp, (linked_objects d hm).2⟩

end

end Cbindgen
