import Verif.Spec.Source
import Verif.Props.Parser

/-!
# The two models of the parser agree

`erase keep` forgets the bodies of items; what is taken and not wanted (`keep`) does not load.  Walking the erased
tree gives the entries of what is taken from the whole one.
-/

namespace Cbindgen
open CfgSpec ParserSpec

/-- The attributes whose condition is that of the item. -/
def Taken.attrs : Taken → List SAttr
  | .fn _ _ _ f => f.attrs
  | .const c => c.attrs
  | .static _ s => s.attrs
  | .struct s => s.attrs
  | .union u => u.attrs
  | .enum e => e.attrs
  | .alias t => t.attrs
  | .bitflags b => b.struct.getD []
  | .assoc _ c => c.attrs

def Taken.entry : Taken → Entry
  | .fn p o _ _ => ⟨.function, o, p⟩
  | .const c => ⟨.constant, none, unraw c.ident⟩
  | .static p _ => ⟨.static, none, p⟩
  | .struct s => ⟨.type, none, unraw s.ident⟩
  | .union u => ⟨.type, none, unraw u.ident⟩
  | .enum e => ⟨.type, none, unraw e.ident⟩
  | .alias t => ⟨.type, none, unraw t.ident⟩
  | .bitflags b => ⟨.type, none, unraw b.name⟩
  | .assoc r c => ⟨.assocConst, some r, unraw c.ident⟩

/-- The guard of what is taken. -/
def Taken.guard (x : Taken × Option Cfg) : Option Cfg := Cfg.append x.2 (loadCfg x.1.attrs)

/-- The entries of what is taken and kept. -/
def Taken.seen (keep : Taken → Bool) (x : Taken × Option Cfg) : List (Entry × Option Cfg) :=
  if keep x.1 then [(x.1.entry, Taken.guard x)] else []

def keepNamed (keep : Taken → Bool) (mk : Str → Taken) : Option Str → Bool
  | some n => keep (mk n)
  | none => false

def eraseFn (keep : Taken → Bool) (owner : Option Str) (f : SynFn) : FnItem :=
  ⟨unraw f.sig.ident, plainAttrs f.attrs, f.sig.abi,
    keepNamed keep (fun n => .fn n owner false f) (fnExportedName (plainAttrs f.attrs) (unraw f.sig.ident))⟩

def eraseForeign (keep : Taken → Bool) (f : SynFn) : FnItem :=
  ⟨unraw f.sig.ident, plainAttrs f.attrs, f.sig.abi, keep (.fn (unraw f.sig.ident) none true f)⟩

def eraseAssoc (keep : Taken → Bool) (root : Option Str) (c : SynConst) : ConstSrc :=
  ⟨unraw c.ident, plainAttrs c.attrs, c.isPub, keepNamed keep (fun r => .assoc r c) root⟩

def eraseType (keep : Bool) (ident : Str) (attrs : List SAttr) : RItem :=
  if keep then .type (unraw ident) (plainAttrs attrs) else .other (plainAttrs attrs)

mutual
def FItem.erase (keep : Taken → Bool) : FItem → RItem
  | .fn f => .fn (eraseFn keep none f)
  | .const c => .const ⟨unraw c.ident, plainAttrs c.attrs, c.isPub, keep (.const c)⟩
  | .static s =>
    .static ⟨unraw s.ident, plainAttrs s.attrs, true,
      keepNamed keep (fun n => .static n s) (staticExportedName (plainAttrs s.attrs) (unraw s.ident))⟩
  | .struct s => eraseType (keep (.struct s)) s.ident s.attrs
  | .union s => eraseType (keep (.union s)) s.ident s.attrs
  | .enum s => eraseType (keep (.enum s)) s.ident s.attrs
  | .alias s => eraseType (keep (.alias s)) s.ident s.attrs
  | .impl attrs plain ty methods consts =>
    .impl (plainAttrs attrs) (implSelf plain ty) (implRoot ty) (methods.map (eraseFn keep (implSelf plain ty)))
      (consts.map (eraseAssoc keep (implRoot ty)))
  | .foreign attrs abi fns => .foreign (plainAttrs attrs) abi (fns.map (eraseForeign keep))
  | .bitflags attrs b =>
    if keep (.bitflags b) then .bitflags (plainAttrs attrs) (some (unraw b.name, plainAttrs (b.struct.getD []))) none []
    else .other (plainAttrs attrs)
  | .mod attrs state items => .mod (plainAttrs attrs) state (FItem.eraseAll keep items)
  | .other attrs => .other (plainAttrs attrs)
def FItem.eraseAll (keep : Taken → Bool) : List FItem → List RItem
  | [] => []
  | i :: is => i.erase keep :: FItem.eraseAll keep is
end

theorem eraseAll_map (keep : Taken → Bool) (is : List FItem) : FItem.eraseAll keep is = is.map (FItem.erase keep) := by
  induction is with
  | nil => rfl
  | cons i is ih => rw [FItem.eraseAll, ih, List.map_cons]

theorem eraseType_attrs (b : Bool) (n : Str) (as : List SAttr) : (eraseType b n as).attrs = plainAttrs as := by
  cases b <;> rfl

theorem erase_attrs (keep : Taken → Bool) (i : FItem) : (i.erase keep).attrs = plainAttrs i.attrs := by
  cases i with
  | bitflags as b => simp only [FItem.erase]; split <;> rfl
  | struct | union | enum | alias => exact eraseType_attrs _ _ _
  | _ => rfl

variable (keep : Taken → Bool) (cfg : ParseConfig) (crate : Str)

theorem erase_fn (m : Option Cfg) (o : Option Str) (f : SynFn) :
    loadFn cfg crate m o (eraseFn keep o f) = (takeFn cfg crate o f).flatMap fun t => Taken.seen keep (t, m) := by
  unfold loadFn takeFn
  cases ht : cfg.topLevel crate with
  | false => rfl
  | true =>
    simp only [Bool.true_eq_false, if_false, eraseFn]
    cases h1 : (f.sig.abi.isOmitted || f.sig.abi.isC || f.sig.abi.isCmse) with
    | false => rfl
    | true =>
      obtain ⟨x, hx⟩ : ∃ x, fnExportedName (plainAttrs f.attrs) (unraw f.sig.ident) = x := ⟨_, rfl⟩
      simp only [hx]
      cases x with
      | none => rfl
      | some n => exact (List.flatMap_singleton _ _).symm

theorem erase_foreign (m : Option Cfg) (fs : List SynFn) :
    loadForeignFns cfg crate m (fs.map (eraseForeign keep)) =
      (takeForeign cfg crate fs).flatMap fun t => Taken.seen keep (t, m) := by
  unfold takeForeign
  cases ht : cfg.topLevel crate with
  | false => cases fs <;> simp [loadForeignFns, ht]
  | true =>
    induction fs with
    | nil => rfl
    | cons f fs ih =>
      simp only [Bool.true_eq_false, if_false] at ih
      simp [loadForeignFns, ht, eraseForeign, Taken.seen, guarded, Taken.entry, Taken.guard, Taken.attrs, loadCfg,
        plainAttrs] at ih ⊢
      rw [ih]

theorem erase_assocs (m : Option Cfg) (r : Str) (cs : List SynConst) :
    loadAssocConsts m r (cs.map (eraseAssoc keep (some r))) =
      (takenConsts cs).flatMap fun c => Taken.seen keep (.assoc r c, m) := by
  induction cs with
  | nil => rfl
  | cons c cs ih =>
    simp only [List.map_cons, loadAssocConsts, takenConsts]
    cases h1 : shouldSkip (plainAttrs c.attrs) with
    | true => simp only [eraseAssoc, h1, if_true]; exact ih
    | false =>
      cases h2 : c.isPub with
      | false => simp [eraseAssoc, h1, h2]
      | true =>
        simp only [eraseAssoc, h1, h2, Bool.false_eq_true, Bool.true_eq_false, if_false, List.flatMap_cons]
        rw [← ih]
        rfl

theorem erase_type (m : Option Cfg) (t : Taken) (n : Str) (as : List SAttr) (he : t.entry = ⟨.type, none, unraw n⟩)
    (ha : t.attrs = as) : loadItem cfg crate m (eraseType (keep t) n as) = Taken.seen keep (t, m) := by
  cases hk : keep t <;> simp [eraseType, Taken.seen, hk, loadItem, he, ha, guarded, Taken.guard, loadCfg, plainAttrs]

theorem erase_item (m : Option Cfg) (i : FItem) :
    loadItem cfg crate m (i.erase keep) = (takeItem cfg crate m i).flatMap (Taken.seen keep) := by
  cases i with
  | fn f => rw [FItem.erase, loadItem, erase_fn, takeItem, List.flatMap_map]
  | const c =>
    simp only [FItem.erase, loadItem, takeItem]
    cases cfg.topLevel crate <;> cases c.isPub <;>
      simp [Taken.seen, guarded, Taken.entry, Taken.guard, Taken.attrs, loadCfg, plainAttrs]
  | static s =>
    simp only [FItem.erase, loadItem, takeItem, takeStatic]
    cases cfg.topLevel crate with
    | false => rfl
    | true =>
      cases staticExportedName (plainAttrs s.attrs) (unraw s.ident) with
      | none => rfl
      | some n => exact (List.flatMap_singleton _ _).symm
  | struct s => exact (erase_type keep cfg crate m (.struct s) s.ident s.attrs rfl rfl).trans (List.flatMap_singleton _ _).symm
  | union s => exact (erase_type keep cfg crate m (.union s) s.ident s.attrs rfl rfl).trans (List.flatMap_singleton _ _).symm
  | enum s => exact (erase_type keep cfg crate m (.enum s) s.ident s.attrs rfl rfl).trans (List.flatMap_singleton _ _).symm
  | alias s => exact (erase_type keep cfg crate m (.alias s) s.ident s.attrs rfl rfl).trans (List.flatMap_singleton _ _).symm
  | impl as p ty ms cs =>
    simp only [FItem.erase, loadItem, takeItem]
    cases implSelf p ty with
    | none => rfl
    | some s =>
      simp only [loadMethods, takeMethods, List.flatMap_map, List.filter_map]
      rw [show (fun m : FnItem => decide (shouldSkip m.attrs = false)) ∘ eraseFn keep (some s) =
        fun m => decide (shouldSkip (plainAttrs m.attrs) = false) from rfl]
      simp only [List.flatMap_assoc, erase_fn]
  | foreign as abi fs =>
    simp only [FItem.erase, loadItem, takeItem]
    by_cases h : abi.isC = false ∧ abi.isOmitted = false
    · rw [if_pos h, if_pos h]; rfl
    · rw [if_neg h, if_neg h, erase_foreign, List.flatMap_map]; rfl
  | bitflags as b =>
    simp only [FItem.erase, takeItem]
    cases hk : keep (.bitflags b) <;> cases he : cfg.expandBitflags <;>
      simp [loadItem, he, hk, Taken.seen, guarded, Taken.entry, Taken.guard, Taken.attrs, loadCfg, plainAttrs,
        loadImplConsts]
  | mod as s is => rfl
  | other as => rfl

theorem erase_late (m : Option Cfg) (i : FItem) :
    loadLate m (i.erase keep) = (takeLate m i).flatMap (Taken.seen keep) := by
  cases i with
  | impl as p ty ms cs =>
    simp only [FItem.erase, loadLate, takeLate, takeAssocs, loadImplConsts]
    cases implRoot ty with
    | none => rfl
    | some r => simp only [List.map_map, List.flatMap_map]; rw [erase_assocs]; rfl
  | bitflags as b => simp only [FItem.erase]; split <;> rfl
  | struct s => simp only [FItem.erase, eraseType]; split <;> rfl
  | union s => simp only [FItem.erase, eraseType]; split <;> rfl
  | enum s => simp only [FItem.erase, eraseType]; split <;> rfl
  | alias s => simp only [FItem.erase, eraseType]; split <;> rfl
  | _ => rfl

theorem erase_kept (is : List FItem) : notSkipped (FItem.eraseAll keep is) = (keptItems is).map (FItem.erase keep) := by
  rw [eraseAll_map]
  simp only [notSkipped, keptItems, List.filter_map]
  congr 1
  apply List.filter_congr
  intro i _
  simp [erase_attrs]

theorem erase_mod (m : Option Cfg) (is : List FItem) :
    loadMod cfg crate m (FItem.eraseAll keep is) = (takeMod cfg crate m is).flatMap (Taken.seen keep) := by
  simp only [loadMod, takeMod, erase_kept, List.flatMap_append, List.flatMap_map, List.flatMap_assoc, erase_item, erase_late]

/-- A state of the parser on the whole tree and one on the erased tree. -/
structure Sim (f : FState) (p : PState) : Prop where
  parsed : p.parsed = f.parsed
  stack : p.stack = f.stack
  out : p.out = f.out.flatMap (Taken.seen keep)

/-- Both runs end in the same way. -/
inductive SimRes : Except PErr FState → Except PErr PState → Prop
  | ok {f p} : Sim keep f p → SimRes (.ok f) (.ok p)
  | error (e) : SimRes (.error e) (.error e)

variable {keep}

theorem Sim.push {f : FState} {p : PState} (h : Sim keep f p) (c : Option Cfg) : Sim keep (f.push c) (p.push c) := by
  cases c with
  | none => exact h
  | some c => exact ⟨h.parsed, by simp [FState.push, PState.push, h.stack], h.out⟩

theorem Sim.pop {f : FState} {p : PState} (h : Sim keep f p) (c : Option Cfg) : Sim keep (f.pop c) (p.pop c) := by
  cases c with
  | none => exact h
  | some c => exact ⟨h.parsed, by simp [FState.pop, PState.pop, h.stack], h.out⟩

theorem Sim.enter {f : FState} {p : PState} (h : Sim keep f p) (is : List FItem) :
    Sim keep (walkEnter cfg crate f is) (enterMod cfg crate p (FItem.eraseAll keep is)) :=
  ⟨h.parsed, h.stack, by simp only [walkEnter, enterMod, erase_mod, h.out, h.stack, List.flatMap_append]⟩

mutual
theorem sim_nested : ∀ (is : List FItem) {f : FState} {p : PState}, Sim keep f p →
    SimRes keep (walkNested cfg crate f is) (processNested cfg crate p (FItem.eraseAll keep is))
  | [], _, _, h => .ok h
  | i :: is, _, _, h => by
    have h1 := sim_one i h
    simp only [walkNested, FItem.eraseAll, processNested]
    generalize walkOne cfg crate _ i = x at h1 ⊢
    generalize processOne cfg crate _ (i.erase keep) = y at h1 ⊢
    cases h1 with
    | ok h1 => exact sim_nested is h1
    | error e => exact .error e
theorem sim_one : ∀ (i : FItem) {f : FState} {p : PState}, Sim keep f p →
    SimRes keep (walkOne cfg crate f i) (processOne cfg crate p (i.erase keep))
  | .mod as .found sub, _, _, h => by
    simp only [walkOne, FItem.erase, processOne]
    cases hs : shouldSkip (plainAttrs as) with
    | true => exact .ok h
    | false =>
      have h1 := sim_nested sub ((h.push (loadCfg as)).enter cfg crate sub)
      simp only [Bool.false_eq_true, if_false]
      change SimRes keep _ (match processNested cfg crate (enterMod cfg crate (PState.push _ (loadCfg as)) _) _ with
        | .ok st' => .ok (st'.pop (loadCfg as))
        | .error e => .error e)
      generalize walkNested cfg crate _ sub = x at h1 ⊢
      generalize processNested cfg crate _ (FItem.eraseAll keep sub) = y at h1 ⊢
      cases h1 with
      | ok h1 => exact .ok (h1.pop _)
      | error e => exact .error e
  | .mod as .broken sub, _, _, h => by
    simp only [walkOne, FItem.erase, processOne]
    cases hs : shouldSkip (plainAttrs as) with
    | true => exact .ok h
    | false => exact .error _
  | .mod as .missing sub, _, _, h => .ok h
  | .fn _, _, _, h => .ok h
  | .const _, _, _, h => .ok h
  | .static _, _, _, h => .ok h
  | .struct s, _, _, h => by simp only [walkOne, FItem.erase, eraseType]; split <;> exact .ok h
  | .union s, _, _, h => by simp only [walkOne, FItem.erase, eraseType]; split <;> exact .ok h
  | .enum s, _, _, h => by simp only [walkOne, FItem.erase, eraseType]; split <;> exact .ok h
  | .alias s, _, _, h => by simp only [walkOne, FItem.erase, eraseType]; split <;> exact .ok h
  | .impl .., _, _, h => .ok h
  | .foreign .., _, _, h => .ok h
  | .bitflags .., _, _, h => by simp only [walkOne, FItem.erase]; split <;> exact .ok h
  | .other _, _, _, h => .ok h
end

theorem sim_mod {f : FState} {p : PState} (h : Sim keep f p) (is : List FItem) :
    SimRes keep (walkMod cfg crate f is) (processMod cfg crate p (FItem.eraseAll keep is)) :=
  sim_nested cfg crate is (h.enter cfg crate is)

def FSource.erase (keep : Taken → Bool) : FSource → Source
  | .missing => .missing
  | .broken => .broken
  | .items is => .items (FItem.eraseAll keep is)

def FWorkspace.erase (keep : Taken → Bool) (ws : FWorkspace) : Workspace :=
  ⟨fun p => (ws.source p).erase keep, ws.deps⟩

theorem sim_source (ws : FWorkspace) (q : Pkg) {f : FState} {p : PState} (h : Sim keep f p) :
    SimRes keep (walkSource cfg ws q f) (parseSource cfg (ws.erase keep) q p) := by
  simp only [walkSource, parseSource, FWorkspace.erase]
  cases ws.source q with
  | missing => exact .ok h
  | broken => exact .error _
  | items is => exact sim_mod cfg q.name h is

theorem sim_dependency {f : FState} {p : PState} (h : Sim keep f p) (n : Str) :
    shouldParseDependency cfg p n = walkDependency cfg f n := by
  simp [walkDependency, shouldParseDependency, h.parsed]

theorem sim_deps {fp : Pkg → FState → Except PErr FState} {pp : Pkg → PState → Except PErr PState}
    (hp : ∀ q {f : FState} {p : PState}, Sim keep f p → SimRes keep (fp q f) (pp q p)) :
    ∀ (ds : List (Pkg × Option Cfg)) {f : FState} {p : PState}, Sim keep f p →
      SimRes keep (walkDeps cfg fp f ds) (loopDeps cfg pp p ds)
  | [], _, _, h => .ok h
  | d :: ds, f, p, h => by
    simp only [walkDeps, loopDeps]
    have h1 : SimRes keep (walkDep cfg fp f d) (stepDep cfg pp p d) := by
      simp only [walkDep, stepDep, sim_dependency cfg h]
      cases walkDependency cfg f d.1.name with
      | false => exact .ok h
      | true =>
        have h2 := hp d.1 (h.push d.2)
        simp only [if_true]
        generalize fp d.1 _ = x at h2 ⊢
        generalize pp d.1 _ = y at h2 ⊢
        cases h2 with
        | ok h2 => exact .ok (h2.pop _)
        | error e => exact .error e
    generalize walkDep cfg fp f d = x at h1 ⊢
    generalize stepDep cfg pp p d = y at h1 ⊢
    cases h1 with
    | ok h1 => exact sim_deps hp ds h1
    | error e => exact .error e

theorem sim_crate (ws : FWorkspace) : ∀ (n : Nat) (q : Pkg) {f : FState} {p : PState}, Sim keep f p →
    SimRes keep (walkCrate cfg ws n q f) (parseCrate cfg (ws.erase keep) n q p)
  | 0, _, _, _, _ => .error _
  | n + 1, q, f, p, h => by
    simp only [walkCrate, parseCrate]
    have h1 := sim_source cfg ws q (f := { f with parsed := q.name :: f.parsed })
      (p := { p with parsed := q.name :: p.parsed, log := p.log ++ [(q, p.stack)] })
      ⟨by simp [h.parsed], h.stack, h.out⟩
    generalize walkSource cfg ws q _ = x at h1 ⊢
    generalize parseSource cfg (ws.erase keep) q _ = y at h1 ⊢
    cases h1 with
    | ok h1 => exact sim_deps cfg (fun q' _ _ h' => sim_crate ws n q' h') (ws.deps q) h1
    | error e => exact .error e

/-! ## What occurs -/

open SrcSpec (conds Hidden Symbol Occurs)

theorem mem_eraseAll {r : RItem} {is : List FItem} : r ∈ FItem.eraseAll keep is ↔ ∃ i ∈ is, i.erase keep = r := by
  rw [eraseAll_map, List.mem_map]

theorem erase_eq_mod {i : FItem} {as : List Attr} {s : FileState} {sub : List RItem} (h : i.erase keep = .mod as s sub) :
    ∃ as' sub', i = .mod as' s sub' ∧ as = plainAttrs as' ∧ sub = FItem.eraseAll keep sub' := by
  cases i with
  | mod as' s' sub' => cases h; exact ⟨_, _, rfl, rfl, rfl⟩
  | struct | union | enum | alias => simp only [FItem.erase, eraseType] at h; split at h <;> cases h
  | bitflags as b => simp only [FItem.erase] at h; split at h <;> cases h
  | _ => cases h

theorem keepNamed_some {mk : Str → Taken} {n : Str} {x : Option Str} (hx : x = some n) :
    keepNamed keep mk x = keep (mk n) := by rw [hx]; rfl

theorem unsafeFineAll_mem {is : List FItem} {i : FItem} (h : SrcSpec.UnsafeFineAll is) (hi : i ∈ is) : SrcSpec.UnsafeFine i := by
  induction is with
  | nil => simp at hi
  | cons x xs ih =>
    cases hi with
    | head => exact h.1
    | tail _ hi => exact ih h.2 hi

theorem plainAll_mem {is : List FItem} {i : FItem} (h : SrcSpec.PlainAll is) (hi : i ∈ is) : SrcSpec.Plain i := by
  induction is with
  | nil => simp at hi
  | cons x xs ih =>
    cases hi with
    | head => exact h.1
    | tail _ hi => exact ih h.2 hi

theorem declares_type {b : Bool} {n : Str} {as : List SAttr} {e : Entry} {cs : List Cfg}
    (h : ParserSpec.Declares cfg crate (eraseType b n as) e cs) :
    b = true ∧ e = ⟨.type, none, unraw n⟩ ∧ cs = conds as := by
  cases b with
  | false => cases h
  | true => cases h; exact ⟨rfl, rfl, rfl⟩

theorem implSelf_some {plain : Bool} {ty : SynTy} {s : Str} (h : implSelf plain ty = some s) :
    plain = true ∧ ∃ n, ty = .path n .none ∧ s = unraw n := by
  unfold implSelf at h
  split at h
  · cases plain <;> simp at h
    exact ⟨rfl, _, rfl, h.symm⟩
  · cases h

theorem declares_erase {i : FItem} {e : Entry} {cs : List Cfg} (hu : SrcSpec.UnsafeFine i)
    (hp : SrcSpec.Plain i) (h : ParserSpec.Declares cfg crate (i.erase keep) e cs) :
    ∃ t, SrcSpec.Declares cfg crate i t cs ∧ keep t = true ∧ t.entry = e := by
  cases i with
  | fn f =>
    cases h with
    | @fn _ name h1 h2 h3 h4 =>
      have hn := (fnExportedName_iff _ _ _ hu).mpr h4
      exact ⟨.fn name none false f, .fn h1 h2 h4, by rw [← keepNamed_some (keep := keep) (mk := fun n => .fn n none false f) hn]; exact h3, rfl⟩
  | const c => cases h with | const h1 h2 h3 => exact ⟨.const c, .const h1 h2, h3, rfl⟩
  | static s =>
    cases h with
    | @static _ name h1 h2 h3 =>
      have hn := (staticExportedName_iff _ _ _ hu hp).mpr h3
      exact ⟨.static name s, .static h1 h3, by rw [← keepNamed_some (keep := keep) (mk := fun n => .static n s) hn]; exact h2, rfl⟩
  | struct s => obtain ⟨h1, rfl, rfl⟩ := declares_type cfg crate h; exact ⟨.struct s, .struct, h1, rfl⟩
  | union s => obtain ⟨h1, rfl, rfl⟩ := declares_type cfg crate h; exact ⟨.union s, .union, h1, rfl⟩
  | enum s => obtain ⟨h1, rfl, rfl⟩ := declares_type cfg crate h; exact ⟨.enum s, .enum, h1, rfl⟩
  | alias s => obtain ⟨h1, rfl, rfl⟩ := declares_type cfg crate h; exact ⟨.alias s, .alias, h1, rfl⟩
  | impl as pl ty ms ks =>
    simp only [FItem.erase] at h
    generalize hs : implSelf pl ty = self at h
    generalize hr : implRoot ty = root at h
    cases h with
    | @method _ self root methods consts m name h1 h2 h3 h4 h5 h6 =>
      obtain ⟨f, hf, rfl⟩ := List.mem_map.1 h1
      obtain ⟨rfl, n, rfl, rfl⟩ := implSelf_some hs
      have hn := (fnExportedName_iff _ _ _ (hu f hf)).mpr h6
      exact ⟨.fn name (some (unraw n)) false f, .method hf h2 h3 h4 h6,
        by rw [← keepNamed_some (keep := keep) (mk := fun k => .fn k (some (unraw n)) false f) hn]; exact h5, rfl⟩
    | assocConst h1 h2 h3 h4 =>
      obtain ⟨k, hk, rfl⟩ := List.mem_map.1 h1
      exact ⟨.assoc _ k, .assoc hr hk h2 h3, h4, rfl⟩
  | foreign as abi fs =>
    cases h with
    | foreign h1 h2 h3 h4 h5 =>
      obtain ⟨f, hf, rfl⟩ := List.mem_map.1 h2
      exact ⟨.fn _ none true f, .foreign h1 hf h3 h4, h5, rfl⟩
  | bitflags as b =>
    simp only [FItem.erase] at h
    split at h
    · rename_i hk
      cases h with
      | flagsStruct h1 => exact ⟨.bitflags b, .flags h1, hk, rfl⟩
    · cases h
  | mod => cases h
  | other => cases h

theorem erase_declares {i : FItem} {t : Taken} {cs : List Cfg} (hu : SrcSpec.UnsafeFine i) (hp : SrcSpec.Plain i)
    (h : SrcSpec.Declares cfg crate i t cs) (hk : keep t = true) :
    ParserSpec.Declares cfg crate (i.erase keep) t.entry cs := by
  cases h with
  | @fn f name h1 h2 h3 =>
    refine .fn h1 h2 ?_ h3
    exact (keepNamed_some ((fnExportedName_iff _ _ _ hu).mpr h3)).trans hk
  | @method attrs self methods consts m name h1 h2 h3 h4 h5 =>
    refine .method (m := eraseFn keep (some (unraw self)) m) (List.mem_map.2 ⟨m, h1, rfl⟩) h2 h3 h4 ?_ h5
    exact (keepNamed_some ((fnExportedName_iff _ _ _ (hu m h1)).mpr h5)).trans hk
  | @foreign attrs abi fns f h1 h2 h3 h4 =>
    exact .foreign (f := eraseForeign keep f) h1 (List.mem_map.2 ⟨f, h2, rfl⟩) h3 h4 hk
  | @const k h1 h2 => exact .const (c := ⟨unraw k.ident, plainAttrs k.attrs, k.isPub, keep (.const k)⟩) h1 h2 hk
  | @static s name h1 h2 =>
    refine .static h1 ?_ h2
    exact (keepNamed_some ((staticExportedName_iff _ _ _ hu hp).mpr h2)).trans hk
  | struct => simp only [FItem.erase, eraseType, hk, if_true]; exact .type
  | union => simp only [FItem.erase, eraseType, hk, if_true]; exact .type
  | enum => simp only [FItem.erase, eraseType, hk, if_true]; exact .type
  | alias => simp only [FItem.erase, eraseType, hk, if_true]; exact .type
  | @assoc attrs plain ty methods consts k root h1 h2 h3 h4 =>
    simp only [FItem.erase, h1]
    exact .assocConst (c := eraseAssoc keep (some root) k) (List.mem_map.2 ⟨k, h2, rfl⟩) h3 h4 hk
  | @flags attrs b h1 => simp only [FItem.erase, hk, if_true]; exact .flagsStruct h1

theorem inMod_occurs {rs : List RItem} {e : Entry} {cs : List Cfg} (h : InMod cfg crate rs e cs) :
    ∀ {is : List FItem}, rs = FItem.eraseAll keep is → SrcSpec.UnsafeFineAll is → SrcSpec.PlainAll is →
      ∃ t, Occurs cfg crate is t cs ∧ keep t = true ∧ t.entry = e := by
  induction h with
  | here hr hg hd =>
    rintro is rfl hu hp
    obtain ⟨i, hi, rfl⟩ := mem_eraseAll.1 hr
    obtain ⟨t, h1, h2⟩ := declares_erase cfg crate (unsafeFineAll_mem hu hi) (plainAll_mem hp hi) hd
    exact ⟨t, .here hi (by rw [erase_attrs] at hg; exact hg) h1, h2⟩
  | nested hr hg _ ih =>
    rintro is rfl hu hp
    obtain ⟨i, hi, he⟩ := mem_eraseAll.1 hr
    obtain ⟨as, sub, rfl, rfl, rfl⟩ := erase_eq_mod he
    obtain ⟨t, h1, h2⟩ := ih rfl (unsafeFineAll_mem hu hi) (plainAll_mem hp hi)
    exact ⟨t, .nested hi hg h1, h2⟩

theorem occurs_inMod {is : List FItem} {t : Taken} {cs : List Cfg} (h : Occurs cfg crate is t cs) (hk : keep t = true)
    (hu : SrcSpec.UnsafeFineAll is) (hp : SrcSpec.PlainAll is) : InMod cfg crate (FItem.eraseAll keep is) t.entry cs := by
  induction h with
  | here hi hg hd =>
    exact .here (mem_eraseAll.2 ⟨_, hi, rfl⟩) (by rw [erase_attrs]; exact hg)
      (erase_declares cfg crate (unsafeFineAll_mem hu hi) (plainAll_mem hp hi) hd hk)
  | nested hi hg _ ih =>
    exact .nested (mem_eraseAll.2 ⟨_, hi, rfl⟩) hg (ih hk (unsafeFineAll_mem hu hi) (plainAll_mem hp hi))

mutual
theorem regular_erase : ∀ (i : FItem), SrcSpec.Plain i → Regular (i.erase keep)
  | .impl as pl ty ms ks, h => ⟨h.1, fun c hc => by obtain ⟨k, hk, rfl⟩ := List.mem_map.1 hc; exact h.2 k hk⟩
  | .bitflags as b, h => by
    simp only [FItem.erase]
    split
    · exact ⟨h, by simp⟩
    · trivial
  | .foreign as abi fs, h => fun f hf => by obtain ⟨k, hk, rfl⟩ := List.mem_map.1 hf; exact h k hk
  | .static s, h => h
  | .mod as st sub, h => regularAll_erase sub h
  | .fn _, _ => trivial
  | .const _, _ => trivial
  | .other _, _ => trivial
  | .struct s, _ => by simp only [FItem.erase, eraseType]; split <;> trivial
  | .union s, _ => by simp only [FItem.erase, eraseType]; split <;> trivial
  | .enum s, _ => by simp only [FItem.erase, eraseType]; split <;> trivial
  | .alias s, _ => by simp only [FItem.erase, eraseType]; split <;> trivial
theorem regularAll_erase : ∀ (is : List FItem), SrcSpec.PlainAll is → RegularAll (FItem.eraseAll keep is)
  | [], _ => trivial
  | i :: is, h => ⟨regular_erase i h.1, regularAll_erase is h.2⟩
end

mutual
theorem wf_erase : ∀ (i : FItem), SrcSpec.UnsafeFine i → WfUnsafe (i.erase keep)
  | .fn _, h => h
  | .static _, h => h
  | .impl as pl ty ms ks, h => fun m hm => by obtain ⟨k, hk, rfl⟩ := List.mem_map.1 hm; exact h k hk
  | .mod as st sub, h => wfAll_erase sub h
  | .bitflags as b, _ => by simp only [FItem.erase]; split <;> trivial
  | .foreign .., _ => trivial
  | .const _, _ => trivial
  | .other _, _ => trivial
  | .struct s, _ => by simp only [FItem.erase, eraseType]; split <;> trivial
  | .union s, _ => by simp only [FItem.erase, eraseType]; split <;> trivial
  | .enum s, _ => by simp only [FItem.erase, eraseType]; split <;> trivial
  | .alias s, _ => by simp only [FItem.erase, eraseType]; split <;> trivial
theorem wfAll_erase : ∀ (is : List FItem), SrcSpec.UnsafeFineAll is → WfUnsafeAll (FItem.eraseAll keep is)
  | [], _ => trivial
  | i :: is, h => ⟨wf_erase i h.1, wfAll_erase is h.2⟩
end

theorem reaches_iff {ws : FWorkspace} {root p : Pkg} {cs : List Cfg} :
    SrcSpec.Reaches cfg ws root p cs ↔ CratePath cfg (ws.erase keep) root p cs := by
  constructor
  · intro h
    induction h with
    | root => exact .root
    | dep _ h1 h2 ih => exact .dep ih h1 h2
  · intro h
    induction h with
    | root => exact .root
    | dep _ h1 h2 ih => exact .dep ih h1 h2

/-! ## What a run takes -/

/-- The entry of `t` alone is kept. -/
noncomputable def only (t : Taken) : Taken → Bool := fun u => @decide (u = t) (Classical.propDecidable _)

theorem only_iff {t u : Taken} : only t u = true ↔ u = t := by simp [only]

theorem mem_seen {t : Taken} {e : Entry} {g : Option Cfg} {out : List (Taken × Option Cfg)} :
    (e, g) ∈ out.flatMap (Taken.seen (only t)) ↔ ∃ m, (t, m) ∈ out ∧ e = t.entry ∧ g = Taken.guard (t, m) := by
  simp only [List.mem_flatMap, Taken.seen]
  constructor
  · rintro ⟨⟨u, m⟩, h1, h2⟩
    split at h2
    · rename_i hk
      obtain rfl := only_iff.1 hk
      simp only [List.mem_singleton, Prod.mk.injEq] at h2
      exact ⟨m, h1, h2⟩
    · simp at h2
  · rintro ⟨m, h1, rfl, rfl⟩
    refine ⟨(t, m), h1, ?_⟩
    rw [if_pos (only_iff.2 rfl)]
    simp

/-- A run on the files of one module. -/
theorem walkMod_sound {is : List FItem} {st : FState} (h : walkMod cfg crate {} is = .ok st)
    (hp : SrcSpec.PlainAll is) (hu : SrcSpec.UnsafeFineAll is) {t : Taken} {m : Option Cfg} (ht : (t, m) ∈ st.out) :
    ∃ cs, Occurs cfg crate is t cs ∧ GuardIs (Taken.guard (t, m)) cs := by
  have hs := sim_mod cfg crate (keep := only t) (f := {}) (p := {}) ⟨rfl, rfl, rfl⟩ is
  rw [h] at hs
  generalize hy : processMod cfg crate {} (FItem.eraseAll (only t) is) = y at hs
  cases hs with
  | @ok _ p hs =>
    have he : (t.entry, Taken.guard (t, m)) ∈ p.out := by rw [hs.out]; exact mem_seen.2 ⟨m, ht, rfl, rfl⟩
    rw [processMod_eq _ _ _ _ _ hy] at he
    obtain ⟨cs, h1, h2⟩ := mod_sound cfg crate _ [] _ _ (regularAll_erase is hp) (wfAll_erase is hu) he
    obtain ⟨u, h3, h4, -⟩ := inMod_occurs cfg crate h1 rfl hu hp
    rw [only_iff] at h4
    subst h4
    exact ⟨cs, h3, by simpa using h2⟩

theorem walkMod_complete {is : List FItem} {st : FState} (h : walkMod cfg crate {} is = .ok st)
    (hp : SrcSpec.PlainAll is) (hu : SrcSpec.UnsafeFineAll is) {t : Taken} {cs : List Cfg} (ht : Occurs cfg crate is t cs) :
    ∃ m, (t, m) ∈ st.out ∧ GuardIs (Taken.guard (t, m)) cs := by
  have hs := sim_mod cfg crate (keep := only t) (f := {}) (p := {}) ⟨rfl, rfl, rfl⟩ is
  rw [h] at hs
  generalize hy : processMod cfg crate {} (FItem.eraseAll (only t) is) = y at hs
  cases hs with
  | @ok _ p hs =>
    have hi := occurs_inMod cfg crate ht (only_iff.2 rfl) hu hp
    obtain ⟨g, h1, h2⟩ := mod_complete cfg crate _ _ _ hi [] (regularAll_erase is hp) (wfAll_erase is hu)
    have he : (t.entry, g) ∈ p.out := by rw [processMod_eq _ _ _ _ _ hy]; exact h1
    rw [hs.out] at he
    obtain ⟨m, h3, -, rfl⟩ := mem_seen.1 he
    exact ⟨m, h3, by simpa using h2⟩

/-- All sources of a workspace avoid the known deviations. -/
def SourcesPlain (ws : FWorkspace) : Prop :=
  ∀ p is, ws.source p = .items is → SrcSpec.PlainAll is ∧ SrcSpec.UnsafeFineAll is

theorem sourcesRegular_erase {ws : FWorkspace} (h : SourcesPlain ws) : SourcesRegular (ws.erase keep) := by
  intro p rs hs
  simp only [FWorkspace.erase] at hs
  cases hx : ws.source p with
  | items is =>
    rw [hx] at hs
    cases hs
    exact ⟨regularAll_erase is (h p is hx).1, wfAll_erase is (h p is hx).2⟩
  | missing => rw [hx] at hs; cases hs
  | broken => rw [hx] at hs; cases hs

theorem walkCrate_sound {ws : FWorkspace} {fuel : Nat} {root : Pkg} {st : FState}
    (h : walkCrate cfg ws fuel root {} = .ok st) (hr : SourcesPlain ws) {t : Taken} {m : Option Cfg} (ht : (t, m) ∈ st.out) :
    ∃ p edges is cs, SrcSpec.Reaches cfg ws root p edges ∧ ws.source p = .items is ∧ Occurs cfg p.name is t cs ∧
      GuardIs (Taken.guard (t, m)) (edges ++ cs) := by
  have hs := sim_crate cfg (keep := only t) (f := {}) (p := {}) ws fuel root ⟨rfl, rfl, rfl⟩
  rw [h] at hs
  generalize hy : parseCrate cfg (ws.erase (only t)) fuel root {} = y at hs
  cases hs with
  | @ok _ p hs =>
    have he : (t.entry, Taken.guard (t, m)) ∈ p.out := by rw [hs.out]; exact mem_seen.2 ⟨m, ht, rfl, rfl⟩
    obtain ⟨q, edges, rs, cs, h1, h2, h3, h4⟩ := C06_guard_partial hy (sourcesRegular_erase hr) _ _ he
    cases hx : ws.source q with
    | items is =>
      have h2' : (FItem.eraseAll (only t) is) = rs := by simpa [FWorkspace.erase, hx, FSource.erase] using h2
      obtain ⟨u, h5, h6, -⟩ := inMod_occurs cfg q.name h3 h2'.symm (hr q is hx).2 (hr q is hx).1
      rw [only_iff] at h6
      subst h6
      exact ⟨q, edges, is, cs, (reaches_iff cfg).2 h1, hx, h5, h4⟩
    | missing => simp [FWorkspace.erase, hx, FSource.erase] at h2
    | broken => simp [FWorkspace.erase, hx, FSource.erase] at h2

theorem walkCrate_complete {ws : FWorkspace} {fuel : Nat} {root : Pkg} {st : FState}
    (h : walkCrate cfg ws fuel root {} = .ok st) (hr : SourcesPlain ws)
    (hn : ∀ p q cs cs', SrcSpec.Reaches cfg ws root p cs → SrcSpec.Reaches cfg ws root q cs' → p.name = q.name → p = q)
    {p : Pkg} {edges : List Cfg} {is : List FItem} {t : Taken} {cs : List Cfg} (hp : SrcSpec.Reaches cfg ws root p edges)
    (hx : ws.source p = .items is) (ht : Occurs cfg p.name is t cs) :
    ∃ edges' m, SrcSpec.Reaches cfg ws root p edges' ∧ (t, m) ∈ st.out ∧ GuardIs (Taken.guard (t, m)) (edges' ++ cs) := by
  have hs := sim_crate cfg (keep := only t) (f := {}) (p := {}) ws fuel root ⟨rfl, rfl, rfl⟩
  rw [h] at hs
  generalize hy : parseCrate cfg (ws.erase (only t)) fuel root {} = y at hs
  cases hs with
  | @ok _ q hs =>
    have hi := occurs_inMod cfg p.name ht (only_iff.2 rfl) (hr p is hx).2 (hr p is hx).1
    obtain ⟨edges', g, h1, h2, h3⟩ := C06_complete_partial hy (sourcesRegular_erase hr)
      (fun p q cs cs' h1 h2 => hn p q cs cs' ((reaches_iff cfg).2 h1) ((reaches_iff cfg).2 h2)) p edges
      ((reaches_iff cfg).1 hp) (FItem.eraseAll (only t) is) (by simp [FWorkspace.erase, hx, FSource.erase]) _ _ hi
    rw [hs.out] at h2
    obtain ⟨m, h4, -, rfl⟩ := mem_seen.1 h2
    exact ⟨edges', m, (reaches_iff cfg).2 h1, h4, h3⟩

end Cbindgen
