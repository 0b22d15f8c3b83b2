import Verif.Model.Basic

/-!
# What Rust guarantees about the representation of a type

Independent of the simplification.  Sources: the Rust reference (type layout) and the documentation of
`Option` (representation), `NonNull`, `NonZero`, `Box`, `Cell`, `UnsafeCell`, `ManuallyDrop`, `MaybeUninit`
and `Pin`.

* `Option` has the size of its argument, with zero for `None`, if the argument is a reference, a `Box`, a
  `NonNull`, a function pointer or a `NonZero` integer, or a transparent wrapper that shows the niche of one of
  them.  There is no guarantee for other arguments.
* `Cell`, `UnsafeCell` and `SyncUnsafeCell` have the values of their argument and hide its niches.
* `ManuallyDrop` and `Pin` are the same as their argument.
* `MaybeUninit` has the size of its argument and any contents.

Types of the user are known by their names.  Of pointers only null or not null is looked at, and what they
point to.
-/

namespace Cbindgen.AbiSpec

/-- Zero is not a value, and `Option` may use it (`shown`) or not (`hidden`). -/
inductive Niche
  | no
  | shown
  | hidden

inductive Layout
  /-- numbers and pointers: the bytes, the values, and what they lead to -/
  | scalar (size : Nat) (valid : Nat → Prop) (niche : Niche) (targets : List Layout)
  | array (len : Str) (elem : Layout)
  /-- a type of the user, or one without guarantees -/
  | named (name : Str) (args : List Layout)
  /-- a cell with something in it of which the niches are not known -/
  | cell (l : Layout)
  | value (s : Str)

/-- Sizes in bytes. -/
structure Target where
  ptr : Nat
  int : IntKind → Nat
  prim : Prim → Nat

/-- The values of primitive types that are no integers. -/
def primValid : Prim → Nat → Prop
  | .bool, p => p = 0 ∨ p = 1
  | .char32, p => p < 0xD800 ∨ (0xE000 ≤ p ∧ p < 0x110000)
  | _, _ => True

def Layout.option : Layout → Layout
  | .scalar s v .shown ts => .scalar s (fun p => v p ∨ p = 0) .no ts
  | l => .named c!"Option" [l]

def Niche.hide : Niche → Niche
  | .shown => .hidden
  | n => n

def Layout.hide : Layout → Layout
  | .scalar s v n ts => .scalar s v n.hide ts
  | .array len e => .array len e.hide
  | .named n ls => .cell (.named n ls)
  | .cell l => .cell l
  | .value s => .value s

/-- Any contents.  Types of the user may have values that are not allowed. -/
def Layout.anything : Layout → Layout
  | .scalar s _ _ ts => .scalar s (fun _ => True) .no ts
  | .array len e => .array len e.anything
  | l => .named c!"MaybeUninit" [l]

def pointerTo (T : Target) (l : Layout) : Layout := .scalar T.ptr (fun p => p ≠ 0) .shown [l]

def nonZero (T : Target) : Ty → Layout → Layout
  | .prim (.integer true _ k), _ => .scalar (T.int k) (fun p => p ≠ 0) .shown []
  | _, l => .named c!"NonZero" [l]

/-- A type of the standard library with one argument, or any other type. -/
def wrapper (T : Target) (n : Str) (t : Ty) (l : Layout) : Layout :=
  if n = c!"Option" then l.option
  else if n = c!"NonNull" ∨ n = c!"Box" then pointerTo T l
  else if n = c!"NonZero" then nonZero T t l
  else if n = c!"Cell" ∨ n = c!"UnsafeCell" ∨ n = c!"SyncUnsafeCell" then l.hide
  else if n = c!"ManuallyDrop" ∨ n = c!"Pin" then l
  else if n = c!"MaybeUninit" then l.anything
  else .named n [l]

def nicheUnless (b : Bool) : Niche := if b then .no else .shown

mutual
def layout (T : Target) : Ty → Layout
  | .ptr t _ null _ => .scalar T.ptr (fun p => null = true ∨ p ≠ 0) (nicheUnless null) [layout T t]
  | .path n _ gs _ => pathLayout T n gs
  | .prim (.integer z _ k) => .scalar (T.int k) (fun p => z = true ∨ p ≠ 0) (nicheUnless z) []
  | .prim p => .scalar (T.prim p) (primValid p) .no []
  | .array t len => .array len.asStr (layout T t)
  | .fnptr r as null _ => .scalar T.ptr (fun p => null = true ∨ p ≠ 0) (nicheUnless null) (layout T r :: argLayouts T as)
def pathLayout (T : Target) (n : Str) : List GArg → Layout
  | [] => .named n []
  | g :: gs => if gs.isEmpty then onlyLayout T n g else .named n (genericLayout T g :: genericLayouts T gs)
def onlyLayout (T : Target) (n : Str) : GArg → Layout
  | .type t => wrapper T n t (layout T t)
  | .const c => .named n [.value c.asStr]
def genericLayout (T : Target) : GArg → Layout
  | .type t => layout T t
  | .const c => .value c.asStr
def genericLayouts (T : Target) : List GArg → List Layout
  | [] => []
  | g :: gs => genericLayout T g :: genericLayouts T gs
def argLayout (T : Target) : FArg → Layout
  | .mk _ t => layout T t
def argLayouts (T : Target) : List FArg → List Layout
  | [] => []
  | a :: as => argLayout T a :: argLayouts T as
end

mutual
/-- The bytes and the values, at any depth: hidden niches are the same as any others, except in the arguments
of named types, which may be made differently for them. -/
def Layout.seen : Layout → Layout
  | .scalar s v _ ts => .scalar s v .no (Layout.seenList ts)
  | .array len e => .array len e.seen
  | .named n ls => .named n (Layout.exactList ls)
  | .cell l => l.seen
  | .value s => .value s
/-- The same, with the niche of the type itself. -/
def Layout.exact : Layout → Layout
  | .scalar s v n ts => .scalar s v n (Layout.seenList ts)
  | .array len e => .array len e.exact
  | .named n ls => .named n (Layout.exactList ls)
  | .cell l => .cell l.exact
  | .value s => .value s
def Layout.seenList : List Layout → List Layout
  | [] => []
  | l :: ls => l.seen :: Layout.seenList ls
def Layout.exactList : List Layout → List Layout
  | [] => []
  | l :: ls => l.exact :: Layout.exactList ls
end

/-- A niche that is hidden. -/
def Layout.hides : Layout → Prop
  | .scalar _ _ .hidden _ => True
  | .array _ e => e.hides
  | .cell _ => True
  | _ => False

/-- No contents that are not allowed, and no niche. -/
def Layout.allowsAll : Layout → Prop
  | .scalar _ v n _ => n = .no ∧ ∀ p, v p
  | .array _ e => e.allowsAll
  | _ => False

/-- The argument of `NonZero` is a primitive type or a name. -/
def zeroArg : Ty → Prop
  | .prim _ => True
  | .path _ _ gs _ => gs = []
  | _ => False

/-- Types with one of these names keep what is in them in sight. -/
def transparentName (n : Str) : Prop :=
  n = c!"NonNull" ∨ n = c!"Box" ∨ n = c!"NonZero" ∨ n = c!"Cell" ∨ n = c!"UnsafeCell" ∨ n = c!"SyncUnsafeCell" ∨
  n = c!"ManuallyDrop" ∨ n = c!"Pin" ∨ n = c!"MaybeUninit"

/-- What one argument has to be. -/
def fits (T : Target) (n : Str) (t : Ty) : Prop :=
  (n = c!"NonZero" → zeroArg t) ∧ (n = c!"MaybeUninit" → (layout T t).allowsAll) ∧
  (¬ transparentName n → ¬ (layout T t).hides)

mutual
/-- Types in which no niche is hidden from an `Option` or from a type of the user, and `MaybeUninit` is used
for types that allow any contents. -/
def Kept (T : Target) : Ty → Prop
  | .ptr t _ _ _ => Kept T t
  | .path n _ gs _ => KeptPath T n gs
  | .prim _ => True
  | .array t _ => Kept T t
  | .fnptr r as _ _ => Kept T r ∧ KeptArgs T as
def KeptPath (T : Target) (n : Str) : List GArg → Prop
  | [] => True
  | g :: gs => if gs.isEmpty then KeptOnly T n g else KeptGen T g ∧ KeptGens T gs
def KeptOnly (T : Target) (n : Str) : GArg → Prop
  | .type t => Kept T t ∧ fits T n t
  | .const _ => True
def KeptGen (T : Target) : GArg → Prop
  | .type t => Kept T t ∧ ¬ (layout T t).hides
  | .const _ => True
def KeptGens (T : Target) : List GArg → Prop
  | [] => True
  | g :: gs => KeptGen T g ∧ KeptGens T gs
def KeptArg (T : Target) : FArg → Prop
  | .mk _ t => Kept T t
def KeptArgs (T : Target) : List FArg → Prop
  | [] => True
  | a :: as => KeptArg T a ∧ KeptArgs T as
end

end Cbindgen.AbiSpec
