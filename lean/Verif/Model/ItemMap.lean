import Verif.Model.Ir

/-!
# Item tables: src/bindgen/ir/item.rs
-/

namespace Cbindgen

/-- `ItemValue`, src/bindgen/ir/item.rs:84-87. -/
inductive ItemValue (α : Type)
  | cfg (items : List α)
  | single (item : α)

/-- The items of a value. -/
def ItemValue.items {α : Type} : ItemValue α → List α
  | .cfg xs => xs
  | .single x => [x]

/-- `ItemMap`, src/bindgen/ir/item.rs:90-92: an `IndexMap`, listed in insertion order. -/
abbrev ItemMap (α : Type) := List (Str × ItemValue α)

namespace ItemMap

variable {α : Type}

/-- `items.push(item)` in the value found under the key, src/bindgen/ir/item.rs:112-115. -/
def push (p : Str) (x : α) : ItemMap α → ItemMap α
  | [] => []
  | (k, v) :: rest =>
    if k = p then
      match v with
      | .cfg xs => (k, .cfg (xs ++ [x])) :: rest
      | .single y => (k, .single y) :: rest
    else (k, v) :: push p x rest

variable [Item α]

/-- `ItemMap::try_insert`, src/bindgen/ir/item.rs:110-136. -/
def tryInsert (m : ItemMap α) (x : α) : ItemMap α × Bool :=
  match (Item.cfg x).isSome, m.lookup (Item.path x) with
  | true, some (.cfg _) => (m.push (Item.path x) x, true)
  | _, some _ => (m, false)
  | true, none => (m ++ [(Item.path x, .cfg [x])], true)
  | false, none => (m ++ [(Item.path x, .single x)], true)

/-- `for_all_items(|x| self.try_insert(x.clone()))` on a list of items. -/
def insertAll (m : ItemMap α) (xs : List α) : ItemMap α := xs.foldl (fun m x => (m.tryInsert x).1) m

omit [Item α] in
/-- `ItemMap::to_vec`, src/bindgen/ir/item.rs:144-155, which is also the order of `for_all_items`
(177-191). -/
def toVec (m : ItemMap α) : List α := m.flatMap fun kv => kv.2.items

/-- `ItemMap::rebuild`, src/bindgen/ir/item.rs:103-108. -/
def rebuild (m : ItemMap α) : ItemMap α := insertAll [] m.toVec

/-- `ItemMap::extend_with`, src/bindgen/ir/item.rs:138-142. -/
def extendWith (m other : ItemMap α) : ItemMap α := insertAll m other.toVec

omit [Item α] in
/-- `ItemMap::get_items`, src/bindgen/ir/item.rs:157-162. -/
def getItems (m : ItemMap α) (p : Str) : Option (List α) := (m.lookup p).map ItemValue.items

omit [Item α] in
/-- The closure of `retain` in `ItemMap::filter`, src/bindgen/ir/item.rs:168-174. -/
def filterValue (drop : α → Bool) : ItemValue α → Option (ItemValue α)
  | .cfg xs =>
    let ys := xs.filter fun x => !drop x
    if ys.isEmpty then none else some (.cfg ys)
  | .single x => if drop x then none else some (.single x)

omit [Item α] in
/-- `ItemMap::filter`, src/bindgen/ir/item.rs:164-175.  It removes what the callback accepts. -/
def filter (drop : α → Bool) (m : ItemMap α) : ItemMap α :=
  m.filterMap fun kv => (filterValue drop kv.2).map fun v => (kv.1, v)

omit [Item α] in
/-- One value of `for_all_items_mut`. -/
def mapValue {β : Type} (f : α → β) : ItemValue α → ItemValue β
  | .cfg xs => .cfg (xs.map f)
  | .single x => .single (f x)

omit [Item α] in
/-- `ItemMap::for_all_items_mut`, src/bindgen/ir/item.rs:193-207. -/
def mapItems {β : Type} (f : α → β) (m : ItemMap α) : ItemMap β :=
  m.map fun kv => (kv.1, mapValue f kv.2)

omit [Item α] in
/-- `ItemMap::for_items_mut`, src/bindgen/ir/item.rs:226-242. -/
def mapItemsAt (p : Str) (f : α → α) : ItemMap α → ItemMap α
  | [] => []
  | (k, v) :: rest => if k = p then (k, mapValue f v) :: rest else (k, v) :: mapItemsAt p f rest

end ItemMap

end Cbindgen
