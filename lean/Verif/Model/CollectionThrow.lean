import Verif.Model.ItemCollection

/-!
# Items, ids and comparisons that throw in `identifiable_item_collection`

File: collections/identifiable_item_collection.hpp.  The state is that of `Model/ItemCollection.lean`.  Everything in it
that is not the library's own is asked of an oracle: whether memory is there, and whether copying, moving or making an
item, asking for its id, copying or moving the id or comparing ids returns.  `o ev n` is the exception that the `n`-th of
these events throws, if it is of the kind `ev`.  A lookup in the map makes several comparisons; they are one event, since
it does not matter which of them throws.

Destructors and the functions of `std::unique_ptr` do not throw.
-/

namespace Wite.Collections

/-- What may throw. -/
inductive Ev where
  /-- memory for an item, a node of the map or the vector of pointers -/
  | mem (site : Site)
  /-- memory for the vector of flags that the range forms return -/
  | flags
  /-- making a parameter: the item is copied or moved into it -/
  | pass
  /-- the move constructor inside `std::make_unique` -/
  | move
  /-- the constructor that `emplace` calls -/
  | make
  /-- `item.id()` -/
  | callId
  | copyId
  | moveId
  /-- `id == item->id()` in `erase` -/
  | equal
  /-- comparisons of the map when it is asked by `contains` -/
  | compareContains
  /-- comparisons of the map in `insert` and `find` -/
  | compare
  /-- comparisons of the map in `erase` -/
  | compareErase
  deriving DecidableEq, Repr

namespace ItemCollection

variable {ι α : Type} [DecidableEq ι]

/-- The exceptions of a run: what the `n`-th event throws. -/
abbrev Oracle := Ev → Nat → Option Exc

/-- One event. -/
def ask (o : Oracle) (ev : Ev) : St (ItemCollection ι α) Unit := fun s =>
  (match o ev s.allocs with
    | none => .ok ()
    | some e => .throw e, { s with allocs := s.allocs + 1 })

/-- Several events, up to the first that throws. -/
def asks (o : Oracle) : List Ev → St (ItemCollection ι α) Unit
  | [] => pure ()
  | ev :: evs => do
    ask o ev
    asks o evs

/-- While a `std::unique_ptr` owns the object: an exception destroys it on the way out. -/
def owning {β : Type} (a : Nat) (m : St (ItemCollection ι α) β) : St (ItemCollection ι α) β := fun s =>
  match m s with
  | (.throw e, s') =>
    match free a s' with
    | (.ok _, s'') => (.throw e, s'')
    | (_, s'') => (.ub, s'')
  | r => r

/-- `std::make_unique`: memory, then a constructor of the item. -/
def newItemT (o : Oracle) (how : Ev) (x : α) : St (ItemCollection ι α) Nat := do
  asks o [.mem .item, how]
  let s ← St.get
  St.set { s with heap := fun a => if a = s.next then some x else s.heap a, next := s.next + 1 }
  pure s.next

/-- `map::insert` of a temporary pair; the pair owns the object until the node does. -/
def mapInsertT (o : Oracle) (id : ι) (a : Nat) : St (ItemCollection ι α) Bool := do
  owning a (asks o [.moveId, .compare])
  let s ← St.get
  match mapFind s.items id with
  | some _ => do
    free a
    pure false
  | none => do
    owning a (asks o [.mem .node, .copyId])
    let s ← St.get
    St.set { s with items := s.items ++ [(id, a)] }
    pure true

/-- `vector::push_back` of a pointer. -/
def pushBackT (o : Oracle) (a : Nat) : St (ItemCollection ι α) Unit := do
  ask o (.mem .order)
  let s ← St.get
  St.set { s with ordered := s.ordered ++ [a] }

/-- `_try_unchecked_insert` (identifiable_item_collection.hpp:223-233). -/
def tryUncheckedInsertT (b : Build) (o : Oracle) (idOf : α → ι) (a : Nat) : St (ItemCollection ι α) Bool := do
  owning a (asks o [.callId, .copyId])
  let x ← deref a
  let inserted ← mapInsertT o (idOf x) a
  if inserted then pushBackT o a
  assertSizes b
  pure inserted

/-- `_unchecked_insert` (identifiable_item_collection.hpp:235-242). -/
def uncheckedInsertT (b : Build) (o : Oracle) (idOf : α → ι) (a : Nat) : St (ItemCollection ι α) Unit := do
  owning a (asks o [.callId, .copyId])
  let x ← deref a
  let _ ← mapInsertT o (idOf x) a
  pushBackT o a
  assertSizes b

/-- `contains` (identifiable_item_collection.hpp:220), which is `noexcept`. -/
def containsT (o : Oracle) (id : ι) : St (ItemCollection ι α) Bool := fun s =>
  match ask o .compareContains s with
  | (.throw _, s') => (.terminate, s')
  | (_, s') => (.ok (s'.contains id), s')

/-- `insert` of one item (identifiable_item_collection.hpp:82-88). -/
def insertT (b : Build) (o : Oracle) (idOf : α → ι) (x : α) : St (ItemCollection ι α) Unit := do
  asks o [.pass, .callId]
  if ← containsT o (idOf x) then
    St.throw (.logicError "Insertion of duplicate ID into identifiable_item_collection")
  else do
    let a ← newItemT o .move x
    uncheckedInsertT b o idOf a

/-- `try_insert` of one item (identifiable_item_collection.hpp:101-106). -/
def tryInsertT (b : Build) (o : Oracle) (idOf : α → ι) (x : α) : St (ItemCollection ι α) Bool := do
  ask o .pass
  let a ← newItemT o .move x
  tryUncheckedInsertT b o idOf a

/-- `emplace` (identifiable_item_collection.hpp:169-178). -/
def emplaceT (b : Build) (o : Oracle) (idOf : α → ι) (x : α) : St (ItemCollection ι α) Nat := do
  let a ← newItemT o .make x
  let inserted ← tryUncheckedInsertT b o idOf a
  if inserted then
    pure a
  else
    St.throw (.logicError "identifiable_item_collection already contains this ID")

/-- `std::find_if` over the ordered pointers (identifiable_item_collection.hpp:134-135). -/
def findOrderedT (o : Oracle) (idOf : α → ι) (id : ι) : List Nat → St (ItemCollection ι α) (Option Nat)
  | [] => pure none
  | a :: as => do
    asks o [.callId, .equal]
    let x ← deref a
    if id = idOf x then
      pure (some 0)
    else do
      let r ← findOrderedT o idOf id as
      pure (r.map (· + 1))

/-- `erase` of one id (identifiable_item_collection.hpp:133-144): the pointer leaves the vector before the map is asked to
erase. -/
def eraseT (o : Oracle) (idOf : α → ι) (id : ι) : St (ItemCollection ι α) Bool := do
  let s ← St.get
  match ← findOrderedT o idOf id s.ordered with
  | none => pure false
  | some i => do
    let s ← St.get
    St.set { s with ordered := s.ordered.eraseIdx i }
    ask o .compareErase
    mapErase id
    pure true

/-- `excise` (identifiable_item_collection.hpp:180-197): only the lookup can throw. -/
def exciseT (b : Build) (o : Oracle) (id : ι) : St (ItemCollection ι α) (Option Nat) := do
  ask o .compare
  excise b id

/-- `at` with an id (identifiable_item_collection.hpp:199-205). -/
def atIdT (o : Oracle) (id : ι) : St (ItemCollection ι α) α := do
  ask o .compare
  let s ← St.get
  St.lift (s.atId id)

/-- How several arguments are given. -/
inductive Form where
  /-- one by one -/
  | variadic
  /-- as a range that knows its size -/
  | sized
  /-- as a range that does not -/
  | unsized
  deriving DecidableEq, Repr

/-- Memory for the flags: `reserve` for a range that knows its size (identifiable_item_collection.hpp:112-114 and 150-152),
none for the array of the variadic forms. -/
def reserveFlags (o : Oracle) : Form → St (ItemCollection ι α) Unit
  | .sized => ask o .flags
  | _ => pure ()

/-- Memory for one more flag (identifiable_item_collection.hpp:117 and 154). -/
def pushFlag (o : Oracle) : Form → St (ItemCollection ι α) Unit
  | .unsized => ask o .flags
  | _ => pure ()

/-- The parameter of the lambda in the variadic forms (identifiable_item_collection.hpp:98 and 128). -/
def passOn (o : Oracle) : Form → St (ItemCollection ι α) Unit
  | .variadic => ask o .pass
  | _ => pure ()

/-- `insert` of a range (identifiable_item_collection.hpp:90-94). -/
def insertRangeT (b : Build) (o : Oracle) (idOf : α → ι) (xs : List α) : St (ItemCollection ι α) Unit := do
  let _ ← each (tryInsertT b o idOf) xs
  pure ()

/-- `insert` of several arguments (identifiable_item_collection.hpp:96-99). -/
def insertAllT (b : Build) (o : Oracle) (idOf : α → ι) (xs : List α) : St (ItemCollection ι α) Unit := do
  let _ ← each (fun x => do
    ask o .pass
    insertT b o idOf x) xs
  pure ()

/-- One element of `try_insert` for several. -/
def tryInsertOneT (b : Build) (o : Oracle) (f : Form) (idOf : α → ι) (x : α) : St (ItemCollection ι α) Bool := do
  passOn o f
  let r ← tryInsertT b o idOf x
  pushFlag o f
  pure r

/-- `try_insert` of a range (identifiable_item_collection.hpp:108-120) and of several arguments
(identifiable_item_collection.hpp:122-131). -/
def tryInsertAllT (b : Build) (o : Oracle) (f : Form) (idOf : α → ι) (xs : List α) : St (ItemCollection ι α) (List Bool) := do
  reserveFlags o f
  each (tryInsertOneT b o f idOf) xs

/-- One element of `erase` for several. -/
def eraseOneT (o : Oracle) (f : Form) (idOf : α → ι) (id : ι) : St (ItemCollection ι α) Bool := do
  let r ← eraseT o idOf id
  pushFlag o f
  pure r

/-- `erase` of a range (identifiable_item_collection.hpp:146-157) and of several arguments
(identifiable_item_collection.hpp:159-167). -/
def eraseAllT (o : Oracle) (f : Form) (idOf : α → ι) (ids : List ι) : St (ItemCollection ι α) (List Bool) := do
  reserveFlags o f
  each (eraseOneT o f idOf) ids

/-- One call; the form matters for `try_insert` and `erase` of several.  `modify` is `at` and a change to the item that does
not throw. -/
def stepT (b : Build) (o : Oracle) (idOf : α → ι) : Form × Op ι α → St (ItemCollection ι α) Ret
  | (_, .insert x) => do insertT b o idOf x; pure .unit
  | (_, .insertRange xs) => do insertRangeT b o idOf xs; pure .unit
  | (_, .insertAll xs) => do insertAllT b o idOf xs; pure .unit
  | (_, .tryInsert x) => do let r ← tryInsertT b o idOf x; pure (.flag r)
  | (f, .tryInsertAll xs) => do let r ← tryInsertAllT b o f idOf xs; pure (.flags r)
  | (_, .erase id) => do let r ← eraseT o idOf id; pure (.flag r)
  | (f, .eraseAll ids) => do let r ← eraseAllT o f idOf ids; pure (.flags r)
  | (_, .emplace x) => do let r ← emplaceT b o idOf x; pure (.ref r)
  | (_, .excise id) => do let r ← exciseT b o id; pure (.owned r)
  | (_, .clear) => do clear; pure .unit
  | (_, .modify id f) => do ask o .compare; modify id f; pure .unit
  | (_, .drop a) => do drop a; pure .unit

end ItemCollection

end Wite.Collections
