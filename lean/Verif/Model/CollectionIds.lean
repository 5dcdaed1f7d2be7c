import Verif.Model.ItemCollection

/-!
# Model of `wite/collections/identifiable_item_collection.hpp` for any type of id

`Model/ItemCollection.lean` has ids with one notion of equality.  The collection uses two: the associative container
(identifiable_item_collection.hpp:32) has its own notion of equivalent keys, for `std::map` that neither of two ids is
less than the other, and `erase` compares ids with `==` (identifiable_item_collection.hpp:135).  Nothing in the header
makes the two agree.

The rest, and the simplifications, are those of `Model/ItemCollection.lean`.  The comparisons do not throw
(`Model/CollectionThrow.lean` has that) and always give the same answer.
-/

namespace Wite.Collections

/-- The two comparisons of ids: `same` is the equivalence of the associative container's keys
(identifiable_item_collection.hpp:32), `eq` is `operator==` (identifiable_item_collection.hpp:135). -/
structure IdCmp (ι : Type) where
  same : ι → ι → Bool
  eq : ι → ι → Bool

namespace ItemCollection

variable {ι α : Type} (c : IdCmp ι)

/-- `map::find`; see `mapFind`. -/
def mapFindC (items : List (ι × Nat)) (id : ι) : Option Nat := (items.find? fun p => c.same p.1 id).map Prod.snd

/-- `map::insert`; see `mapInsert`. -/
def mapInsertC (mem : Site → Nat → Bool) (id : ι) (a : Nat) : St (ItemCollection ι α) Bool := do
  let s ← St.get
  match mapFindC c s.items id with
  | some _ => do
    free a
    pure false
  | none => do
    if ← request mem .node then
      let s ← St.get
      St.set { s with items := s.items ++ [(id, a)] }
      pure true
    else do
      free a
      St.throw .badAlloc

/-- `map::erase` by key; see `mapErase`. -/
def mapEraseC (id : ι) : St (ItemCollection ι α) Unit := do
  let s ← St.get
  match mapFindC c s.items id with
  | none => pure ()
  | some a => do
    St.set { s with items := s.items.filter fun p => !c.same p.1 id }
    free a

/-- `contains` (identifiable_item_collection.hpp:220). -/
def containsC (s : ItemCollection ι α) (id : ι) : Bool := (mapFindC c s.items id).isSome

/-- `_try_unchecked_insert` (identifiable_item_collection.hpp:223-233). -/
def tryUncheckedInsertC (b : Build) (mem : Site → Nat → Bool) (idOf : α → ι) (a : Nat) : St (ItemCollection ι α) Bool := do
  let x ← deref a
  let inserted ← mapInsertC c mem (idOf x) a
  if inserted then pushBack mem a
  assertSizes b
  pure inserted

/-- `_unchecked_insert` (identifiable_item_collection.hpp:235-242). -/
def uncheckedInsertC (b : Build) (mem : Site → Nat → Bool) (idOf : α → ι) (a : Nat) : St (ItemCollection ι α) Unit := do
  let x ← deref a
  let _ ← mapInsertC c mem (idOf x) a
  pushBack mem a
  assertSizes b

/-- `insert` of one item (identifiable_item_collection.hpp:82-88). -/
def insertC (b : Build) (mem : Site → Nat → Bool) (idOf : α → ι) (x : α) : St (ItemCollection ι α) Unit := do
  let s ← St.get
  if s.containsC c (idOf x) then
    St.throw (.logicError "Insertion of duplicate ID into identifiable_item_collection")
  else do
    let a ← newItem mem x
    uncheckedInsertC c b mem idOf a

/-- `try_insert` of one item (identifiable_item_collection.hpp:101-106). -/
def tryInsertC (b : Build) (mem : Site → Nat → Bool) (idOf : α → ι) (x : α) : St (ItemCollection ι α) Bool := do
  let a ← newItem mem x
  tryUncheckedInsertC c b mem idOf a

/-- `insert` of a range (identifiable_item_collection.hpp:90-94) and the initialiser-list constructor
(identifiable_item_collection.hpp:57). -/
def insertRangeC (b : Build) (mem : Site → Nat → Bool) (idOf : α → ι) (xs : List α) : St (ItemCollection ι α) Unit := do
  let _ ← each (tryInsertC c b mem idOf) xs
  pure ()

/-- `insert` of several arguments (identifiable_item_collection.hpp:96-99). -/
def insertAllC (b : Build) (mem : Site → Nat → Bool) (idOf : α → ι) (xs : List α) : St (ItemCollection ι α) Unit := do
  let _ ← each (insertC c b mem idOf) xs
  pure ()

/-- `try_insert` of a range (identifiable_item_collection.hpp:108-120) and of several arguments
(identifiable_item_collection.hpp:122-131). -/
def tryInsertAllC (b : Build) (mem : Site → Nat → Bool) (idOf : α → ι) (xs : List α) : St (ItemCollection ι α) (List Bool) :=
  each (tryInsertC c b mem idOf) xs

/-- `std::find_if` over the ordered pointers, with `id == item->id()` (identifiable_item_collection.hpp:134-135). -/
def findOrderedC (idOf : α → ι) (id : ι) : List Nat → St (ItemCollection ι α) (Option Nat)
  | [] => pure none
  | a :: as => do
    let x ← deref a
    if c.eq id (idOf x) then
      pure (some 0)
    else do
      let r ← findOrderedC idOf id as
      pure (r.map (· + 1))

/-- `erase` of one id (identifiable_item_collection.hpp:133-144): the first item whose id is `==` leaves the vector,
the item whose key is equivalent leaves the map. -/
def eraseC (idOf : α → ι) (id : ι) : St (ItemCollection ι α) Bool := do
  let s ← St.get
  match ← findOrderedC c idOf id s.ordered with
  | none => pure false
  | some i => do
    let s ← St.get
    St.set { s with ordered := s.ordered.eraseIdx i }
    mapEraseC c id
    pure true

/-- `erase` of a range (identifiable_item_collection.hpp:146-157) and of several arguments
(identifiable_item_collection.hpp:159-167). -/
def eraseAllC (idOf : α → ι) (ids : List ι) : St (ItemCollection ι α) (List Bool) := each (eraseC c idOf) ids

/-- `emplace` (identifiable_item_collection.hpp:169-178). -/
def emplaceC (b : Build) (mem : Site → Nat → Bool) (idOf : α → ι) (x : α) : St (ItemCollection ι α) Nat := do
  let a ← newItem mem x
  let inserted ← tryUncheckedInsertC c b mem idOf a
  if inserted then
    pure a
  else
    St.throw (.logicError "identifiable_item_collection already contains this ID")

/-- `excise` (identifiable_item_collection.hpp:180-197). -/
def exciseC (b : Build) (id : ι) : St (ItemCollection ι α) (Option Nat) := do
  let s ← St.get
  match mapFindC c s.items id with
  | none => pure none
  | some a => do
    St.set { s with items := s.items.filter fun p => !c.same p.1 id }
    exciseOrdered b a
    pure (some a)

/-- `at` with an id (identifiable_item_collection.hpp:199-205). -/
def atIdC (s : ItemCollection ι α) (id : ι) : Outcome α :=
  match mapFindC c s.items id with
  | some a => (deref a s).1
  | none => .throw (.outOfRange "identifiable_item_collection failed to retreive item by ID")

/-- The caller modifies an item through the reference `emplace` returned (identifiable_item_collection.hpp:177); see
`modify`. -/
def modifyC (id : ι) (f : α → α) : St (ItemCollection ι α) Unit := fun s =>
  match mapFindC c s.items id with
  | none => (.ok (), s)
  | some a =>
    match s.heap a with
    | none => (.ub, s)
    | some x => (.ok (), { s with heap := fun b => if b = a then some (f x) else s.heap b })

/-- One call (identifiable_item_collection.hpp:82-218). -/
def stepC (b : Build) (mem : Site → Nat → Bool) (idOf : α → ι) : Op ι α → St (ItemCollection ι α) Ret
  | .insert x => do insertC c b mem idOf x; pure .unit
  | .insertRange xs => do insertRangeC c b mem idOf xs; pure .unit
  | .insertAll xs => do insertAllC c b mem idOf xs; pure .unit
  | .tryInsert x => do let r ← tryInsertC c b mem idOf x; pure (.flag r)
  | .tryInsertAll xs => do let r ← tryInsertAllC c b mem idOf xs; pure (.flags r)
  | .erase id => do let r ← eraseC c idOf id; pure (.flag r)
  | .eraseAll ids => do let r ← eraseAllC c idOf ids; pure (.flags r)
  | .emplace x => do let r ← emplaceC c b mem idOf x; pure (.ref r)
  | .excise id => do let r ← exciseC c b id; pure (.owned r)
  | .clear => do clear; pure .unit
  | .modify id f => do modifyC c id f; pure .unit
  | .drop a => do drop a; pure .unit

end ItemCollection

end Wite.Collections
