import Verif.Model.ItemCollection

/-!
# Model of `wite/collections/identifiable_item_collection.hpp` with arguments that lie in the collection

The functions that look for an id take it by reference, so the id can be the member of an item that `id()` returns a reference to, in the
collection or handed out by it.  Here an id is read every time the code uses it.  A range of items to insert can be the
collection itself.

`std::map::erase` of a key finds the node before it destroys it, as the three standard libraries do.  An empty map or vector is
searched without looking at the id.
-/

namespace Wite.Collections

/-- An argument of type `const id_type&`. -/
inductive IdArg (ι : Type) where
  /-- an id of its own -/
  | own (id : ι)
  /-- the id in the item at an address -/
  | item (a : Nat)
  deriving DecidableEq, Repr

namespace ItemCollection

variable {ι α : Type} [DecidableEq ι]

/-- Use the id an argument refers to (identifiable_item_collection.hpp:135). -/
def readId (idOf : α → ι) : IdArg ι → St (ItemCollection ι α) ι
  | .own id => pure id
  | .item a => do
    let x ← deref a
    pure (idOf x)

/-- `map::find`, also within `map::erase` and `map::contains`; looks at the id unless the map is empty
(identifiable_item_collection.hpp:141, 181, 200 and 220). -/
def mapFindA (idOf : α → ι) (r : IdArg ι) : St (ItemCollection ι α) (Option Nat) := do
  let s ← St.get
  if s.items.isEmpty then pure none
  else do
    let id ← readId idOf r
    pure (mapFind s.items id)

/-- `map::erase` by key (identifiable_item_collection.hpp:141). -/
def mapEraseA (idOf : α → ι) (r : IdArg ι) : St (ItemCollection ι α) Unit := do
  match ← mapFindA idOf r with
  | none => pure ()
  | some a => do
    let s ← St.get
    St.set { s with items := s.items.filter fun p => p.2 ≠ a }
    free a

/-- `std::find_if` over the ordered pointers (identifiable_item_collection.hpp:134-135). -/
def findOrderedA (idOf : α → ι) (r : IdArg ι) : List Nat → St (ItemCollection ι α) (Option Nat)
  | [] => pure none
  | a :: as => do
    let id ← readId idOf r
    let x ← deref a
    if id = idOf x then
      pure (some 0)
    else do
      let i ← findOrderedA idOf r as
      pure (i.map (· + 1))

/-- `erase` of one id (identifiable_item_collection.hpp:133-144). -/
def eraseA (idOf : α → ι) (r : IdArg ι) : St (ItemCollection ι α) Bool := do
  let s ← St.get
  match ← findOrderedA idOf r s.ordered with
  | none => pure false
  | some i => do
    let s ← St.get
    St.set { s with ordered := s.ordered.eraseIdx i }
    mapEraseA idOf r
    pure true

/-- `erase` of several arguments (identifiable_item_collection.hpp:159-167). -/
def eraseAllA (idOf : α → ι) (rs : List (IdArg ι)) : St (ItemCollection ι α) (List Bool) := each (eraseA idOf) rs

/-- `excise` (identifiable_item_collection.hpp:180-197). -/
def exciseA (b : Build) (idOf : α → ι) (r : IdArg ι) : St (ItemCollection ι α) (Option Nat) := do
  match ← mapFindA idOf r with
  | none => pure none
  | some a => do
    let s ← St.get
    St.set { s with items := s.items.filter fun p => p.2 ≠ a }
    exciseOrdered b a
    pure (some a)

/-- `contains` (identifiable_item_collection.hpp:220). -/
def containsA (idOf : α → ι) (r : IdArg ι) : St (ItemCollection ι α) Bool := do
  let p ← mapFindA idOf r
  pure p.isSome

/-- `at` with an id (identifiable_item_collection.hpp:199-205). -/
def atIdA (idOf : α → ι) (r : IdArg ι) : St (ItemCollection ι α) α := do
  match ← mapFindA idOf r with
  | some a => deref a
  | none => St.throw (.outOfRange "identifiable_item_collection failed to retreive item by ID")

/-- The loop of `try_insert` of a range over the collection's own iterators (identifiable_item_collection.hpp:108-120), from the pointers not
visited yet.  Iterators do not survive a `push_back`. -/
def tryInsertSelfLoop (b : Build) (mem : Site → Nat → Bool) (idOf : α → ι) (all : List Nat) :
    List Nat → St (ItemCollection ι α) (List Bool)
  | [] => pure []
  | a :: as => do
    let s ← St.get
    if s.ordered ≠ all then St.ub
    else do
      let x ← deref a
      let r ← tryInsert b mem idOf x
      let rs ← tryInsertSelfLoop b mem idOf all as
      pure (r :: rs)

/-- `collection.try_insert(collection)` (identifiable_item_collection.hpp:108-120). -/
def tryInsertSelf (b : Build) (mem : Site → Nat → Bool) (idOf : α → ι) : St (ItemCollection ι α) (List Bool) := do
  let s ← St.get
  tryInsertSelfLoop b mem idOf s.ordered s.ordered

/-- `collection.insert(collection)` (identifiable_item_collection.hpp:90-94). -/
def insertSelf (b : Build) (mem : Site → Nat → Bool) (idOf : α → ι) : St (ItemCollection ι α) Unit := do
  let _ ← tryInsertSelf b mem idOf
  pure ()

end ItemCollection

end Wite.Collections
