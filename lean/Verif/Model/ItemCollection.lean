import Verif.Model.State

/-!
# Model of `wite/collections/identifiable_item_collection.hpp`

The collection is a map from ids to owning pointers and a vector of the same pointers in insertion order.
Objects live on a heap; using or destroying an object that is not alive is undefined.  Any allocation may
fail: `mem site n` says whether the `n`-th allocation succeeds, where `site` says what it is for.

Simplifications:
* The map is a list of pairs searched by key; its sort order cannot be observed (`Model/CollectionDict.lean` has trees and tables).
* The vector asks for memory at every `push_back`, not only when it grows; an oracle that says yes covers
  the other case.
* Copying, moving and comparing items and ids does not throw (`Model/CollectionThrow.lean` has that); the vector of flags of the range
  forms does not run out of memory.
* Objects handed to the caller by `excise` are remembered in `outside`, which is not part of the program.
* The defaulted move operations (identifiable_item_collection.hpp:60-61) are in `Model/CollectionMove.lean`.
-/

namespace Wite.Collections

/-- What an allocation is for. -/
inductive Site where
  /-- `std::make_unique` -/
  | item
  /-- a node of the map -/
  | node
  /-- storage of the vector -/
  | order
  deriving DecidableEq, Repr

/-- The state of the program: the members `_items` and `_ordered_items`
(identifiable_item_collection.hpp:244-245), the heap, and the objects the caller owns. -/
structure ItemCollection (ι α : Type) where
  heap : Nat → Option α
  next : Nat
  allocs : Nat
  items : List (ι × Nat)
  ordered : List Nat
  outside : List Nat

namespace ItemCollection

variable {ι α : Type} [DecidableEq ι]

/-- Default constructor (identifiable_item_collection.hpp:59). -/
def empty : ItemCollection ι α := ⟨fun _ => none, 0, 0, [], [], []⟩

/-! ### The standard library -/

/-- Ask for memory. -/
def request (mem : Site → Nat → Bool) (site : Site) : St (ItemCollection ι α) Bool := fun s =>
  (.ok (mem site s.allocs), { s with allocs := s.allocs + 1 })

/-- `std::make_unique`. -/
def newItem (mem : Site → Nat → Bool) (x : α) : St (ItemCollection ι α) Nat := do
  if ← request mem .item then
    let s ← St.get
    St.set { s with heap := fun a => if a = s.next then some x else s.heap a, next := s.next + 1 }
    pure s.next
  else
    St.throw .badAlloc

/-- `delete`. -/
def free (a : Nat) : St (ItemCollection ι α) Unit := fun s =>
  match s.heap a with
  | none => (.ub, s)
  | some _ => (.ok (), { s with heap := fun b => if b = a then none else s.heap b })

/-- Use the object at an address. -/
def deref (a : Nat) : St (ItemCollection ι α) α := fun s =>
  match s.heap a with
  | none => (.ub, s)
  | some x => (.ok x, s)

/-- `map::find`. -/
def mapFind (items : List (ι × Nat)) (id : ι) : Option Nat := (items.find? fun p => p.1 = id).map Prod.snd

/-- `map::insert` of a temporary pair owning the object at `a`; whether it was inserted.  If not, or if there is no memory,
the pair is destroyed and the object with it. -/
def mapInsert (mem : Site → Nat → Bool) (id : ι) (a : Nat) : St (ItemCollection ι α) Bool := do
  let s ← St.get
  match mapFind s.items id with
  | some _ => do
    free a
    pure false
  | none => do
    if ← request mem .node then
      let s ← St.get
      St.set { s with items := s.items ++ [(id, a)] }
      pure true
    else do
      free a
      St.throw .badAlloc

/-- `map::erase` by key, destroying the object the node owns. -/
def mapErase (id : ι) : St (ItemCollection ι α) Unit := do
  let s ← St.get
  match mapFind s.items id with
  | none => pure ()
  | some a => do
    St.set { s with items := s.items.filter fun p => p.1 ≠ id }
    free a

/-- `vector::push_back`. -/
def pushBack (mem : Site → Nat → Bool) (a : Nat) : St (ItemCollection ι α) Unit := do
  if ← request mem .order then
    let s ← St.get
    St.set { s with ordered := s.ordered ++ [a] }
  else
    St.throw .badAlloc

/-- Do something for every element, collecting the results. -/
def each {β γ : Type} (f : β → St (ItemCollection ι α) γ) : List β → St (ItemCollection ι α) (List γ)
  | [] => pure []
  | x :: xs => do
    let y ← f x
    let ys ← each f xs
    pure (y :: ys)

/-! ### The member functions -/

/-- `contains` (identifiable_item_collection.hpp:220). -/
def contains (s : ItemCollection ι α) (id : ι) : Bool := (mapFind s.items id).isSome

/-- `size` (identifiable_item_collection.hpp:79). -/
def size (s : ItemCollection ι α) : Nat := s.items.length

/-- `empty` (identifiable_item_collection.hpp:80). -/
def isEmpty (s : ItemCollection ι α) : Bool := s.items.isEmpty

/-- The assertion of both insertion helpers (identifiable_item_collection.hpp:231 and 241). -/
def assertSizes (b : Build) : St (ItemCollection ι α) Unit := fun s =>
  (debugAssert b (s.items.length = s.ordered.length) "item container size mismatch", s)

/-- `_try_unchecked_insert` (identifiable_item_collection.hpp:223-233). -/
def tryUncheckedInsert (b : Build) (mem : Site → Nat → Bool) (idOf : α → ι) (a : Nat) : St (ItemCollection ι α) Bool := do
  let x ← deref a
  let inserted ← mapInsert mem (idOf x) a
  if inserted then pushBack mem a
  assertSizes b
  pure inserted

/-- `_unchecked_insert` (identifiable_item_collection.hpp:235-242). -/
def uncheckedInsert (b : Build) (mem : Site → Nat → Bool) (idOf : α → ι) (a : Nat) : St (ItemCollection ι α) Unit := do
  let x ← deref a
  let _ ← mapInsert mem (idOf x) a
  pushBack mem a
  assertSizes b

/-- `insert` of one item (identifiable_item_collection.hpp:82-88). -/
def insert (b : Build) (mem : Site → Nat → Bool) (idOf : α → ι) (x : α) : St (ItemCollection ι α) Unit := do
  let s ← St.get
  if s.contains (idOf x) then
    St.throw (.logicError "Insertion of duplicate ID into identifiable_item_collection")
  else do
    let a ← newItem mem x
    uncheckedInsert b mem idOf a

/-- `try_insert` of one item (identifiable_item_collection.hpp:101-106). -/
def tryInsert (b : Build) (mem : Site → Nat → Bool) (idOf : α → ι) (x : α) : St (ItemCollection ι α) Bool := do
  let a ← newItem mem x
  tryUncheckedInsert b mem idOf a

/-- `insert` of a range (identifiable_item_collection.hpp:90-94), also the initialiser-list constructor
(identifiable_item_collection.hpp:57): every element goes through `try_insert`, the flags are dropped. -/
def insertRange (b : Build) (mem : Site → Nat → Bool) (idOf : α → ι) (xs : List α) : St (ItemCollection ι α) Unit := do
  let _ ← each (tryInsert b mem idOf) xs
  pure ()

/-- `insert` of several arguments (identifiable_item_collection.hpp:96-99). -/
def insertAll (b : Build) (mem : Site → Nat → Bool) (idOf : α → ι) (xs : List α) : St (ItemCollection ι α) Unit := do
  let _ ← each (insert b mem idOf) xs
  pure ()

/-- `try_insert` of a range (identifiable_item_collection.hpp:108-120) and of several arguments
(identifiable_item_collection.hpp:122-131). -/
def tryInsertAll (b : Build) (mem : Site → Nat → Bool) (idOf : α → ι) (xs : List α) : St (ItemCollection ι α) (List Bool) :=
  each (tryInsert b mem idOf) xs

/-- `std::find_if` over the ordered pointers (identifiable_item_collection.hpp:134-135): the position of the first item
with the id. -/
def findOrdered (idOf : α → ι) (id : ι) : List Nat → St (ItemCollection ι α) (Option Nat)
  | [] => pure none
  | a :: as => do
    let x ← deref a
    if id = idOf x then
      pure (some 0)
    else do
      let r ← findOrdered idOf id as
      pure (r.map (· + 1))

/-- `erase` of one id (identifiable_item_collection.hpp:133-144). -/
def erase (idOf : α → ι) (id : ι) : St (ItemCollection ι α) Bool := do
  let s ← St.get
  match ← findOrdered idOf id s.ordered with
  | none => pure false
  | some i => do
    let s ← St.get
    St.set { s with ordered := s.ordered.eraseIdx i }
    mapErase id
    pure true

/-- `erase` of a range (identifiable_item_collection.hpp:146-157) and of several arguments
(identifiable_item_collection.hpp:159-167). -/
def eraseAll (idOf : α → ι) (ids : List ι) : St (ItemCollection ι α) (List Bool) := each (erase idOf) ids

/-- `emplace` (identifiable_item_collection.hpp:169-178); `x` is the item constructed from the arguments.  The result is the
address of the item. -/
def emplace (b : Build) (mem : Site → Nat → Bool) (idOf : α → ι) (x : α) : St (ItemCollection ι α) Nat := do
  let a ← newItem mem x
  let inserted ← tryUncheckedInsert b mem idOf a
  if inserted then
    pure a
  else
    St.throw (.logicError "identifiable_item_collection already contains this ID")

/-- The part of `excise` after the node is gone (identifiable_item_collection.hpp:190-196): look for the pointer in the
vector and erase it; erasing `end()` is undefined.  A failed assertion destroys the object. -/
def exciseOrdered (b : Build) (a : Nat) : St (ItemCollection ι α) Unit := do
  let s ← St.get
  match s.ordered.findIdx? (· = a), b with
  | none, .debug => do
    free a
    St.throw (.assertion "Failed to find item in orderer items that was found in associative items")
  | none, .aborting => St.lift .terminate
  | none, .release => St.ub
  | some i, _ => St.set { s with ordered := s.ordered.eraseIdx i, outside := a :: s.outside }

/-- `excise` (identifiable_item_collection.hpp:180-197). -/
def excise (b : Build) (id : ι) : St (ItemCollection ι α) (Option Nat) := do
  let s ← St.get
  match mapFind s.items id with
  | none => pure none
  | some a => do
    St.set { s with items := s.items.filter fun p => p.1 ≠ id }
    exciseOrdered b a
    pure (some a)

/-- `clear` (identifiable_item_collection.hpp:215-218); also what the destructor does. -/
def clear : St (ItemCollection ι α) Unit := do
  let s ← St.get
  let _ ← each (fun p : ι × Nat => free p.2) s.items
  let s ← St.get
  St.set { s with items := [], ordered := [] }

/-- `at` with an id (identifiable_item_collection.hpp:199-205). -/
def atId (s : ItemCollection ι α) (id : ι) : Outcome α :=
  match mapFind s.items id with
  | some a => (deref a s).1
  | none => .throw (.outOfRange "identifiable_item_collection failed to retreive item by ID")

/-- `at` with an index (identifiable_item_collection.hpp:207-213). -/
def atIndex (s : ItemCollection ι α) (i : Nat) : Outcome α :=
  match s.ordered[i]? with
  | some a => (deref a s).1
  | none => .throw (.outOfRange "identifiable_item_collection failed to retreive item by index")

/-- Iteration from `begin()` to `end()` (identifiable_item_collection.hpp:63-71). -/
def iterate (s : ItemCollection ι α) : Outcome (List α) := (each deref s.ordered s).1

/-! ### What the caller does with the items -/

/-- The caller modifies an item through the reference `emplace` returned (identifiable_item_collection.hpp:177); `id` is the
id the item was emplaced with.  Nothing happens if that item is no longer in the collection (the caller must
not use the reference then). -/
def modify (id : ι) (f : α → α) : St (ItemCollection ι α) Unit := fun s =>
  match mapFind s.items id with
  | none => (.ok (), s)
  | some a =>
    match s.heap a with
    | none => (.ub, s)
    | some x => (.ok (), { s with heap := fun b => if b = a then some (f x) else s.heap b })

/-- The caller destroys an item obtained by `excise`; nothing happens if it is not one. -/
def drop (a : Nat) : St (ItemCollection ι α) Unit := do
  let s ← St.get
  if a ∈ s.outside then do
    St.set { s with outside := s.outside.filter (· ≠ a) }
    free a
  else
    pure ()

/-! ### Programs -/

/-- The calls a program can make. -/
inductive Op (ι α : Type) where
  | insert (x : α)
  | insertRange (xs : List α)
  | insertAll (xs : List α)
  | tryInsert (x : α)
  | tryInsertAll (xs : List α)
  | erase (id : ι)
  | eraseAll (ids : List ι)
  | emplace (x : α)
  | excise (id : ι)
  | clear
  | modify (id : ι) (f : α → α)
  | drop (a : Nat)

/-- What a call returns. -/
inductive Ret where
  | unit
  | flag (b : Bool)
  | flags (bs : List Bool)
  | ref (a : Nat)
  | owned (a : Option Nat)
  deriving DecidableEq, Repr

/-- One call. -/
def step (b : Build) (mem : Site → Nat → Bool) (idOf : α → ι) : Op ι α → St (ItemCollection ι α) Ret
  | .insert x => do insert b mem idOf x; pure .unit
  | .insertRange xs => do insertRange b mem idOf xs; pure .unit
  | .insertAll xs => do insertAll b mem idOf xs; pure .unit
  | .tryInsert x => do let r ← tryInsert b mem idOf x; pure (.flag r)
  | .tryInsertAll xs => do let r ← tryInsertAll b mem idOf xs; pure (.flags r)
  | .erase id => do let r ← erase idOf id; pure (.flag r)
  | .eraseAll ids => do let r ← eraseAll idOf ids; pure (.flags r)
  | .emplace x => do let r ← emplace b mem idOf x; pure (.ref r)
  | .excise id => do let r ← excise b id; pure (.owned r)
  | .clear => do clear; pure .unit
  | .modify id f => do modify id f; pure .unit
  | .drop a => do drop a; pure .unit

end ItemCollection

end Wite.Collections
