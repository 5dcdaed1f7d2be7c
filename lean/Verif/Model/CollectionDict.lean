import Verif.Model.CollectionIds

/-!
# Model of `wite/collections/identifiable_item_collection.hpp` on any associative container

The associative container is a template parameter (identifiable_item_collection.hpp:32), by default a `std::map`.
`Model/ItemCollection.lean` and `Model/CollectionIds.lean` have a list of pairs in its place.  Here the collection is written
against the operations it uses, and two containers are given: a search tree (`std::map` with any comparison) and a table of
buckets (`std::unordered_map` with any hash function and any equality).

Simplifications: those of `Model/ItemCollection.lean`; all the memory an insertion into the container asks for is one request.
The functions given to the containers do not throw and always give the same answer.  Containers of more than one item per
key (`std::multimap`) do not compile: `insert` has to return a pair (identifiable_item_collection.hpp:226-227).
-/

namespace Wite.Collections

/-- What the collection uses of its associative container (identifiable_item_collection.hpp:32 and 244): `find` and
`contains`, `insert` of a pair whose key is not there, `erase`, `size`, and the order in which `clear` and the destructor destroy
the items.  The `Nat` is the owning pointer. -/
structure Dict (δ ι : Type) where
  empty : δ
  find : δ → ι → Option Nat
  insert : δ → ι → Nat → δ
  erase : δ → ι → δ
  size : δ → Nat
  values : δ → List Nat

/-! ### `std::map` -/

/-- The nodes of a `std::map`. -/
inductive SearchTree (ι : Type) where
  | leaf
  | node (left : SearchTree ι) (key : ι) (val : Nat) (right : SearchTree ι)
  deriving DecidableEq, Repr

namespace SearchTree

variable {ι : Type}

/-- The pairs from first to last. -/
def inorder : SearchTree ι → List (ι × Nat)
  | leaf => []
  | node l k v r => l.inorder ++ (k, v) :: r.inorder

/-- `map::find`: down the tree, left if the key is less than the node's, right if it is greater. -/
def find (lt : ι → ι → Bool) : SearchTree ι → ι → Option Nat
  | leaf, _ => none
  | node l k v r, id => if lt id k then l.find lt id else if lt k id then r.find lt id else some v

/-- Where `map::insert` puts a node. -/
def put (lt : ι → ι → Bool) : SearchTree ι → ι → Nat → SearchTree ι
  | leaf, id, a => node leaf id a leaf
  | node l k v r, id, a =>
    if lt id k then node (l.put lt id a) k v r else if lt k id then node l k v (r.put lt id a) else node l k v r

/-- Hang one tree below the last node of another. -/
def hang : SearchTree ι → SearchTree ι → SearchTree ι
  | leaf, t => t
  | node l k v r, t => node l k v (r.hang t)

/-- `map::erase`: unlink the node with the key. -/
def cut (lt : ι → ι → Bool) : SearchTree ι → ι → SearchTree ι
  | leaf, _ => leaf
  | node l k v r, id =>
    if lt id k then node (l.cut lt id) k v r else if lt k id then node l k v (r.cut lt id) else l.hang r

end SearchTree

/-- `std::map` with the comparison `lt` (the default, identifiable_item_collection.hpp:32).  `bal` is how the tree is balanced
after a change. -/
def treeDict {ι : Type} (lt : ι → ι → Bool) (bal : SearchTree ι → SearchTree ι) : Dict (SearchTree ι) ι where
  empty := .leaf
  find := SearchTree.find lt
  insert t id a := bal (t.put lt id a)
  erase t id := bal (t.cut lt id)
  size t := t.inorder.length
  values t := t.inorder.map Prod.snd

/-! ### `std::unordered_map` -/

/-- The buckets of a `std::unordered_map`: how many there are, and what is in each. -/
structure HashTable (ι : Type) where
  count : Nat
  bucket : Nat → List (ι × Nat)

namespace HashTable

variable {ι : Type}

/-- All pairs. -/
def pairs (t : HashTable ι) : List (ι × Nat) := (List.range t.count).flatMap t.bucket

/-- `unordered_map::find`: look through the bucket of the key's hash. -/
def find (hash : ι → Nat) (eq : ι → ι → Bool) (t : HashTable ι) (id : ι) : Option Nat :=
  ((t.bucket (hash id % t.count)).find? fun p => eq p.1 id).map Prod.snd

/-- `unordered_map::rehash`: all pairs go into the buckets of their hashes. -/
def rehash (hash : ι → Nat) (n : Nat) (t : HashTable ι) : HashTable ι :=
  ⟨n, fun j => t.pairs.filter fun p => hash p.1 % n = j⟩

/-- `unordered_map::insert` of a key that is not there.  `grow` says how many buckets there are to be when a pair is added
to a table with so many pairs and so many buckets. -/
def put (hash : ι → Nat) (grow : Nat → Nat → Nat) (t : HashTable ι) (id : ι) (a : Nat) : HashTable ι :=
  let t := t.rehash hash (grow t.pairs.length t.count)
  ⟨t.count, fun j => if j = hash id % t.count then (id, a) :: t.bucket j else t.bucket j⟩

/-- `unordered_map::erase`: take the key out of its bucket. -/
def cut (hash : ι → Nat) (eq : ι → ι → Bool) (t : HashTable ι) (id : ι) : HashTable ι :=
  ⟨t.count, fun j => if j = hash id % t.count then (t.bucket j).filter fun p => !eq p.1 id else t.bucket j⟩

end HashTable

/-- `std::unordered_map` with a hash function and an equality, given for the template parameter
(identifiable_item_collection.hpp:32). -/
def hashDict {ι : Type} (hash : ι → Nat) (eq : ι → ι → Bool) (grow : Nat → Nat → Nat) : Dict (HashTable ι) ι where
  empty := ⟨1, fun _ => []⟩
  find := HashTable.find hash eq
  insert := HashTable.put hash grow
  erase := HashTable.cut hash eq
  size t := t.pairs.length
  values t := t.pairs.map Prod.snd

/-! ### The collection -/

/-- The state of the program: the members `_items` and `_ordered_items` (identifiable_item_collection.hpp:244-245), the heap,
and the objects the caller owns. -/
structure DictCollection (δ α : Type) where
  heap : Nat → Option α
  next : Nat
  allocs : Nat
  items : δ
  ordered : List Nat
  outside : List Nat

namespace DictCollection

variable {δ ι α : Type} (D : Dict δ ι) (eq : ι → ι → Bool)

/-- Default constructor (identifiable_item_collection.hpp:59). -/
def empty : DictCollection δ α := ⟨fun _ => none, 0, 0, D.empty, [], []⟩

/-- Ask for memory; see `ItemCollection.request`. -/
def request (mem : Site → Nat → Bool) (site : Site) : St (DictCollection δ α) Bool := fun s =>
  (.ok (mem site s.allocs), { s with allocs := s.allocs + 1 })

/-- `std::make_unique` (identifiable_item_collection.hpp:87, 102 and 171). -/
def newItem (mem : Site → Nat → Bool) (x : α) : St (DictCollection δ α) Nat := do
  if ← request mem .item then
    let s ← St.get
    St.set { s with heap := fun a => if a = s.next then some x else s.heap a, next := s.next + 1 }
    pure s.next
  else
    St.throw .badAlloc

/-- `delete`. -/
def free (a : Nat) : St (DictCollection δ α) Unit := fun s =>
  match s.heap a with
  | none => (.ub, s)
  | some _ => (.ok (), { s with heap := fun b => if b = a then none else s.heap b })

/-- Use the object at an address. -/
def deref (a : Nat) : St (DictCollection δ α) α := fun s =>
  match s.heap a with
  | none => (.ub, s)
  | some x => (.ok x, s)

/-- `insert` of a temporary pair into the associative container (identifiable_item_collection.hpp:226 and 238): if the key is
there, or there is no memory, the pair is destroyed and the object with it. -/
def dictInsert (mem : Site → Nat → Bool) (id : ι) (a : Nat) : St (DictCollection δ α) Bool := do
  let s ← St.get
  match D.find s.items id with
  | some _ => do
    free a
    pure false
  | none => do
    if ← request mem .node then
      let s ← St.get
      St.set { s with items := D.insert s.items id a }
      pure true
    else do
      free a
      St.throw .badAlloc

/-- `erase` by key from the associative container (identifiable_item_collection.hpp:141). -/
def dictErase (id : ι) : St (DictCollection δ α) Unit := do
  let s ← St.get
  match D.find s.items id with
  | none => pure ()
  | some a => do
    St.set { s with items := D.erase s.items id }
    free a

/-- `vector::push_back` (identifiable_item_collection.hpp:228 and 239). -/
def pushBack (mem : Site → Nat → Bool) (a : Nat) : St (DictCollection δ α) Unit := do
  if ← request mem .order then
    let s ← St.get
    St.set { s with ordered := s.ordered ++ [a] }
  else
    St.throw .badAlloc

/-- Do something for every element, collecting the results. -/
def each {β γ : Type} (f : β → St (DictCollection δ α) γ) : List β → St (DictCollection δ α) (List γ)
  | [] => pure []
  | x :: xs => do
    let y ← f x
    let ys ← each f xs
    pure (y :: ys)

/-- `contains` (identifiable_item_collection.hpp:220). -/
def contains (s : DictCollection δ α) (id : ι) : Bool := (D.find s.items id).isSome

/-- `size` (identifiable_item_collection.hpp:79). -/
def size (s : DictCollection δ α) : Nat := D.size s.items

/-- `empty` (identifiable_item_collection.hpp:80). -/
def isEmpty (s : DictCollection δ α) : Bool := D.size s.items == 0

/-- The assertion of both insertion helpers (identifiable_item_collection.hpp:231 and 241). -/
def assertSizes (b : Build) : St (DictCollection δ α) Unit := fun s =>
  (debugAssert b (D.size s.items = s.ordered.length) "item container size mismatch", s)

/-- `_try_unchecked_insert` (identifiable_item_collection.hpp:223-233). -/
def tryUncheckedInsert (b : Build) (mem : Site → Nat → Bool) (idOf : α → ι) (a : Nat) : St (DictCollection δ α) Bool := do
  let x ← deref a
  let inserted ← dictInsert D mem (idOf x) a
  if inserted then pushBack mem a
  assertSizes D b
  pure inserted

/-- `_unchecked_insert` (identifiable_item_collection.hpp:235-242). -/
def uncheckedInsert (b : Build) (mem : Site → Nat → Bool) (idOf : α → ι) (a : Nat) : St (DictCollection δ α) Unit := do
  let x ← deref a
  let _ ← dictInsert D mem (idOf x) a
  pushBack mem a
  assertSizes D b

/-- `insert` of one item (identifiable_item_collection.hpp:82-88). -/
def insert (b : Build) (mem : Site → Nat → Bool) (idOf : α → ι) (x : α) : St (DictCollection δ α) Unit := do
  let s ← St.get
  if s.contains D (idOf x) then
    St.throw (.logicError "Insertion of duplicate ID into identifiable_item_collection")
  else do
    let a ← newItem mem x
    uncheckedInsert D b mem idOf a

/-- `try_insert` of one item (identifiable_item_collection.hpp:101-106). -/
def tryInsert (b : Build) (mem : Site → Nat → Bool) (idOf : α → ι) (x : α) : St (DictCollection δ α) Bool := do
  let a ← newItem mem x
  tryUncheckedInsert D b mem idOf a

/-- `insert` of a range (identifiable_item_collection.hpp:90-94) and the initialiser-list constructor
(identifiable_item_collection.hpp:57). -/
def insertRange (b : Build) (mem : Site → Nat → Bool) (idOf : α → ι) (xs : List α) : St (DictCollection δ α) Unit := do
  let _ ← each (tryInsert D b mem idOf) xs
  pure ()

/-- `insert` of several arguments (identifiable_item_collection.hpp:96-99). -/
def insertAll (b : Build) (mem : Site → Nat → Bool) (idOf : α → ι) (xs : List α) : St (DictCollection δ α) Unit := do
  let _ ← each (insert D b mem idOf) xs
  pure ()

/-- `try_insert` of a range (identifiable_item_collection.hpp:108-120) and of several arguments
(identifiable_item_collection.hpp:122-131). -/
def tryInsertAll (b : Build) (mem : Site → Nat → Bool) (idOf : α → ι) (xs : List α) : St (DictCollection δ α) (List Bool) :=
  each (tryInsert D b mem idOf) xs

/-- `std::find_if` over the ordered pointers, with `id == item->id()` (identifiable_item_collection.hpp:134-135). -/
def findOrdered (idOf : α → ι) (id : ι) : List Nat → St (DictCollection δ α) (Option Nat)
  | [] => pure none
  | a :: as => do
    let x ← deref a
    if eq id (idOf x) then
      pure (some 0)
    else do
      let r ← findOrdered idOf id as
      pure (r.map (· + 1))

/-- `erase` of one id (identifiable_item_collection.hpp:133-144). -/
def erase (idOf : α → ι) (id : ι) : St (DictCollection δ α) Bool := do
  let s ← St.get
  match ← findOrdered eq idOf id s.ordered with
  | none => pure false
  | some i => do
    let s ← St.get
    St.set { s with ordered := s.ordered.eraseIdx i }
    dictErase D id
    pure true

/-- `erase` of a range (identifiable_item_collection.hpp:146-157) and of several arguments
(identifiable_item_collection.hpp:159-167). -/
def eraseAll (idOf : α → ι) (ids : List ι) : St (DictCollection δ α) (List Bool) := each (erase D eq idOf) ids

/-- `emplace` (identifiable_item_collection.hpp:169-178). -/
def emplace (b : Build) (mem : Site → Nat → Bool) (idOf : α → ι) (x : α) : St (DictCollection δ α) Nat := do
  let a ← newItem mem x
  let inserted ← tryUncheckedInsert D b mem idOf a
  if inserted then
    pure a
  else
    St.throw (.logicError "identifiable_item_collection already contains this ID")

/-- The part of `excise` after the node is gone (identifiable_item_collection.hpp:190-196). -/
def exciseOrdered (b : Build) (a : Nat) : St (DictCollection δ α) Unit := do
  let s ← St.get
  match s.ordered.findIdx? (· = a), b with
  | none, .debug => do
    free a
    St.throw (.assertion "Failed to find item in orderer items that was found in associative items")
  | none, .aborting => St.lift .terminate
  | none, .release => St.ub
  | some i, _ => St.set { s with ordered := s.ordered.eraseIdx i, outside := a :: s.outside }

/-- `excise` (identifiable_item_collection.hpp:180-197). -/
def excise (b : Build) (id : ι) : St (DictCollection δ α) (Option Nat) := do
  let s ← St.get
  match D.find s.items id with
  | none => pure none
  | some a => do
    St.set { s with items := D.erase s.items id }
    exciseOrdered b a
    pure (some a)

/-- `clear` (identifiable_item_collection.hpp:215-218); also what the destructor does. -/
def clear : St (DictCollection δ α) Unit := do
  let s ← St.get
  let _ ← each free (D.values s.items)
  let s ← St.get
  St.set { s with items := D.empty, ordered := [] }

/-- `at` with an id (identifiable_item_collection.hpp:199-205). -/
def atId (s : DictCollection δ α) (id : ι) : Outcome α :=
  match D.find s.items id with
  | some a => (deref a s).1
  | none => .throw (.outOfRange "identifiable_item_collection failed to retreive item by ID")

/-- `at` with an index (identifiable_item_collection.hpp:207-213). -/
def atIndex (s : DictCollection δ α) (i : Nat) : Outcome α :=
  match s.ordered[i]? with
  | some a => (deref a s).1
  | none => .throw (.outOfRange "identifiable_item_collection failed to retreive item by index")

/-- Iteration from `begin()` to `end()` (identifiable_item_collection.hpp:63-71). -/
def iterate (s : DictCollection δ α) : Outcome (List α) := (each deref s.ordered s).1

/-- The caller modifies an item through the reference `emplace` returned (identifiable_item_collection.hpp:177); see
`ItemCollection.modify`. -/
def modify (id : ι) (f : α → α) : St (DictCollection δ α) Unit := fun s =>
  match D.find s.items id with
  | none => (.ok (), s)
  | some a =>
    match s.heap a with
    | none => (.ub, s)
    | some x => (.ok (), { s with heap := fun b => if b = a then some (f x) else s.heap b })

/-- The caller destroys an item obtained by `excise`; nothing happens if it is not one. -/
def drop (a : Nat) : St (DictCollection δ α) Unit := do
  let s ← St.get
  if a ∈ s.outside then do
    St.set { s with outside := s.outside.filter (· ≠ a) }
    free a
  else
    pure ()

/-- One call (identifiable_item_collection.hpp:82-218). -/
def step (b : Build) (mem : Site → Nat → Bool) (idOf : α → ι) : ItemCollection.Op ι α → St (DictCollection δ α) ItemCollection.Ret
  | .insert x => do insert D b mem idOf x; pure .unit
  | .insertRange xs => do insertRange D b mem idOf xs; pure .unit
  | .insertAll xs => do insertAll D b mem idOf xs; pure .unit
  | .tryInsert x => do let r ← tryInsert D b mem idOf x; pure (.flag r)
  | .tryInsertAll xs => do let r ← tryInsertAll D b mem idOf xs; pure (.flags r)
  | .erase id => do let r ← erase D eq idOf id; pure (.flag r)
  | .eraseAll ids => do let r ← eraseAll D eq idOf ids; pure (.flags r)
  | .emplace x => do let r ← emplace D b mem idOf x; pure (.ref r)
  | .excise id => do let r ← excise D b id; pure (.owned r)
  | .clear => do clear D; pure .unit
  | .modify id f => do modify D id f; pure .unit
  | .drop a => do drop a; pure .unit

end DictCollection

end Wite.Collections
