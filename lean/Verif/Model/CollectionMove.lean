import Verif.Model.ItemCollection

/-!
# Several collections: moving `wite/collections/identifiable_item_collection.hpp`

`Model/ItemCollection.lean` follows one collection.  Here a program has `n` of them on one heap and can move them.  The
move operations are defaulted (identifiable_item_collection.hpp:60-61), so the map and the vector are moved;
what a moved-from map and vector contain is not said by the standard for move assignment, but they are empty in the known
implementations, and that is assumed.  Move construction is move assignment to a collection not used before.  A collection
moved to itself is empty afterwards, as with libstdc++.
-/

namespace Wite.Collections

/-- The members of one collection (identifiable_item_collection.hpp:244-245). -/
structure Members (ι : Type) where
  items : List (ι × Nat)
  ordered : List Nat

/-- The state of the program: heap, collections, objects the caller owns. -/
structure Colls (n : Nat) (ι α : Type) where
  heap : Nat → Option α
  next : Nat
  allocs : Nat
  colls : Fin n → Members ι
  outside : List Nat

namespace Colls

variable {n : Nat} {ι α : Type} [DecidableEq ι]

/-- `n` collections, default constructed (identifiable_item_collection.hpp:59). -/
def empty : Colls n ι α := ⟨fun _ => none, 0, 0, fun _ => ⟨[], []⟩, []⟩

/-- One of the collections, as the member functions see it. -/
def view (w : Colls n ι α) (i : Fin n) : ItemCollection ι α :=
  ⟨w.heap, w.next, w.allocs, (w.colls i).items, (w.colls i).ordered, w.outside⟩

/-- The program after a member function has left collection `i` in a state. -/
def back (w : Colls n ι α) (i : Fin n) (s : ItemCollection ι α) : Colls n ι α :=
  ⟨s.heap, s.next, s.allocs, fun k => if k = i then ⟨s.items, s.ordered⟩ else w.colls k, s.outside⟩

/-- A member function called on collection `i`. -/
def on {β : Type} (i : Fin n) (x : St (ItemCollection ι α) β) : St (Colls n ι α) β := fun w =>
  ((x.run (w.view i)).1, w.back i (x.run (w.view i)).2)

/-- Replace the members of collection `i`. -/
def setMembers (i : Fin n) (m : Members ι) : St (Colls n ι α) Unit := fun w =>
  (.ok (), { w with colls := fun k => if k = i then m else w.colls k })

/-- Move assignment to `i` from `j` (identifiable_item_collection.hpp:61): the items of the target are destroyed, the members
of the source taken over. -/
def move (i j : Fin n) : St (Colls n ι α) Unit := do
  on i ItemCollection.clear
  let w ← St.get
  setMembers j ⟨[], []⟩
  setMembers i (w.colls j)

/-- The calls a program can make.  (For `drop`, which is not a call of a collection, it does not matter which collection it is
attributed to.) -/
inductive Op (n : Nat) (ι α : Type) where
  | call (i : Fin n) (op : ItemCollection.Op ι α)
  | move (i j : Fin n)

/-- One call (identifiable_item_collection.hpp:61 and 82-218). -/
def step (b : Build) (mem : Site → Nat → Bool) (idOf : α → ι) : Op n ι α → St (Colls n ι α) ItemCollection.Ret
  | .call i op => on i (ItemCollection.step b mem idOf op)
  | .move i j => do
    move i j
    pure .unit

end Colls

end Wite.Collections
