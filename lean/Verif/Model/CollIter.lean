import Verif.Model.CollectionMove
import Verif.Model.DerefIterator

/-!
# Iterators of an `identifiable_item_collection` that is moved

`Model/DerefIterator.lean` identifies a container with its array.  When a collection is moved
(identifiable_item_collection.hpp:60-61) its vector, and with it the array the iterators point into, passes to another
collection, so here an iterator has the array separately.  Debug builds still store the collection it was obtained from.
`operator[]` (dereferencing_iterator.hpp:124-128) asks an element for its `value()`, which a pointer does not have, so it
cannot be called on these iterators.
-/

namespace Wite.Collections

/-- A program with `n` collections, and what `_ordered_items.data()` is in each of them (`none` is the null pointer). -/
structure Arrays (n : Nat) (ι α : Type) where
  w : Colls n ι α
  data : Fin n → Option Nat

/-- The members (dereferencing_iterator.hpp:153-161): `_ptr` is the array and the position in it, `_parent` the collection,
`_parent_end` the end of the same array when the iterator was made. -/
structure CollIter (n : Nat) where
  array : Option Nat
  pos : Nat
  parent : Fin n
  parentEnd : Nat
  deriving DecidableEq

namespace CollIter

variable {n : Nat} {ι α : Type} [DecidableEq ι]

/-- `begin()` (identifiable_item_collection.hpp:63-66). -/
def begin' (s : Arrays n ι α) (i : Fin n) : CollIter n := ⟨s.data i, 0, i, (s.w.colls i).ordered.length⟩

/-- `end()` (identifiable_item_collection.hpp:67-71). -/
def end' (s : Arrays n ι α) (i : Fin n) : CollIter n :=
  ⟨s.data i, (s.w.colls i).ordered.length, i, (s.w.colls i).ordered.length⟩

/-- Move assignment to `i` from `j` (identifiable_item_collection.hpp:61): the array of the source passes to the target; a
vector that was moved from has none. -/
def move (i j : Fin n) : St (Arrays n ι α) Unit := fun s =>
  (((Colls.move i j).run s.w).1,
    { w := ((Colls.move i j).run s.w).2, data := fun k => if k = j then none else if k = i then s.data j else s.data k })

/-- The elements of an array: those of the vector that owns it.  `none` if no vector does. -/
def elements (s : Arrays n ι α) (array : Option Nat) : Option (List Nat) :=
  (array.bind fun a => (List.finRange n).find? fun k => s.data k = some a).map fun k => (s.w.colls k).ordered

/-- `operator*` (dereferencing_iterator.hpp:57). -/
def deref (s : Arrays n ι α) (it : CollIter n) : Outcome α :=
  match elements s it.array with
  | none => .ub
  | some as =>
    match as[it.pos]? with
    | none => .ub
    | some a =>
      match s.w.heap a with
      | none => .ub
      | some x => .ok x

/-- `operator++` (dereferencing_iterator.hpp:60-65). -/
def incr (b : Build) (s : Arrays n ι α) (it : CollIter n) : Outcome (CollIter n) := do
  debugAssert b (it.pos ≠ it.parentEnd) "static_vector::operator++: incrementing past end"
  match elements s it.array with
  | none => .ub
  | some as => if it.pos < as.length then pure { it with pos := it.pos + 1 } else .ub

/-- `operator-` with an iterator (dereferencing_iterator.hpp:118-122): pointers into different arrays cannot be
subtracted. -/
def distance (b : Build) (it other : CollIter n) : Outcome Int := do
  debugAssert b (it.parent = other.parent)
    "static_vector::operator-: distance comparison between two iterators with different parent containers"
  if it.array = other.array then pure ((it.pos : Int) - other.pos) else .ub

/-- `operator==` (dereferencing_iterator.hpp:130). -/
def eq (it other : CollIter n) : Bool := it.array == other.array && it.pos == other.pos

/-- `operator<=>` (dereferencing_iterator.hpp:136-140): order of the pointers; `unspecified` is what the
implementation says of pointers into different arrays. -/
def cmp (b : Build) (unspecified : CollIter n → CollIter n → Ordering) (it other : CollIter n) : Outcome Ordering := do
  debugAssert b (it.parent = other.parent)
    "static_vector::operator<=>: comparison between two iterators with different parent containers"
  pure (if it.array = other.array then compare it.pos other.pos else unspecified it other)

/-- `for (; it != last; ++it)` collecting `*it`; the fuel bounds the number of rounds, `diverge` is the outcome when it runs
out. -/
def loop (b : Build) (s : Arrays n ι α) (last : CollIter n) : Nat → CollIter n → Outcome (List α)
  | 0, it => if eq it last then .ok [] else .diverge
  | fuel + 1, it =>
    if eq it last then .ok []
    else do
      let x ← deref s it
      let it' ← incr b s it
      let xs ← loop b s last fuel it'
      pure (x :: xs)

end CollIter

end Wite.Collections
