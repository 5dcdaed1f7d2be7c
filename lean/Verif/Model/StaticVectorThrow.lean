import Verif.Model.StaticVector

/-!
# `wite/collections/static_vector.hpp` with elements whose constructors throw

`Model/StaticVector.lean` assumes that constructing elements does not throw.  Here default construction and copying
may: `ok kind n` says whether the `n`-th construction of the program succeeds.  A constructor that fails
throws `Exc.user 0`.  Moving elements does not throw, as for any well-behaved type.

`_alloc` (static_vector.hpp:176) is `noexcept` only if copying an element is, so an exception of a copy leaves
it.  Whether the caller copies or moves the fill value into the parameter of `resize` is said by `copied`.
-/

namespace Wite.Collections

/-- What can fail. -/
inductive Making where
  /-- `value_type{}` -/
  | default
  /-- `value_type{v}` -/
  | copy
  deriving DecidableEq, Repr

/-- A vector (static_vector.hpp:195-196) and the number of elements constructed so far. -/
structure ThrowVec (α : Type) where
  vec : StaticVector α
  made : Nat
  deriving DecidableEq, Repr

namespace ThrowVec

variable {α : Type}

/-- Construct an element. -/
def make (ok : Making → Nat → Bool) (kind : Making) : St (ThrowVec α) Unit := fun s =>
  (if ok kind s.made then .ok () else .throw (.user 0), { s with made := s.made + 1 })

/-- Assign to a slot of the array; outside of it that is undefined. -/
def setSlot (pos : Nat) (x : Option α) : St (ThrowVec α) Unit := fun s =>
  if pos < s.vec.data.length then (.ok (), { s with vec := { s.vec with data := s.vec.data.set pos x } }) else (.ub, s)

/-- The loop of `std::generate_n` in `_alloc` (static_vector.hpp:177): make a copy, move it into the slot. -/
def generate (ok : Making → Nat → Bool) (x : α) : Nat → Nat → St (ThrowVec α) Unit
  | _, 0 => pure ()
  | pos, n + 1 => do
    make ok .copy
    setSlot pos (some x)
    generate ok x (pos + 1) n

/-- `_alloc` (static_vector.hpp:176-178). -/
def alloc (ok : Making → Nat → Bool) (n : Nat) (x : α) : St (ThrowVec α) Unit := do
  let s ← St.get
  generate ok x s.vec.count n

/-- `_destroy_last_n` (static_vector.hpp:180-183): destroying does not throw. -/
def destroyLastN (n : Nat) : St (ThrowVec α) Unit := fun s =>
  match StaticVector.destroyLastN n s.vec with
  | .ok v => (.ok (), { s with vec := v })
  | _ => (.ub, s)

/-- `_item_count = n` (static_vector.hpp:192). -/
def setCount (n : Nat) : St (ThrowVec α) Unit := fun s => (.ok (), { s with vec := { s.vec with count := n } })

/-- `_unsafe_resize` (static_vector.hpp:185-193). -/
def unsafeResize (ok : Making → Nat → Bool) (n : Nat) (x : α) : St (ThrowVec α) Unit := do
  let s ← St.get
  if n > s.vec.size then alloc ok (n - s.vec.size) x
  else if n < s.vec.size then destroyLastN (s.vec.size - n)
  setCount n

/-- `resize` with a fill value (static_vector.hpp:149-155).  The parameter is initialised first, by a copy or a move. -/
def resize (ok : Making → Nat → Bool) (copied : Bool) (newSize : Nat) (x : α) : St (ThrowVec α) Unit := do
  if copied then make ok .copy
  let s ← St.get
  if newSize > s.vec.capacity then
    St.throw (.lengthError "static_vector: new size exceeds max size")
  else
    unsafeResize ok newSize x

/-- `resize` without a fill value (static_vector.hpp:141-147): the default argument of `_unsafe_resize`
(static_vector.hpp:185) is constructed by every call. -/
def resizeDefault (ok : Making → Nat → Bool) (d : α) (newSize : Nat) : St (ThrowVec α) Unit := do
  let s ← St.get
  if newSize > s.vec.capacity then
    St.throw (.lengthError "static_vector: new size exceeds max size")
  else do
    make ok .default
    unsafeResize ok newSize d

/-- `push_back` of an lvalue (copied) or an rvalue (static_vector.hpp:157-159). -/
def pushBack (ok : Making → Nat → Bool) (copied : Bool) (x : α) : St (ThrowVec α) Unit := do
  let s ← St.get
  resize ok copied ((s.vec.size + 1) % 2 ^ 64) x

/-- `clear` (static_vector.hpp:163). -/
def clear : St (ThrowVec α) Unit := fun s => (.ok (), { s with vec := s.vec.clear })

/-- The slots of the defaulted copy assignment (static_vector.hpp:66), one after another: an empty optional empties the slot, an
engaged one is copied. -/
def assignSlots (ok : Making → Nat → Bool) : Nat → List (Option α) → St (ThrowVec α) Unit
  | _, [] => pure ()
  | pos, none :: src => do
    setSlot pos none
    assignSlots ok (pos + 1) src
  | pos, some x :: src => do
    make ok .copy
    setSlot pos (some x)
    assignSlots ok (pos + 1) src

/-- The defaulted copy assignment (static_vector.hpp:66) from another vector: the array first, then the count.  That a copy
which throws leaves the old element of its slot is a simplification. -/
def copyAssign (ok : Making → Nat → Bool) (src : StaticVector α) : St (ThrowVec α) Unit := do
  assignSlots ok 0 src.data
  setCount src.count

/-- The calls of a program on one vector. -/
inductive Op (α : Type) where
  | pushBack (copied : Bool) (x : α)
  | resize (copied : Bool) (n : Nat) (x : α)
  | resizeDefault (n : Nat)
  | clear

/-- One call (static_vector.hpp:141-163); `d` is `value_type{}`. -/
def step (ok : Making → Nat → Bool) (d : α) : Op α → St (ThrowVec α) Unit
  | .pushBack copied x => pushBack ok copied x
  | .resize copied n x => resize ok copied n x
  | .resizeDefault n => resizeDefault ok d n
  | .clear => clear

end ThrowVec

end Wite.Collections
