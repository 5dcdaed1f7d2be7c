import Verif.Model.StaticVector

/-!
# Model of `wite/collections/dereferencing_iterator.hpp`

An iterator points into an array of `slots` elements: the storage of a `static_vector` (all of its
capacity) or the vector of pointers of an `identifiable_item_collection`.  Positions are numbered from the
first element; forming a pointer before the first or after one past the last is undefined.  Debug builds also
store the parent container, its begin (position 0) and its end.

The const and the mutable iterator do the same (dereferencing_iterator.hpp:158-259 forwards to the base
class, repeating the assertions of `+` and `-`), so one model serves for both.  `swap`
(dereferencing_iterator.hpp:142-151) names a member `ptr` that does not exist and cannot be called; it is
not modelled.  Pointers into different arrays: subtracting is undefined, ordering unspecified.
-/

namespace Wite.Collections

/-- The members (dereferencing_iterator.hpp:153-161): the position, the parent (as a number), and the end of the
parent when the iterator was made. -/
structure DerefIter where
  pos : Nat
  parent : Nat
  parentEnd : Nat
  deriving DecidableEq, Repr

namespace DerefIter

/-- `begin()` of the container numbered `parent` with `size` elements (static_vector.hpp:88-95,
identifiable_item_collection.hpp:63-66). -/
def begin' (parent size : Nat) : DerefIter := ⟨0, parent, size⟩

/-- `end()` (static_vector.hpp:96-103, identifiable_item_collection.hpp:67-71). -/
def end' (parent size : Nat) : DerefIter := ⟨size, parent, size⟩

/-- Pointer arithmetic in an array of `slots` elements. -/
def ptrAdd (slots pos : Nat) (offset : Int) : Outcome Nat :=
  if 0 ≤ (pos : Int) + offset ∧ (pos : Int) + offset ≤ slots then .ok ((pos : Int) + offset).toNat else .ub

/-- `_WITE_DEBUG_ASSERT` of a condition on a computed pointer: release builds do not compute it. -/
def assertPtr (b : Build) (ptr : Outcome Nat) (cond : Nat → Bool) (msg : String) : Outcome Unit :=
  match b with
  | .release => .ok ()
  | .debug | .aborting => do
    let p ← ptr
    debugAssert b (cond p) msg

/-- `operator++` (dereferencing_iterator.hpp:60-71 and 196-205). -/
def incr (b : Build) (slots : Nat) (it : DerefIter) : Outcome DerefIter := do
  debugAssert b (it.pos ≠ it.parentEnd) "static_vector::operator++: incrementing past end"
  let p ← ptrAdd slots it.pos 1
  pure { it with pos := p }

/-- `operator--` (dereferencing_iterator.hpp:73-84 and 207-216). -/
def decr (b : Build) (slots : Nat) (it : DerefIter) : Outcome DerefIter := do
  debugAssert b (it.pos ≠ 0) "static_vector::operator--: decrementing past beginning"
  let p ← ptrAdd slots it.pos (-1)
  pure { it with pos := p }

/-- `operator+=` (dereferencing_iterator.hpp:86-91 and 218-221).  That a computed pointer is not before the begin
is true of every pointer that can be computed. -/
def addAssign (b : Build) (slots : Nat) (offset : Int) (it : DerefIter) : Outcome DerefIter := do
  assertPtr b (ptrAdd slots it.pos offset) (fun p => 0 ≤ p) "static_vector::operator+=: decrementing past beginning"
  assertPtr b (ptrAdd slots it.pos offset) (fun p => p < it.parentEnd) "static_vector::operator+=: incrementing past end"
  let p ← ptrAdd slots it.pos offset
  pure { it with pos := p }

/-- `operator-=` (dereferencing_iterator.hpp:93-98 and 223-226). -/
def subAssign (b : Build) (slots : Nat) (offset : Int) (it : DerefIter) : Outcome DerefIter := do
  assertPtr b (ptrAdd slots it.pos (-offset)) (fun p => 0 ≤ p) "static_vector::operator-=: decrementing past beginning"
  assertPtr b (ptrAdd slots it.pos (-offset)) (fun p => p < it.parentEnd) "static_vector::operator-=: incrementing past end"
  let p ← ptrAdd slots it.pos (-offset)
  pure { it with pos := p }

/-- `operator+` (dereferencing_iterator.hpp:100-107 and 228-236). -/
def plus (b : Build) (slots : Nat) (it : DerefIter) (offset : Int) : Outcome DerefIter := do
  assertPtr b (ptrAdd slots it.pos offset) (fun p => 0 ≤ p) "static_vector::operator+: decrementing past beginning"
  assertPtr b (ptrAdd slots it.pos offset) (fun p => p < it.parentEnd) "static_vector::operator+: incrementing past end"
  addAssign b slots offset it

/-- `operator-` with an offset (dereferencing_iterator.hpp:109-116 and 238-246). -/
def minus (b : Build) (slots : Nat) (it : DerefIter) (offset : Int) : Outcome DerefIter := do
  assertPtr b (ptrAdd slots it.pos (-offset)) (fun p => 0 ≤ p) "static_vector::operator-: decrementing past beginning"
  assertPtr b (ptrAdd slots it.pos (-offset)) (fun p => p < it.parentEnd) "static_vector::operator-: incrementing past end"
  subAssign b slots offset it

/-- `operator-` with an iterator (dereferencing_iterator.hpp:118-122 and 248-250). -/
def distance (b : Build) (it other : DerefIter) : Outcome Int := do
  debugAssert b (it.parent = other.parent)
    "static_vector::operator-: distance comparison between two iterators with different parent containers"
  if it.parent = other.parent then pure ((it.pos : Int) - other.pos) else .ub

/-- `operator==` (dereferencing_iterator.hpp:130): equality of the pointers. -/
def eq (it other : DerefIter) : Bool := it.parent == other.parent && it.pos == other.pos

/-- `operator!=` (dereferencing_iterator.hpp:132-134). -/
def ne (it other : DerefIter) : Bool := !eq it other

/-- `operator<=>` (dereferencing_iterator.hpp:136-140): order of the pointers; `unspecified` is what the
implementation says of pointers into different arrays. -/
def cmp (b : Build) (unspecified : DerefIter → DerefIter → Ordering) (it other : DerefIter) : Outcome Ordering := do
  debugAssert b (it.parent = other.parent)
    "static_vector::operator<=>: comparison between two iterators with different parent containers"
  pure (if it.parent = other.parent then compare it.pos other.pos else unspecified it other)

/-- `operator*` and `operator->` (dereferencing_iterator.hpp:57-58 and 193-194) of an iterator into a
`static_vector`. -/
def deref {α : Type} (v : StaticVector α) (it : DerefIter) : Outcome α := v.index it.pos

/-- `operator[]` (dereferencing_iterator.hpp:124-128 and 252-254) of an iterator into a `static_vector`:
`optional::value()` throws for an empty optional, which leaves a `noexcept` function unless assertions throw
(core/assert.hpp:15, 55 and 67). -/
def subscript {α : Type} (b : Build) (v : StaticVector α) (it : DerefIter) (offset : Int) : Outcome α := do
  debugAssert b (0 ≤ offset) "static_vector::operator[]: negative indices are invalid"
  assertPtr b (ptrAdd v.data.length it.pos offset) (fun p => p < it.parentEnd) "static_vector::operator[]: index out of range"
  let p ← ptrAdd v.data.length it.pos offset
  match v.data[p]? with
  | none => .ub
  | some (some x) => .ok x
  | some none =>
    match b with
    | .debug => .throw (.logicError "bad optional access")
    | .aborting | .release => .terminate

/-- `n` increments. -/
def incrs (b : Build) (slots : Nat) : Nat → DerefIter → Outcome DerefIter
  | 0, it => .ok it
  | n + 1, it => do
    let it' ← incr b slots it
    incrs b slots n it'

/-- `n` decrements. -/
def decrs (b : Build) (slots : Nat) : Nat → DerefIter → Outcome DerefIter
  | 0, it => .ok it
  | n + 1, it => do
    let it' ← decr b slots it
    decrs b slots n it'

/-- `for (it = begin(); it != end(); ++it)` collecting `*it` (a range `for` over a `static_vector`); the fuel bounds the
number of rounds, `diverge` is the outcome when it runs out. -/
def loop {α : Type} (b : Build) (v : StaticVector α) (last : DerefIter) : Nat → DerefIter → Outcome (List α)
  | 0, it => if ne it last then .diverge else .ok []
  | fuel + 1, it =>
    if ne it last then do
      let x ← deref v it
      let it' ← incr b v.data.length it
      let xs ← loop b v last fuel it'
      pure (x :: xs)
    else .ok []

end DerefIter

end Wite.Collections
