import Verif.Model.DerefIterator

/-!
# Standard algorithms over the iterators of a `static_vector`

The algorithms are those of the standard library, not of `/repo`; each is written out here with exactly the iterator
operations the library's own code performs, because those operations are the ones of
`wite/collections/dereferencing_iterator.hpp` and they check more in debug builds than in release builds.

* `lowerBound`: `std::lower_bound` as in the C++ standard's description and in libstdc++, libc++ and MSVC's library:
  a distance, `+=` by half of it, one increment.
* `insertionSort`: what `std::sort` does with at most sixteen elements in libstdc++ (`step` is then `it + 1`) and with
  at most thirty-two in MSVC's library (`step` is then `++`).

Simplifications: comparisons do not throw and do not modify elements; a moved-from element keeps its value (the
algorithms assign to it before they read it again).
-/

namespace Wite.Collections.Algorithms

open DerefIter

variable {α : Type}

/-- `*it` (dereferencing_iterator.hpp:57 and 193). -/
def load (it : DerefIter) : St (StaticVector α) α := fun v => (DerefIter.deref v it, v)

/-- `*it = x` (dereferencing_iterator.hpp:193): assignment to the element; for an empty optional or outside of the array
that is undefined. -/
def store (it : DerefIter) (x : α) : St (StaticVector α) Unit := fun v =>
  match DerefIter.deref v it with
  | .ok _ => (.ok (), { v with data := v.data.set it.pos (some x) })
  | _ => (.ub, v)

/-- The loop of `std::lower_bound`; `len` is what is left to search, the fuel bounds the number of rounds. -/
def lowerBoundLoop (b : Build) (less : α → Bool) (v : StaticVector α) : Nat → Nat → DerefIter → Outcome DerefIter
  | 0, _, _ => .diverge
  | fuel + 1, len, first =>
    if len = 0 then .ok first
    else do
      let middle ← DerefIter.addAssign b v.data.length ((len / 2 : Nat) : Int) first
      let x ← DerefIter.deref v middle
      if less x then do
        let next ← DerefIter.incr b v.data.length middle
        lowerBoundLoop b less v fuel (len - len / 2 - 1) next
      else lowerBoundLoop b less v fuel (len / 2) first

/-- `std::lower_bound(first, last, x)` (no counterpart in `/repo`; over dereferencing_iterator.hpp:57-122); `less y` is
`y < x`. -/
def lowerBound (b : Build) (less : α → Bool) (v : StaticVector α) (first last : DerefIter) : Outcome DerefIter := do
  let len ← DerefIter.distance b last first
  lowerBoundLoop b less v (len.toNat + 1) len.toNat first

/-- `std::move_backward(first, last, result)`: `n` elements, each `*--result = *--last` (over
dereferencing_iterator.hpp:193 and 207-210). -/
def moveBackward (b : Build) (slots : Nat) : Nat → DerefIter → DerefIter → St (StaticVector α) Unit
  | 0, _, _ => pure ()
  | n + 1, last, result => do
    let last' ← St.lift (DerefIter.decr b slots last)
    let result' ← St.lift (DerefIter.decr b slots result)
    let x ← load last'
    store result' x
    moveBackward b slots n last' result'

/-- The loop of `__unguarded_linear_insert`: while the value is less than `*next`, move `*next` to `*last` and step both
back; then assign the value.  The fuel bounds the number of rounds. -/
def unguardedInsert (b : Build) (slots : Nat) (less : α → α → Bool) (val : α) :
    Nat → DerefIter → DerefIter → St (StaticVector α) Unit
  | 0, _, _ => St.lift .diverge
  | fuel + 1, last, next => do
    let x ← load next
    if less val x then do
      store last x
      let next' ← St.lift (DerefIter.decr b slots next)
      unguardedInsert b slots less val fuel next next'
    else store last val

/-- One round of the insertion sort: put `*i` where it belongs among the elements before it.  `step` computes the
iterator after `i`. -/
def insertOne (b : Build) (slots : Nat) (step : DerefIter → Outcome DerefIter) (less : α → α → Bool)
    (first i : DerefIter) : St (StaticVector α) Unit := do
  let val ← load i
  let f ← load first
  if less val f then do
    let result ← St.lift (step i)
    let n ← St.lift (DerefIter.distance b i first)
    moveBackward b slots n.toNat i result
    store first val
  else do
    let next ← St.lift (DerefIter.decr b slots i)
    unguardedInsert b slots less val (i.pos + 1) i next

/-- The loop of the insertion sort; the fuel bounds the number of rounds. -/
def insertionLoop (b : Build) (slots : Nat) (step : DerefIter → Outcome DerefIter) (less : α → α → Bool)
    (first last : DerefIter) : Nat → DerefIter → St (StaticVector α) Unit
  | 0, _ => St.lift .diverge
  | fuel + 1, i =>
    if DerefIter.ne i last then do
      insertOne b slots step less first i
      let i' ← St.lift (DerefIter.incr b slots i)
      insertionLoop b slots step less first last fuel i'
    else pure ()

/-- The insertion sort: nothing for an empty range, else from the second element on. -/
def insertionSort (b : Build) (slots : Nat) (step : DerefIter → Outcome DerefIter) (less : α → α → Bool)
    (first last : DerefIter) : St (StaticVector α) Unit :=
  if DerefIter.eq first last then pure ()
  else do
    let i ← St.lift (step first)
    insertionLoop b slots step less first last (last.pos + 1) i

/-- `std::sort(first, last, less)` of libstdc++ for at most sixteen elements (no counterpart in `/repo`; over
dereferencing_iterator.hpp:193-250): the iterator after `i` is `i + 1`. -/
def sortPlus (b : Build) (less : α → α → Bool) (first last : DerefIter) : St (StaticVector α) Unit := fun v =>
  (insertionSort b v.data.length (fun i => DerefIter.plus b v.data.length i 1) less first last).run v

/-- `std::sort(first, last, less)` of MSVC's library for at most thirty-two elements: the iterator after `i` is computed
by `++`. -/
def sortIncr (b : Build) (less : α → α → Bool) (first last : DerefIter) : St (StaticVector α) Unit := fun v =>
  (insertionSort b v.data.length (DerefIter.incr b v.data.length) less first last).run v

end Wite.Collections.Algorithms
