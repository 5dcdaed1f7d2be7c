import Verif.Model.DerefIterator
import Verif.Model.ItemCollection

/-!
# Reverse iteration over the collections

`reverse_iterator` of `static_vector` (static_vector.hpp:63-64 and 104-107) and of
`identifiable_item_collection` (identifiable_item_collection.hpp:50-51 and 72-73) is
`std::reverse_iterator` over the iterator of `wite/collections/dereferencing_iterator.hpp`.  It keeps a base iterator and
does everything by calling the base iterator's operators, so the debug assertions of those apply.

Reading an element of the container is a parameter `read` of the functions below, which serves both
containers.
-/

namespace Wite.Collections

/-- `std::reverse_iterator` (static_vector.hpp:63-64, identifiable_item_collection.hpp:50-51): its only member is the
base iterator, which points one behind the element. -/
structure RevIter where
  current : DerefIter
  deriving DecidableEq, Repr

namespace RevIter

/-- `rbegin()` (static_vector.hpp:104-105, identifiable_item_collection.hpp:72). -/
def rbegin (parent size : Nat) : RevIter := ⟨DerefIter.end' parent size⟩

/-- `rend()` (static_vector.hpp:106-107, identifiable_item_collection.hpp:73). -/
def rend (parent size : Nat) : RevIter := ⟨DerefIter.begin' parent size⟩

/-- `*r`: a copy of the base is decremented and dereferenced (dereferencing_iterator.hpp:73-78 and 57). -/
def deref {α : Type} (b : Build) (slots : Nat) (read : Nat → Outcome α) (r : RevIter) : Outcome α := do
  let t ← DerefIter.decr b slots r.current
  read t.pos

/-- `++r` decrements the base (dereferencing_iterator.hpp:73-78). -/
def incr (b : Build) (slots : Nat) (r : RevIter) : Outcome RevIter := do
  let t ← DerefIter.decr b slots r.current
  pure ⟨t⟩

/-- `--r` increments the base (dereferencing_iterator.hpp:60-65). -/
def decr (b : Build) (slots : Nat) (r : RevIter) : Outcome RevIter := do
  let t ← DerefIter.incr b slots r.current
  pure ⟨t⟩

/-- `r + n` is `reverse_iterator(base - n)` (dereferencing_iterator.hpp:109-116). -/
def plus (b : Build) (slots : Nat) (r : RevIter) (n : Int) : Outcome RevIter := do
  let t ← DerefIter.minus b slots r.current n
  pure ⟨t⟩

/-- `r - n` is `reverse_iterator(base + n)` (dereferencing_iterator.hpp:100-107). -/
def minus (b : Build) (slots : Nat) (r : RevIter) (n : Int) : Outcome RevIter := do
  let t ← DerefIter.plus b slots r.current n
  pure ⟨t⟩

/-- `r += n` is `base -= n` (dereferencing_iterator.hpp:93-98). -/
def addAssign (b : Build) (slots : Nat) (n : Int) (r : RevIter) : Outcome RevIter := do
  let t ← DerefIter.subAssign b slots n r.current
  pure ⟨t⟩

/-- `r -= n` is `base += n` (dereferencing_iterator.hpp:86-91). -/
def subAssign (b : Build) (slots : Nat) (n : Int) (r : RevIter) : Outcome RevIter := do
  let t ← DerefIter.addAssign b slots n r.current
  pure ⟨t⟩

/-- `r[n]` as libstdc++ and libc++ have it: `*(r + n)` (dereferencing_iterator.hpp:109-116, 73-78 and 57). -/
def subscript {α : Type} (b : Build) (slots : Nat) (read : Nat → Outcome α) (r : RevIter) (n : Int) : Outcome α := do
  let r' ← plus b slots r n
  deref b slots read r'

/-- `r[n]` as the standard describes it and Microsoft's library has it: `base[-n - 1]`
(dereferencing_iterator.hpp:124-128), for a `static_vector`. -/
def subscriptBase {α : Type} (b : Build) (v : StaticVector α) (r : RevIter) (n : Int) : Outcome α :=
  DerefIter.subscript b v r.current (-n - 1)

/-- `x - y` is `y.base() - x.base()` (dereferencing_iterator.hpp:118-122). -/
def distance (b : Build) (x y : RevIter) : Outcome Int := DerefIter.distance b y.current x.current

/-- `x != y` is `x.base() != y.base()` (dereferencing_iterator.hpp:132-134). -/
def ne (x y : RevIter) : Bool := DerefIter.ne x.current y.current

/-- `x <=> y` is `y.base() <=> x.base()` (dereferencing_iterator.hpp:136-140). -/
def cmp (b : Build) (unspecified : DerefIter → DerefIter → Ordering) (x y : RevIter) : Outcome Ordering :=
  DerefIter.cmp b unspecified y.current x.current

/-- `n` increments. -/
def incrs (b : Build) (slots : Nat) : Nat → RevIter → Outcome RevIter
  | 0, r => .ok r
  | n + 1, r => do
    let r' ← incr b slots r
    incrs b slots n r'

/-- `for (r = rbegin(); r != rend(); ++r)` collecting `*r`; the fuel bounds the number of rounds, `diverge` is the outcome
when it runs out. -/
def loop {α : Type} (b : Build) (slots : Nat) (read : Nat → Outcome α) (last : RevIter) : Nat → RevIter → Outcome (List α)
  | 0, r => if ne r last then .diverge else .ok []
  | fuel + 1, r =>
    if ne r last then do
      let x ← deref b slots read r
      let r' ← incr b slots r
      let xs ← loop b slots read last fuel r'
      pure (x :: xs)
    else .ok []

/-- Dereferencing the iterator of a collection at a position (dereferencing_iterator.hpp:57,
identifiable_item_collection.hpp:63-71): the object the pointer there points to. -/
def readItem {ι α : Type} (s : ItemCollection ι α) (pos : Nat) : Outcome α :=
  match s.ordered[pos]? with
  | none => .ub
  | some a =>
    match s.heap a with
    | none => .ub
    | some x => .ok x

end RevIter

end Wite.Collections
