import Verif.Model.State

/-!
# Model of `wite/collections/static_vector.hpp`

The storage is an array of `CAPACITY` optionals (static_vector.hpp:50 and 195) and a count
(196).  An element is a live object exactly if its optional is engaged.

Simplifications: copying, moving and default-constructing elements does not throw; the capacity is
below 2^64 - 1, as any array's is.
-/

namespace Wite.Collections

/-- The two members (static_vector.hpp:195-196); the capacity is the length of `data`. -/
structure StaticVector (α : Type) where
  data : List (Option α)
  count : Nat
  deriving DecidableEq, Repr

namespace StaticVector

variable {α : Type}

/-- Default constructor (static_vector.hpp:66). -/
def empty (cap : Nat) : StaticVector α := ⟨List.replicate cap none, 0⟩

/-- Size constructor (static_vector.hpp:68); the argument is a `uint8_t`. -/
def ofSize (cap size : Nat) : StaticVector α := ⟨List.replicate cap none, size % 256⟩

/-- `capacity` (static_vector.hpp:113). -/
def capacity (v : StaticVector α) : Nat := v.data.length

/-- `size` (static_vector.hpp:112). -/
def size (v : StaticVector α) : Nat := v.count

/-- `empty` (static_vector.hpp:114). -/
def isEmpty (v : StaticVector α) : Bool := v.count == 0

/-- Initialiser-list constructor (static_vector.hpp:71-78). -/
def ofList (cap : Nat) (init : List α) : Outcome (StaticVector α) :=
  if init.length > cap then
    .throw (.invalidArgument "Too many initialisation elements")
  else
    .ok ⟨init.map some ++ List.replicate (cap - init.length) none, init.length⟩

/-- `swap` (static_vector.hpp:81-86). -/
def swap (v w : StaticVector α) : StaticVector α × StaticVector α := (⟨w.data, w.count⟩, ⟨v.data, v.count⟩)

/-- `operator[]` (static_vector.hpp:115-116): dereferences the optional in the array; outside the
array or for an empty optional that is undefined. -/
def index (v : StaticVector α) (pos : Nat) : Outcome α :=
  match v.data[pos]? with
  | some (some x) => .ok x
  | _ => .ub

/-- `at` (static_vector.hpp:129-139). -/
def at' (v : StaticVector α) (pos : Nat) : Outcome α :=
  if pos ≥ v.count then
    .throw (.outOfRange "Static vector access violation")
  else
    v.index pos

/-- `front` (static_vector.hpp:119-120). -/
def front (v : StaticVector α) : Outcome α := v.at' 0

/-- `back` (static_vector.hpp:121-122); the subtraction is in `size_t`. -/
def back (v : StaticVector α) : Outcome α := v.at' ((v.size + (2 ^ 64 - 1)) % 2 ^ 64)

/-- Assignment through the reference returned by `at` (static_vector.hpp:129-131). -/
def setAt (pos : Nat) (x : α) : St (StaticVector α) Unit := fun v =>
  match v.at' pos with
  | .ok _ => (.ok (), { v with data := v.data.set pos (some x) })
  | .throw e => (.throw e, v)
  | .ub => (.ub, v)
  | .terminate => (.terminate, v)
  | .diverge => (.diverge, v)

/-- `std::generate_n` into the array from position `pos` on; writing past the end is undefined. -/
def generate (data : List (Option α)) (pos : Nat) (x : α) : Nat → Outcome (List (Option α))
  | 0 => .ok data
  | n + 1 => if pos < data.length then generate (data.set pos (some x)) (pos + 1) x n else .ub

/-- `_alloc` (static_vector.hpp:176-178). -/
def alloc (n : Nat) (x : α) (v : StaticVector α) : Outcome (StaticVector α) := do
  let d ← generate v.data v.count x n
  pure { v with data := d }

/-- The loop of `_destroy_last_n`: reset the `n` optionals before position `pos`, last first. -/
def resetBefore (data : List (Option α)) (pos : Nat) : Nat → Outcome (List (Option α))
  | 0 => .ok data
  | n + 1 => if 0 < pos ∧ pos ≤ data.length then resetBefore (data.set (pos - 1) none) (pos - 1) n else .ub

/-- `_destroy_last_n` (static_vector.hpp:180-183). -/
def destroyLastN (n : Nat) (v : StaticVector α) : Outcome (StaticVector α) := do
  let d ← resetBefore v.data v.count n
  pure { v with data := d }

/-- `_unsafe_resize` (static_vector.hpp:185-193). -/
def unsafeResize (n : Nat) (x : α) (v : StaticVector α) : Outcome (StaticVector α) := do
  let v' ←
    if n > v.size then alloc (n - v.size) x v
    else if n < v.size then destroyLastN (v.size - n) v
    else pure v
  pure { v' with count := n }

/-- `resize` with a fill value (static_vector.hpp:149-155).  Nothing is modified before the check. -/
def resize (newSize : Nat) (x : α) : St (StaticVector α) Unit := fun v =>
  if newSize > v.capacity then
    (.throw (.lengthError "static_vector: new size exceeds max size"), v)
  else
    match unsafeResize newSize x v with
    | .ok v' => (.ok (), v')
    | .throw e => (.throw e, v)
    | .ub => (.ub, v)
    | .terminate => (.terminate, v)
    | .diverge => (.diverge, v)

/-- `resize` without a fill value (static_vector.hpp:141-147): fills with `value_type{}`, here `d`. -/
def resizeDefault (d : α) (newSize : Nat) : St (StaticVector α) Unit := fun v =>
  if newSize > v.capacity then
    (.throw (.lengthError "static_vector: new size exceeds max size"), v)
  else
    match unsafeResize newSize d v with
    | .ok v' => (.ok (), v')
    | .throw e => (.throw e, v)
    | .ub => (.ub, v)
    | .terminate => (.terminate, v)
    | .diverge => (.diverge, v)

/-- `push_back` (static_vector.hpp:157-159). -/
def pushBack (x : α) : St (StaticVector α) Unit := fun v => resize ((v.size + 1) % 2 ^ 64) x v

/-- `clear` (static_vector.hpp:163). -/
def clear (v : StaticVector α) : StaticVector α := { v with count := 0 }

/-- Dereferencing the positions from `i` up to, not including, `i + n`: what a loop from `begin()`
to `end()` sees (static_vector.hpp:88-103; dereferencing_iterator.hpp:57). -/
def readFrom (v : StaticVector α) (i : Nat) : Nat → Outcome (List α)
  | 0 => .ok []
  | n + 1 => do
    let x ← v.index i
    let xs ← readFrom v (i + 1) n
    pure (x :: xs)

/-- Iteration from `begin()` to `end()`. -/
def iterate (v : StaticVector α) : Outcome (List α) := readFrom v 0 v.count

/-- `std::equal(begin(), end(), other.begin())` (static_vector.hpp:170). -/
def equalFrom (eq : α → α → Bool) (v w : StaticVector α) (i : Nat) : Nat → Outcome Bool
  | 0 => .ok true
  | n + 1 => do
    let x ← v.index i
    let y ← w.index i
    if eq x y then equalFrom eq v w (i + 1) n else pure false

/-- `operator==` (static_vector.hpp:165-171). -/
def equal (eq : α → α → Bool) (v w : StaticVector α) : Outcome Bool :=
  if v.count ≠ w.count then .ok false else equalFrom eq v w 0 v.count

/-- `operator!=` (static_vector.hpp:173). -/
def notEqual (eq : α → α → Bool) (v w : StaticVector α) : Outcome Bool := do
  let b ← equal eq v w
  pure !b

/-- What the defaulted move operations (static_vector.hpp:66) leave in the source: the array of
optionals moves element by element, engaged ones staying engaged with whatever moving leaves (`mv`);
the count is copied. -/
def movedFrom (mv : α → α) (v : StaticVector α) : StaticVector α := { v with data := v.data.map (·.map mv) }

/-! ### Programs over several vectors of the same type -/

/-- The calls of a program on its vectors, numbered by `Nat`. -/
inductive Op (α : Type) where
  /-- `x_i = static_vector{}` -/
  | make (i : Nat)
  /-- `x_i = static_vector{a, b, ...}` -/
  | ofList (i : Nat) (init : List α)
  | pushBack (i : Nat) (x : α)
  | resize (i n : Nat) (x : α)
  | resizeDefault (i n : Nat)
  | clear (i : Nat)
  /-- `x_i.at(pos) = x` -/
  | setAt (i pos : Nat) (x : α)
  | swap (i j : Nat)
  /-- `x_i = x_j` -/
  | copy (i j : Nat)
  /-- `x_i = std::move(x_j)` -/
  | move (i j : Nat)

/-- Change one vector of several. -/
def assign {β : Type} (σ : Nat → β) (i : Nat) (x : β) : Nat → β := fun k => if k = i then x else σ k

/-- A call on the vector numbered `i`. -/
def onOne (i : Nat) (call : St (StaticVector α) Unit) : St (Nat → StaticVector α) Unit := fun σ =>
  ((call (σ i)).1, assign σ i (call (σ i)).2)

/-- One call (static_vector.hpp:66-163).  `cap` is `CAPACITY`, `d` is `value_type{}`, `mv` is what moving
from an element leaves. -/
def step (cap : Nat) (d : α) (mv : α → α) (op : Op α) : St (Nat → StaticVector α) Unit := fun σ =>
  match op with
  | .make i => (.ok (), assign σ i (StaticVector.empty cap))
  | .ofList i init =>
    match StaticVector.ofList cap init with
    | .ok v => (.ok (), assign σ i v)
    | .throw e => (.throw e, σ)
    | .ub => (.ub, σ)
    | .terminate => (.terminate, σ)
    | .diverge => (.diverge, σ)
  | .pushBack i x => onOne i (StaticVector.pushBack x) σ
  | .resize i n x => onOne i (StaticVector.resize n x) σ
  | .resizeDefault i n => onOne i (StaticVector.resizeDefault d n) σ
  | .clear i => (.ok (), assign σ i (StaticVector.clear (σ i)))
  | .setAt i pos x => onOne i (StaticVector.setAt pos x) σ
  | .swap i j => (.ok (), assign (assign σ i (StaticVector.swap (σ i) (σ j)).1) j (StaticVector.swap (σ i) (σ j)).2)
  | .copy i j => (.ok (), assign σ i (σ j))
  | .move i j => (.ok (), assign (assign σ i (σ j)) j (movedFrom mv (σ j)))

end StaticVector

end Wite.Collections
