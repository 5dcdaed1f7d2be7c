import Verif.Model.Outcome

/-!
# Models of `wite/core/index.hpp` and `wite/core/id.hpp`

The value of an index is a `size_t`, a natural number below 2^64; arithmetic on it wraps.
Offsets are `std::make_signed_t<size_t>`, integers in [-2^63, 2^63); negating -2^63 overflows,
which is undefined.
-/

namespace Wite.Index

/-- 2^64. -/
def modulus : Nat := 2 ^ 64

/-- `std::numeric_limits<value_type>::max()` -/
def maxValue : Nat := modulus - 1

/-- Conversion of a signed offset to `size_t`. -/
def toUnsigned (k : Int) : Nat := (k % (modulus : Int)).toNat

/-- `-offset` for a signed offset. -/
def negate (k : Int) : Outcome Int := if k = -(2 ^ 63) then .ub else .ok (-k)

/-- Prefix `operator++` (core/index.hpp:40-44); the new value, which is also returned. -/
def inc (b : Build) (i : Nat) : Outcome Nat := do
  debugAssert b (decide (i < maxValue)) "Index overflow"
  pure ((i + 1) % modulus)

/-- Postfix `operator++` (core/index.hpp:46-51); the new value and the returned copy. -/
def incPost (b : Build) (i : Nat) : Outcome (Nat × Nat) := do
  debugAssert b (decide (i < maxValue)) "Index overflow"
  let temp := i
  pure ((i + 1) % modulus, temp)

/-- Prefix `operator--` (core/index.hpp:53-57). -/
def dec (b : Build) (i : Nat) : Outcome Nat := do
  debugAssert b (decide (i > 0)) "Index underflow"
  pure ((i + (modulus - 1)) % modulus)

/-- Postfix `operator--` (core/index.hpp:59-64). -/
def decPost (b : Build) (i : Nat) : Outcome (Nat × Nat) := do
  debugAssert b (decide (i > 0)) "Index underflow"
  let temp := i
  pure ((i + (modulus - 1)) % modulus, temp)

/-- `operator+=` (core/index.hpp:66-76).  The checks, including the negation in them, exist
only in debug builds.  `max() - offset` is computed in `size_t`. -/
def addAssign (b : Build) (i : Nat) (offset : Int) : Outcome Nat := do
  match b with
  | .debug | .aborting =>
    if offset > 0 then
      debugAssert b (decide (i ≤ (maxValue + (modulus - toUnsigned offset)) % modulus)) "Index overflow"
    else
      let n ← negate offset
      debugAssert b (decide (i ≥ toUnsigned n)) "Index underflow"
  | .release => pure ()
  pure ((i + toUnsigned offset) % modulus)

/-- `operator-=` (core/index.hpp:78-88). -/
def subAssign (b : Build) (i : Nat) (offset : Int) : Outcome Nat := do
  match b with
  | .debug | .aborting =>
    if offset > 0 then
      debugAssert b (decide (i ≥ toUnsigned offset)) "Index underflow"
    else
      let n ← negate offset
      debugAssert b (decide (i ≤ (maxValue + (modulus - toUnsigned n)) % modulus)) "Index overflow"
  | .release => pure ()
  pure ((i + (modulus - toUnsigned offset)) % modulus)

/-- `operator+` (core/index.hpp:90-94). -/
def add (b : Build) (i : Nat) (offset : Int) : Outcome Nat := do
  let out := i
  addAssign b out offset

/-- `operator-` (core/index.hpp:96-100). -/
def sub (b : Build) (i : Nat) (offset : Int) : Outcome Nat := do
  let out := i
  subAssign b out offset

/-- Defaulted `operator<=>` (core/index.hpp:38): compares the only member. -/
def threeWay (i j : Nat) : Ordering := if i < j then .lt else if i = j then .eq else .gt

/-- The defaulted `operator==` that comes with it (core/index.hpp:38). -/
def equal (i j : Nat) : Bool := i == j

/-- `value` and `operator*` (core/index.hpp:102-103). -/
def value (i : Nat) : Nat := i

end Wite.Index

namespace Wite

/-- `id<Obj_T, Id_T>` (core/id.hpp:28-46): one public member. -/
structure Id (α : Type u) where
  id : α

namespace Id

variable {α : Type u}

/-- Constructor (core/id.hpp:36). -/
def make (v : α) : Id α := ⟨v⟩

/-- `value` (core/id.hpp:42). -/
def value (x : Id α) : α := x.id

/-- `operator*` (core/id.hpp:43). -/
def deref (x : Id α) : α := x.id

/-- Defaulted `operator<=>` (core/id.hpp:40) over the only member, compared by `cmp`.  (The
class has no bases.) -/
def threeWay (cmp : α → α → Ordering) (x y : Id α) : Ordering :=
  match cmp x.id y.id with
  | .eq => .eq
  | o => o

/-- The defaulted `operator==` that comes with it, over `==` of the member. -/
def equal (eq : α → α → Bool) (x y : Id α) : Bool := eq x.id y.id

/-- `a < b`, rewritten by the compiler to `(a <=> b) < 0`. -/
def lt (cmp : α → α → Ordering) (x y : Id α) : Bool := threeWay cmp x y == .lt

/-- `a <= b`, rewritten to `(a <=> b) <= 0`. -/
def le (cmp : α → α → Ordering) (x y : Id α) : Bool := threeWay cmp x y != .gt

end Id

end Wite
