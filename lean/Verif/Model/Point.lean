import Verif.Model.Float

/-!
# geometry/point.hpp, geometry/io.hpp

A `point<N, T>` is its array of `N` coordinates.  A coordinate without a value is indeterminate;
reading it is undefined behaviour.  `point_2d`, `point_3d`, `point_4d` (geometry/point.hpp:96-115)
only forward to `point`; how they are constructed is in `PointCalls.lean`.  Copying and assigning points copies the
array and is not modelled.
-/

namespace Wite.Geometry

open Wite

/-- The member `_value` (geometry/point.hpp:93): `none` is an indeterminate coordinate. -/
structure Point (α : Type) where
  cells : List (Option α)
  deriving DecidableEq, Repr

namespace Point

variable {α : Type}

/-- `point p;`: default-initialisation (geometry/point.hpp:41) leaves the array without values. -/
def uninit (n : Nat) : Point α := ⟨List.replicate n none⟩

/-- `point{}`: the defaulted constructor (geometry/point.hpp:41) is not user-provided, so the object is zeroed. -/
def zeroed (zero : α) (n : Nat) : Point α := ⟨List.replicate n (some zero)⟩

/-- The constructor from an array (geometry/point.hpp:43). -/
def ofArray (vals : List α) : Point α := ⟨vals.map some⟩

/-- Write `_value[d]`; there is no check of the index. -/
def write (p : Point α) (d : Nat) (x : α) : Outcome (Point α) :=
  if d < p.cells.length then .ok ⟨p.cells.set d (some x)⟩ else .ub

/-- `std::ranges::copy(init, _value.begin() + d)`: element by element. -/
def copyFrom (p : Point α) (d : Nat) : List α → Outcome (Point α)
  | [] => .ok p
  | x :: xs => do
    let q ← p.write d x
    q.copyFrom (d + 1) xs

/-- The constructor from an initialiser list (geometry/point.hpp:45): `_value` is not initialised before the copy. -/
def ofInitList (n : Nat) (init : List α) : Outcome (Point α) := (uninit n).copyFrom 0 init

/-- `_init<IDX>(val, others...)` (geometry/point.hpp:83-91). -/
def initPack (p : Point α) (idx : Nat) : α → List α → Outcome (Point α)
  | x, [] => p.write idx x
  | x, y :: ys => do
    let q ← p.write idx x
    q.initPack (idx + 1) y ys

/-- The constructor from as many values as there are dimensions (geometry/point.hpp:47-51); `n > 0` is required (28). -/
def ofPack (x : α) (xs : List α) : Outcome (Point α) := (uninit (xs.length + 1)).initPack 0 x xs

/-- `dimensions()` (geometry/point.hpp:55). -/
def dimensions (p : Point α) : Nat := p.cells.length

/-- `get<DIM>()` in both forms (geometry/point.hpp:58-61, 69-72) and reading `p[dim]` (79): the index is not checked. -/
def get (p : Point α) (d : Nat) : Outcome α :=
  match p.cells[d]? with
  | some (some x) => .ok x
  | _ => .ub

/-- `set<DIM>(val)` in both forms (geometry/point.hpp:63-66, 74-77) and assigning to `p[dim]` (80). -/
def set (p : Point α) (d : Nat) (x : α) : Outcome (Point α) := p.write d x

/-- The defaulted `operator<=>` (geometry/point.hpp:53): that of `std::array`, lexicographic, stopping at the first
coordinates that do not compare equivalent.  `cmp` is `<=>` of the value type; `none` is `unordered`. -/
def threeWay (cmp : α → α → Option Ordering) (p q : Point α) : Outcome (Option Ordering) := go p.cells q.cells
where
  go : List (Option α) → List (Option α) → Outcome (Option Ordering)
    | some x :: xs, some y :: ys =>
      match cmp x y with
      | some .eq => go xs ys
      | o => .ok o
    | [], [] => .ok (some .eq)
    | [], _ :: _ => .ok (some .lt)
    | _ :: _, [] => .ok (some .gt)
    | _, _ => .ub

/-- `operator==`, implicitly declared with the defaulted `operator<=>` (geometry/point.hpp:53): that of `std::array`,
element-wise up to the first difference.  `eq` is `==` of the value type. -/
def equal (eq : α → α → Bool) (p q : Point α) : Outcome Bool := go p.cells q.cells
where
  go : List (Option α) → List (Option α) → Outcome Bool
    | some x :: xs, some y :: ys => if eq x y then go xs ys else .ok false
    | [], [] => .ok true
    | [], _ :: _ => .ok false
    | _ :: _, [] => .ok false
    | _, _ => .ub

/-- `p < q`: `(p <=> q) < 0`. -/
def lt (cmp : α → α → Option Ordering) (p q : Point α) : Outcome Bool := do
  let o ← threeWay cmp p q
  pure (o == some .lt)

/-- `p <= q`: `(p <=> q) <= 0`. -/
def le (cmp : α → α → Option Ordering) (p q : Point α) : Outcome Bool := do
  let o ← threeWay cmp p q
  pure (o == some .lt || o == some .eq)

/-- `p > q`: `(p <=> q) > 0`. -/
def gt (cmp : α → α → Option Ordering) (p q : Point α) : Outcome Bool := do
  let o ← threeWay cmp p q
  pure (o == some .gt)

/-- `p >= q`: `(p <=> q) >= 0`. -/
def ge (cmp : α → α → Option Ordering) (p q : Point α) : Outcome Bool := do
  let o ← threeWay cmp p q
  pure (o == some .gt || o == some .eq)

/-- `operator<<` for points (geometry/io.hpp:14-25 and 27-38): the characters inserted.  `text` is what inserting a
coordinate writes.  The loop counter is an `unsigned`; points of more than `2^32` dimensions are not modelled. -/
def print (text : α → List Char) (p : Point α) : Outcome (List Char) := do
  let x ← p.get 0
  let out := "[ ".toList ++ text x
  let out ← loop out 1 (p.dimensions - 1)
  pure (out ++ " ]".toList)
where
  /-- The coordinates from `i` on, `n` of them. -/
  loop (out : List Char) (i : Nat) : Nat → Outcome (List Char)
    | 0 => .ok out
    | n + 1 => do
      let x ← p.get i
      loop (out ++ ", ".toList ++ text x) (i + 1) n

end Point

/-- `<=>` of an integer type. -/
def cmpInt (x y : Int) : Option Ordering := some (compare x y)

open Wite.Maths in
/-- `<=>` of a floating-point type: unordered if one of them is NaN. -/
def cmpFlt {F : Fmt} (x y : Flt F) : Option Ordering :=
  if x.isNaN ∨ y.isNaN then none else some (compare x.key y.key)

end Wite.Geometry
