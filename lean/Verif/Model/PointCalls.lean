import Verif.Model.Point
import Verif.Model.Index
import Verif.Model.RangeCalls
import Verif.Model.ResultCalls

/-!
# Models of `wite/geometry/point.hpp`, `wite/core/id.hpp`, `wite/core/index.hpp` and `wite/maths/bounded_value.hpp`: numbers of other types

Constructions and calls with numbers whose types need not be those of the coordinates, ids and values.  The arguments are not
constants (a constant in braces may be of another type if the target type has its value); `bool` is not covered.
-/

namespace Wite

open Wite.Maths Wite.Geometry Wite.ResultCalls

/-- A number together with its type. -/
abbrev NumArg := (s : NumTy) × s.Val

namespace PointCalls

/-- The arguments, converted one after the other. -/
def convertAll (t : NumTy) : List NumArg → Outcome (List t.Val)
  | [] => .ok []
  | a :: as => do
    let x ← a.1.convert t a.2
    let xs ← convertAll t as
    pure (x :: xs)

/-- The arguments as they are if all are of type `t`. -/
def sameType (t : NumTy) : List NumArg → Option (List t.Val)
  | [] => some []
  | ⟨s, x⟩ :: as =>
    if h : s = t then
      match sameType t as with
      | some xs => some (h ▸ x :: xs)
      | none => none
    else none

/-- `point<n, t>(args...)`, in parentheses (geometry/point.hpp:47-51): there have to be `n` arguments, and `_init` accepts only
arguments of type `t` (84).  `none`: does not compile. -/
def parens (n : Nat) (t : NumTy) (args : List NumArg) : Option (Outcome (Point t.Val)) :=
  if args.length = n then
    match sameType t args with
    | some (x :: xs) => some (Point.ofPack x xs)
    | _ => none
  else none

/-- `point<n, t>{args...}` and `point_nd<t>{args...}` (geometry/point.hpp:45, 104; the latter passes its initialiser list on): every
number converts to `t`, so the constructor with an initialiser list is the one, whatever the number of arguments, and narrowing is
an error.  Empty braces zero the point (41). -/
def braces (n : Nat) (t : NumTy) (zero : t.Val) (args : List NumArg) : Option (Outcome (Point t.Val)) :=
  match args with
  | [] => some (.ok (Point.zeroed zero n))
  | _ :: _ =>
    if args.all (fun a => !narrowing a.1 t) then some (convertAll t args >>= Point.ofInitList n) else none

/-- `point_nd<t>(args...)`, in parentheses (geometry/point.hpp:106-108): `n` arguments, which are put into braces. -/
def named (n : Nat) (t : NumTy) (zero : t.Val) (args : List NumArg) : Option (Outcome (Point t.Val)) :=
  if args.length = n then braces n t zero args else none

/-- `set<d>(x)` (geometry/point.hpp:63-66, 74-77) and `p[d] = x` (80): the number is converted. -/
def setArg (s t : NumTy) (p : Point t.Val) (d : Nat) (x : s.Val) : Outcome (Point t.Val) := do
  let y ← s.convert t x
  p.set d y

end PointCalls

namespace IdCalls

/-- `id<Obj_T, t>(x)`, in parentheses (core/id.hpp:36). -/
def parens (s t : NumTy) (x : s.Val) : Outcome (Id t.Val) := do
  let y ← s.convert t x
  pure (Id.make y)

/-- `id<Obj_T, t>{x}` (core/id.hpp:36); `none`: does not compile. -/
def braces (s t : NumTy) (x : s.Val) : Option (Outcome (Id t.Val)) :=
  if narrowing s t then none else some (parens s t x)

end IdCalls

namespace BoundedCalls

variable {lb hb : Boundary}

/-- `bounded_value<t>(x, bounds)`, in parentheses (maths/bounded_value.hpp:27-30). -/
def parens (s t : NumTy) (x : s.Val) (r : ValueRange t.Val lb hb) : Outcome (BoundedValue t.Val lb hb) := do
  let y ← s.convert t x
  pure ⟨y, r⟩

/-- `bounded_value<t>{x, bounds}` (maths/bounded_value.hpp:27-30); `none`: does not compile. -/
def braces (s t : NumTy) (x : s.Val) (r : ValueRange t.Val lb hb) : Option (Outcome (BoundedValue t.Val lb hb)) :=
  if narrowing s t then none else some (parens s t x r)

end BoundedCalls

namespace IndexCalls

/-- `size_t`. -/
def sizeTy : IntTy := ⟨64, false⟩

/-- `std::make_signed_t<size_t>`. -/
def offsetTy : IntTy := ⟨64, true⟩

/-- `index<Obj_T>(x)`, in parentheses (core/index.hpp:34). -/
def parens (s : NumTy) (x : s.Val) : Outcome Nat := do
  let y ← s.convert (.int sizeTy) x
  pure (Int.toNat y)

/-- `index<Obj_T>{x}` (core/index.hpp:34); `none`: does not compile. -/
def braces (s : NumTy) (x : s.Val) : Option (Outcome Nat) :=
  if narrowing s (.int sizeTy) then none else some (parens s x)

/-- `i += x` and `i + x` (core/index.hpp:66-76, 90-94). -/
def addArg (b : Build) (s : NumTy) (i : Nat) (x : s.Val) : Outcome Nat := do
  let k ← s.convert (.int offsetTy) x
  Index.add b i k

/-- `i -= x` and `i - x` (core/index.hpp:78-88, 96-100). -/
def subArg (b : Build) (s : NumTy) (i : Nat) (x : s.Val) : Outcome Nat := do
  let k ← s.convert (.int offsetTy) x
  Index.sub b i k

end IndexCalls

end Wite
