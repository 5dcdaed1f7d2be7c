import Verif.Model.Split

/-!
# Model of `wite/string/trim.hpp` and `wite/string/strip.hpp`

The classification function is a parameter: `isspace c` may be undefined behaviour
(`std::isspace` on a negative `char`), or depend on the locale.
-/

namespace Wite.Trim

variable {α : Type u}

/-- `std::find_if(first, last, is_not_whitespace)` scanning forward: returns the suffix
at the first code unit that is not whitespace (string/trim.hpp:42-44, predicate 26-36). -/
def findNotSpace (isspace : α → Outcome Bool) : List α → Outcome (List α)
  | [] => .ok []
  | c :: cs =>
    match isspace c with
    | .ok true => findNotSpace isspace cs
    | .ok false => .ok (c :: cs)
    | .throw e => .throw e
    | .ub => .ub
    | .terminate => .terminate
    | .diverge => .diverge

/-- `trim_left` (string/trim.hpp:41-44). -/
def trimLeft (isspace : α → Outcome Bool) (s : List α) : Outcome (List α) :=
  findNotSpace isspace s

/-- `trim_right` (string/trim.hpp:55-58): the scan runs over the reversed sequence and
`.base()` turns its result back into the end of a prefix. -/
def trimRight (isspace : α → Outcome Bool) (s : List α) : Outcome (List α) :=
  List.reverse <$> findNotSpace isspace s.reverse

/-- `strip` (string/strip.hpp:25-28): `trim_left(trim_right(str))`. -/
def strip (isspace : α → Outcome Bool) (s : List α) : Outcome (List α) :=
  trimRight isspace s >>= trimLeft isspace

/-- The pointer overload of `trim_left` (string/trim.hpp:48-51): a view is made of the pointer, a null pointer
included, for which that is undefined behaviour.  Memory is modelled as for the pointer overloads of `split`. -/
def trimLeftPtr (isspace : Nat → Outcome Bool) (p : Option (List Nat)) : Outcome (List Nat) :=
  match p with
  | none => .ub
  | some m => do
    let s ← Split.viewOfPtr m
    trimLeft isspace s

/-- The pointer overload of `trim_right` (string/trim.hpp:62-65). -/
def trimRightPtr (isspace : Nat → Outcome Bool) (p : Option (List Nat)) : Outcome (List Nat) :=
  match p with
  | none => .ub
  | some m => do
    let s ← Split.viewOfPtr m
    trimRight isspace s

/-- The pointer overload of `strip` (string/strip.hpp:32-35). -/
def stripPtr (isspace : Nat → Outcome Bool) (p : Option (List Nat)) : Outcome (List Nat) :=
  match p with
  | none => .ub
  | some m => do
    let s ← Split.viewOfPtr m
    let r ← trimRight isspace s
    trimLeft isspace r

/-- `std::isspace` applied directly to a signed `char` (string/trim.hpp:29-30).  Per the
C standard the argument must be representable as `unsigned char` or be EOF (-1 on the
platforms the library supports); anything else is undefined behaviour.  `ctype` is the
locale's classification of 0..255. -/
def isspaceSigned (ctype : Nat → Bool) (c : Int) : Outcome Bool :=
  if c = -1 then .ok false
  else if 0 ≤ c ∧ c ≤ 255 then .ok (ctype c.toNat)
  else .ub

/-- The "C" locale: space and the control characters 9..13. -/
def cLocale (n : Nat) : Bool := n == 32 || (9 ≤ n && n ≤ 13)

end Wite.Trim
