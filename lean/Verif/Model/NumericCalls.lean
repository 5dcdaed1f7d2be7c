import Verif.Model.NumericRef

/-!
# Which calls of `min`, `max`, `minmax` and `envelope` compile

The functions of maths/numeric.hpp and maths/value_range.hpp call each other by unqualified names, so
argument-dependent lookup adds `std::min` and `std::max` to the candidates wherever `std` is an
associated namespace of the type: for the types of `std`, for class templates with such types as
arguments, and for pointers to them.  Overload resolution then compares conversions ([over.ics.rank])
and partial orders ([temp.func.order]); this file follows it for arguments of one type.

`min` and `max` are alike in everything that matters here, so there is one model of both.

Simplified: all arguments are of one type, which can be copied and cannot be called with two of its
values; both headers are included; inside maths/numeric.hpp the functions of maths/value_range.hpp
are not found (they would be for ordered types that have `wite::maths` as an associated namespace), and
the two forms of `min` are found by each other (one is not, but is not viable either).
-/

namespace Wite.Maths.Calls

/-- What matters about a type. -/
structure Ty where
  /-- `common::is_pod_like` (common/concepts.hpp:31) -/
  plain : Bool
  /-- `std::totally_ordered` -/
  ordered : Bool
  /-- `std` is an associated namespace -/
  std : Bool
  /-- `min()` and `max()` can be called on objects (maths/value_range.hpp:25-42) -/
  minMax : Bool
  /-- the type has a member `value_type` -/
  valueType : Bool
  /-- what `min()` and `max()` return can be compared by `std::min` -/
  valueOrdered : Bool
  /-- an object can be made of `{lo, hi}` where these are what `min()` and `max()` return -/
  fromTwo : Bool
  deriving DecidableEq, Repr

/-- How an argument is passed. -/
inductive Pass
  | var
  | constVar
  | temp
  deriving DecidableEq, Repr

/-- The candidates. -/
inductive Fn
  /-- maths/numeric.hpp:43-54 and 82-93 -/
  | values
  /-- maths/numeric.hpp:56-67 and 69-80 -/
  | refs
  /-- maths/value_range.hpp:162-170 and 174-182 -/
  | ranges
  /-- `std::min(const T&, const T&)` -/
  | stdTwo
  /-- `std::min(const T&, const T&, Compare)` -/
  | stdThree
  deriving DecidableEq, Repr

/-- Where the call stands. -/
inductive Site
  /-- in the user's program, as `wite::maths::min(...)` -/
  | user
  /-- inside maths/numeric.hpp (lines 52, 65, 78, 91, 112, 122) -/
  | numeric
  /-- inside maths/value_range.hpp (lines 168, 180, 202) -/
  | valueRange
  deriving DecidableEq, Repr

/-- Whether lookup finds the function: qualified names do without argument-dependent lookup (maths/numeric.hpp:52, 112,
maths/value_range.hpp:168, 202). -/
def found (t : Ty) : Site → Fn → Bool
  | _, .values => true
  | _, .refs => true
  | .user, .ranges => true
  | .numeric, .ranges => false
  | .valueRange, .ranges => true
  | .user, .stdTwo => false
  | .user, .stdThree => false
  | .numeric, .stdTwo => t.std
  | .numeric, .stdThree => t.std
  | .valueRange, .stdTwo => t.std
  | .valueRange, .stdThree => t.std

/-- Whether the function can be called with `n` arguments: its constraints (maths/numeric.hpp:43-44, 56-57) and its return type
(maths/value_range.hpp:162-163) are in order. -/
def viable (t : Ty) (n : Nat) : Fn → Bool
  | .values => decide (2 ≤ n) && t.ordered && t.plain
  | .refs => decide (2 ≤ n) && t.ordered && !t.plain
  | .ranges => decide (1 ≤ n) && t.minMax && t.valueType
  | .stdTwo => decide (n = 2)
  | .stdThree => decide (n = 3)

/-- How a parameter takes its argument. -/
inductive Param
  | value
  | forward
  | constRef
  deriving DecidableEq, Repr

/-- The `i`-th parameter (maths/numeric.hpp:45, 58, maths/value_range.hpp:163). -/
def param : Fn → Nat → Param
  | .values, _ => .value
  | .refs, _ => .forward
  | .ranges, _ => .value
  | .stdTwo, _ => .constRef
  | .stdThree, i => if i < 2 then .constRef else .value

/-- [over.ics.rank]: a forwarding reference is better than a reference to const for temporaries, which it binds as rvalues, and for
variables that are not `const`, to which it adds no `const`. -/
def argBetter : Param → Param → Pass → Bool
  | .forward, .constRef, .var => true
  | .forward, .constRef, .temp => true
  | _, _, _ => false

/-- Some argument is passed better, from the `i`-th on. -/
def someBetter (f g : Fn) : Nat → List Pass → Bool
  | _, [] => false
  | i, p :: ps => argBetter (param f i) (param g i) p || someBetter f g (i + 1) ps

/-- Whether the parameters end in a pack (maths/numeric.hpp:45, 58, maths/value_range.hpp:163). -/
def variadic : Fn → Bool
  | .values | .refs | .ranges => true
  | .stdTwo | .stdThree => false

/-- [over.match.best], [temp.func.order]: no argument is passed worse, and one better or the function is more specialised because it has no
pack. -/
def better (f g : Fn) (ps : List Pass) : Bool :=
  !someBetter g f 0 ps && (someBetter f g 0 ps || (!variadic f && variadic g))

/-- All candidates. -/
def all : List Fn := [.values, .refs, .ranges, .stdTwo, .stdThree]

/-- The candidates of a call. -/
def candidates (t : Ty) (s : Site) (ps : List Pass) : List Fn :=
  all.filter (fun f => found t s f && viable t ps.length f)

/-- The function a call means; none if there is none or the call is ambiguous. -/
def pick (t : Ty) (s : Site) (ps : List Pass) : Option Fn :=
  (candidates t s ps).find? (fun f => (candidates t s ps).all (fun g => f == g || better f g ps))

/-- Whether a call of `min` or `max` compiles, with the functions it calls in turn: `std::min` with a comparison calls an argument
(an error); the functions of maths/numeric.hpp:49-53 and 62-66 call themselves for the arguments after the first, as variables or as they were
passed; the latter also demand that all are passed alike (lines 59-60), and cannot return what `std::min` returns as a reference to a
variable that is not `const`; those of maths/value_range.hpp:164-169 call themselves, with no arguments if there is one. -/
def compiles (t : Ty) : Nat → Site → List Pass → Bool
  | 0, _, _ => false
  | k + 1, s, ps =>
    match pick t s ps with
    | none => false
    | some .stdTwo => t.ordered
    | some .stdThree => false
    | some .values => decide (ps.length = 2) || compiles t k .numeric (ps.tail.map (fun _ => Pass.var))
    | some .refs =>
      ps.tail.all (fun p => some p == ps.head?) && decide (ps.head? ≠ some .var) &&
        (decide (ps.length = 2) || compiles t k .numeric ps.tail)
    | some .ranges =>
      t.valueOrdered && (decide (ps.length = 2) ||
        (decide (pick t .valueRange (ps.tail.map (fun _ => Pass.var)) = some .ranges) &&
          compiles t k .valueRange (ps.tail.map (fun _ => Pass.var))))

/-- Whether `wite::maths::min(args...)` compiles, and so `max` (maths/numeric.hpp:43-93, maths/value_range.hpp:162-182). -/
def minCompiles (t : Ty) (ps : List Pass) : Bool := compiles t ps.length .user ps

/-- The argument as in Model/NumericRef.lean (maths/numeric.hpp:97). -/
def Pass.arg : Pass → Ref.Arg
  | .var => ⟨0, false, false⟩
  | .constVar => ⟨0, false, true⟩
  | .temp => ⟨0, true, false⟩

/-- Whether `wite::maths::minmax(args...)` compiles (maths/numeric.hpp:95-123): the overload is that of Model/NumericRef.lean. -/
def minmaxCompiles (t : Ty) : List Pass → Bool
  | a :: b :: rest =>
    t.ordered &&
      match Ref.form t.plain a.arg b.arg (rest.map Pass.arg) with
      | .two => true
      | .values => compiles t (rest.length + 2) .numeric ((a :: b :: rest).map (fun _ => Pass.var))
      | .refs => compiles t (rest.length + 2) .numeric ((a :: b :: rest).map (fun _ => Pass.constVar))
  | _ => false

/-- Whether `envelope(args...)` with `n` arguments compiles (maths/value_range.hpp:186-191 and 199-203): for types without `min()` and
`max()` by way of `minmax` of the parameters, for the others by way of `min` and `max`, whose results have to make up an object of the
type. -/
def envelopeCompiles (t : Ty) (n : Nat) : Bool :=
  decide (2 ≤ n) &&
    if t.minMax then
      decide (pick t .valueRange (List.replicate n .var) = some .ranges) && compiles t n .valueRange (List.replicate n .var) && t.fromTwo
    else minmaxCompiles t (List.replicate n .var)

/-- What matters about `value_range<T>` (maths/value_range.hpp:51-139): it has `==` but no order, and the associated namespaces of `T`. -/
def rangeOf (t : Ty) : Ty := ⟨t.plain, false, t.std, true, true, t.ordered, true⟩

end Wite.Maths.Calls
