import Verif.Model.Result
import Verif.Model.NumTy

/-!
# Model of `wite/core/result.hpp`: numbers of other types

Construction of a `result`, functions given to `and_then` and `or_else`, and the default of `value_or`, with a number
of a type that need not be that of the value or the error.  Which of the two constructors is called is decided by the
overload resolution of C++20 ([over.ics.rank]): no conversion is better than a promotion ([conv.prom], [conv.fpprom]), and a
promotion is better than any other conversion; between equals the call is ambiguous.  Simplification: there is one type for
each width and signedness and for each floating-point format (not both `long` and `long long`), `int` has 32 bits, and `bool` and
enumerations as arguments are not covered.
-/

namespace Wite

open Wite.Maths

deriving instance DecidableEq for Fmt
deriving instance DecidableEq for NumTy

/-- `Value_T` or `Error_T`: a number type, or a type that no number converts to (an `enum class`, a `std::string`). -/
inductive AltTy where
  | num (t : NumTy)
  | other (O : Type)

/-- The objects of the type. -/
def AltTy.Val : AltTy → Type
  | .num t => t.Val
  | .other O => O

namespace ResultCalls

/-- The type a number type is promoted to: an integer type narrower than `int` to `int`, `float` to `double`. -/
def promoted : NumTy → NumTy
  | .int t => .int t.promote
  | .flt F => .flt (if F = .single then .double else F)

/-- The rank of the conversion from `s` to `t`: 0 none, 1 a promotion, 2 any other. -/
def rank (s t : NumTy) : Nat := if s = t then 0 else if promoted s = t then 1 else 2

/-- The constructor that is called, if any. -/
inductive Pick where
  | value
  | error
  | neither
  deriving DecidableEq, Repr

/-- Overload resolution between the constructors `result(Value_T)` and `result(Error_T)` (core/result.hpp:27-28) for an argument
of type `s`.  (The copy and move constructors, core/result.hpp:30, would need a user-defined conversion and are worse.) -/
def picks (s : NumTy) : AltTy → AltTy → Pick
  | .num v, .num e => if rank s v < rank s e then .value else if rank s e < rank s v then .error else .neither
  | .num _, .other _ => .value
  | .other _, .num _ => .error
  | .other _, .other _ => .neither

/-- Whether the conversion of an object of type `s` that is not a constant to type `t` is narrowing ([dcl.init.list]). -/
def narrowing : NumTy → NumTy → Bool
  | .int s, .int t => !decide (t.minValue ≤ s.minValue ∧ s.maxValue ≤ t.maxValue)
  | .int _, .flt _ => true
  | .flt _, .int _ => true
  | .flt F, .flt G => !decide (F.e ≤ G.e ∧ F.m ≤ G.m)

/-- How the number is given: `plain` is `return x;`, `result<V, E> r = x;` and `result<V, E>(x)`; `braces` is `result<V, E>{x}`. -/
inductive Form where
  | plain
  | braces
  deriving DecidableEq, Repr

/-- The type of the parameter of the constructor that is called (core/result.hpp:27-28). -/
def parameter (s : NumTy) (v e : AltTy) : Option NumTy :=
  match picks s v e, v, e with
  | .value, .num t, _ => some t
  | .error, _, .num t => some t
  | _, _, _ => none

/-- Whether a result can be constructed from an object of type `s` that is not a constant (core/result.hpp:27-28): in braces
narrowing is an error. -/
def compiles (form : Form) (s : NumTy) (v e : AltTy) : Bool :=
  match parameter s v e with
  | some t => decide (form = .plain) || !narrowing s t
  | none => false

/-- The result that is constructed (core/result.hpp:27-28), if the call compiles: the argument is converted to the type of the
parameter.  (Calls that do not compile, which `compiles` tells, are given as undefined.) -/
def construct (s : NumTy) (v e : AltTy) (x : s.Val) : Outcome (Result v.Val e.Val) :=
  match picks s v e, v, e with
  | .value, .num t, _ => s.convert t x >>= fun y => .ok (.value y)
  | .error, _, .num t => s.convert t x >>= fun y => .ok (.error y)
  | _, _, _ => .ub

/-- `result<V, E>(x)`, `result<V, E>{x}` (core/result.hpp:27-28); `none`: does not compile. -/
def build (form : Form) (s : NumTy) (v e : AltTy) (x : s.Val) : Option (Outcome (Result v.Val e.Val)) :=
  if compiles form s v e then some (construct s v e x) else none

/-- `and_then(fn)` with a function that returns a number of type `s` (core/result.hpp:61-68), which is put in braces. -/
def andThenNum (s : NumTy) (v e : AltTy) (r : Result v.Val e.Val) (fn : v.Val → Outcome s.Val) :
    Option (Outcome (Result v.Val e.Val)) :=
  if compiles .braces s v e then some (if r.hasValue then r.getValue >>= fn >>= construct s v e else .ok r) else none

/-- `or_else(fn)` with a function that returns a number of type `s` (core/result.hpp:76-83). -/
def orElseNum (s : NumTy) (v e : AltTy) (r : Result v.Val e.Val) (fn : e.Val → Outcome s.Val) :
    Option (Outcome (Result v.Val e.Val)) :=
  if compiles .braces s v e then some (if r.hasValue then .ok r else r.getError >>= fn >>= construct s v e) else none

/-- `value_or(x)` with a number of type `s` (core/result.hpp:52-59): `return default_value;` converts it. -/
def valueOrNum {E : Type} (s v : NumTy) (r : Result v.Val E) (x : s.Val) : Outcome v.Val :=
  if r.hasValue then r.getValue else s.convert v x

end ResultCalls

end Wite
