import Verif.Model.State

/-!
# Model of `wite/core/result.hpp`

`result<Value_T, Error_T>` holds a `std::variant<Value_T, Error_T>`
(core/result.hpp:21 and 97).  Simplification: `Value_T` and `Error_T` are distinct types
(otherwise `std::get<T>` does not compile) whose copies and moves do not throw, so the
variant is never valueless; constructors run by `emplace` may throw.
-/

namespace Wite

/-- The two states of the storage (core/result.hpp:21). -/
inductive Result (V E : Type u) where
  | value (v : V)
  | error (e : E)
  deriving DecidableEq, Repr

namespace Result

variable {V E : Type u}

/-- Default constructor (core/result.hpp:30): `std::variant` value-initialises its first
alternative; `v0` is `Value_T{}`. -/
def default (v0 : V) : Result V E := .value v0

/-- `index()` of the variant, 0 for the value alternative. -/
def index : Result V E → Nat
  | .value _ => 0
  | .error _ => 1

/-- `ok` (core/result.hpp:47). -/
def ok (r : Result V E) : Bool := r.index == 0

/-- `has_value` and `operator bool` (core/result.hpp:38-39). -/
def hasValue (r : Result V E) : Bool := r.ok

/-- `is_error` (core/result.hpp:48). -/
def isError (r : Result V E) : Bool := false == r.ok

/-- `value` (core/result.hpp:49), also behind `operator*` and `operator->`
(41-45): `std::get` of the wrong alternative throws inside a `noexcept` function,
which terminates the program. -/
def getValue : Result V E → Outcome V
  | .value v => .ok v
  | .error _ => .terminate

/-- `error` (core/result.hpp:50). -/
def getError : Result V E → Outcome E
  | .value _ => .terminate
  | .error e => .ok e

/-- `emplace` (core/result.hpp:32-36).  `ctor` is the construction of the new value from
the arguments; the function is `noexcept`, so an exception escaping the constructor
terminates.  Returns the new state and the value referred to by the returned reference. -/
def emplace (_r : Result V E) (ctor : Outcome V) : Outcome (Result V E × V) :=
  match ctor with
  | .ok v => do
    let st : Result V E := .value v
    let x ← st.getValue
    pure (st, x)
  | .throw _ => .terminate
  | .ub => .ub
  | .terminate => .terminate
  | .diverge => .diverge

/-- `value_or` (core/result.hpp:52-59). -/
def valueOr (r : Result V E) (default_value : V) : Outcome V :=
  if r.hasValue then r.getValue else .ok default_value

/-- `and_then` (core/result.hpp:61-68).  `fn` may return a value, an error or a whole
result, all of which convert to a result; `fn : V → Outcome (Result V E)` covers the three. -/
def andThen (r : Result V E) (fn : V → Outcome (Result V E)) : Outcome (Result V E) :=
  if r.hasValue then
    match r.getValue with
    | .ok v => fn v
    | .throw e => .throw e
    | .ub => .ub
    | .terminate => .terminate
    | .diverge => .diverge
  else
    .ok r

/-- `or_else` (core/result.hpp:76-83). -/
def orElse (r : Result V E) (fn : E → Outcome (Result V E)) : Outcome (Result V E) :=
  if r.hasValue then
    .ok r
  else
    match r.getError with
    | .ok e => fn e
    | .throw e => .throw e
    | .ub => .ub
    | .terminate => .terminate
    | .diverge => .diverge

/-- `transform` (core/result.hpp:70-74): assigns `and_then` to the object itself and
returns a reference to it.  If the function throws, nothing has been assigned yet. -/
def transform (fn : V → Outcome (Result V E)) : St (Result V E) (Result V E) := fun r =>
  match r.andThen fn with
  | .ok r' => (.ok r', r')
  | .throw e => (.throw e, r)
  | .ub => (.ub, r)
  | .terminate => (.terminate, r)
  | .diverge => (.diverge, r)

/-- `transform_error` (core/result.hpp:85-89). -/
def transformError (fn : E → Outcome (Result V E)) : St (Result V E) (Result V E) := fun r =>
  match r.orElse fn with
  | .ok r' => (.ok r', r')
  | .throw e => (.throw e, r)
  | .ub => (.ub, r)
  | .terminate => (.terminate, r)
  | .diverge => (.diverge, r)

/-- `swap` (core/result.hpp:91-94 and 100-103). -/
def swap (a b : Result V E) : Result V E × Result V E := (b, a)

/-- What is left in a result that has been moved from (the defaulted move operations,
core/result.hpp:30 and common/constructor_macros.hpp:14,16): the variant keeps its
alternative, holding whatever moving from a value (`mv`) or an error (`me`) leaves. -/
def movedFrom (mv : V → V) (me : E → E) : Result V E → Result V E
  | .value v => .value (mv v)
  | .error e => .error (me e)

/-! ### Programs over several results -/

/-- The calls a program can make on its result objects, numbered by `Nat`
(core/result.hpp:27-36, 70-74, 85-94). -/
inductive Op (V E : Type) where
  /-- `x_i = result{}` -/
  | default (i : Nat)
  /-- `x_i = result{v}` -/
  | ofValue (i : Nat) (v : V)
  /-- `x_i = result{e}` -/
  | ofError (i : Nat) (e : E)
  /-- `x_i = x_j` -/
  | copy (i j : Nat)
  /-- `x_i = std::move(x_j)` -/
  | move (i j : Nat)
  /-- `x_i.emplace(args...)`; the constructor does `ctor` -/
  | emplace (i : Nat) (ctor : Outcome V)
  /-- `x_i.swap(x_j)` -/
  | swap (i j : Nat)
  /-- `x_i.transform(f)` -/
  | transform (i : Nat) (f : V → Outcome (Result V E))
  /-- `x_i.transform_error(f)` -/
  | transformError (i : Nat) (f : E → Outcome (Result V E))

/-- Change one object. -/
def assign {α : Type} (σ : Nat → α) (i : Nat) (x : α) : Nat → α := fun k => if k = i then x else σ k

/-- One call (core/result.hpp:27-36, 70-74, 85-94; defaulted assignments,
common/constructor_macros.hpp:15-16).  `v0` is the default value and `mv`, `me` are what
moving leaves behind. -/
def step {V E : Type} (v0 : V) (mv : V → V) (me : E → E) (op : Op V E) : St (Nat → Result V E) Unit := fun σ =>
  match op with
  | .default i => (.ok (), assign σ i (Result.default v0))
  | .ofValue i v => (.ok (), assign σ i (.value v))
  | .ofError i e => (.ok (), assign σ i (.error e))
  | .copy i j => (.ok (), assign σ i (σ j))
  | .move i j => (.ok (), assign (assign σ i (σ j)) j (movedFrom mv me (σ j)))
  | .emplace i ctor =>
    match (σ i).emplace ctor with
    | .ok (r, _) => (.ok (), assign σ i r)
    | .throw e => (.throw e, σ)
    | .ub => (.ub, σ)
    | .terminate => (.terminate, σ)
    | .diverge => (.diverge, σ)
  | .swap i j => (.ok (), assign (assign σ i (Result.swap (σ i) (σ j)).1) j (Result.swap (σ i) (σ j)).2)
  | .transform i f =>
    match transform f (σ i) with
    | (.ok _, r) => (.ok (), assign σ i r)
    | (.throw e, r) => (.throw e, assign σ i r)
    | (.ub, _) => (.ub, σ)
    | (.terminate, _) => (.terminate, σ)
    | (.diverge, _) => (.diverge, σ)
  | .transformError i f =>
    match transformError f (σ i) with
    | (.ok _, r) => (.ok (), assign σ i r)
    | (.throw e, r) => (.throw e, assign σ i r)
    | (.ub, _) => (.ub, σ)
    | (.terminate, _) => (.terminate, σ)
    | (.diverge, _) => (.diverge, σ)

end Result

end Wite
