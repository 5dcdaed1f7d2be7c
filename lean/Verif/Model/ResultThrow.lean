import Verif.Model.Result

/-!
# `wite/core/result.hpp` with values and errors whose copying and moving throw

`Model/Result.lean` assumes that copying and moving values and errors does not throw.  Here it may, and the variant
(core/result.hpp:21 and 97) can lose its content: `std::variant` then is `valueless_by_exception`, its `index()` is `npos`
and `std::get` throws.

What the functions of `std::variant` do is taken from the standard ([variant.ctor], [variant.assign], [variant.swap]).  The
members of `result` are its defaulted operations; the macro that declares them (common/constructor_macros.hpp:11-16) makes
the move operations `noexcept`, whatever the types held.
-/

namespace Wite

/-- What can throw: default construction, copy and move construction, copy and move assignment and `swap` of a value (`V`)
or an error (`E`). -/
inductive Act where
  | defaultV
  | copyV
  | copyE
  | moveV
  | moveE
  | assignV
  | assignE
  | moveAssignV
  | moveAssignE
  | swapV
  | swapE
  deriving DecidableEq, Repr

/-- The two element types, as far as `result` can tell. -/
structure Elements (V E : Type) where
  /-- `Value_T{}` -/
  v0 : V
  /-- Which operations are declared `noexcept`. -/
  nx : Act → Bool
  /-- Whether the operation succeeds when it is the `n`-th that the program performs. -/
  ok : Act → Nat → Bool
  /-- What is left of a value that is moved from. -/
  movedV : V → V
  /-- What is left of an error that is moved from. -/
  movedE : E → E
  /-- What an assignment that throws leaves of the old value, given the old and the new one. -/
  tornV : V → V → V
  /-- What an assignment that throws leaves of the old error. -/
  tornE : E → E → E

/-- The storage (core/result.hpp:21 and 97), which may be valueless. -/
inductive Cell (V E : Type) where
  | value (v : V)
  | error (e : E)
  | valueless
  deriving DecidableEq, Repr

namespace Cell

variable {V E : Type}

/-- `index()` of the variant; `none` is `npos`. -/
def index : Cell V E → Option Nat
  | .value _ => some 0
  | .error _ => some 1
  | .valueless => none

/-- `ok` (core/result.hpp:47), also behind `has_value` and `operator bool` (38-39). -/
def ok (r : Cell V E) : Bool := r.index == some 0

/-- `is_error` (core/result.hpp:48). -/
def isError (r : Cell V E) : Bool := false == r.ok

/-- `value` (core/result.hpp:49): `std::get` throws in a `noexcept` function. -/
def getValue : Cell V E → Outcome V
  | .value v => .ok v
  | .error _ => .terminate
  | .valueless => .terminate

/-- `error` (core/result.hpp:50). -/
def getError : Cell V E → Outcome E
  | .value _ => .terminate
  | .error e => .ok e
  | .valueless => .terminate

/-- What is left of a result that has been moved from. -/
def movedFrom (T : Elements V E) : Cell V E → Cell V E
  | .value v => .value (T.movedV v)
  | .error e => .error (T.movedE e)
  | .valueless => .valueless

/-- The result objects of a program, by number, and the number of operations on values and errors so far. -/
structure World (V E : Type) where
  obj : Nat → Cell V E
  done : Nat

/-- An operation on a value or an error.  It throws `Exc.user 0` if it fails, which terminates the program if it is
declared `noexcept`. -/
def act (T : Elements V E) (a : Act) : St (World V E) Unit := fun w =>
  (if T.ok a w.done then .ok () else if T.nx a then .terminate else .throw (.user 0), { w with done := w.done + 1 })

/-- The body of a `noexcept` function. -/
def nox {α : Type} (x : St (World V E) α) : St (World V E) α := fun w => (noexcept (x.run w).1, (x.run w).2)

/-- Change one object. -/
def put (i : Nat) (c : Cell V E) : St (World V E) Unit := fun w => (.ok (), { w with obj := Result.assign w.obj i c })

/-- If the call throws, object `i` is left as `c`. -/
def orLeave (i : Nat) (c : Cell V E) (x : St (World V E) Unit) : St (World V E) Unit := fun w =>
  match x.run w with
  | (.throw e, w') => (.throw e, { w' with obj := Result.assign w'.obj i c })
  | r => r

/-- The defaulted copy constructor (common/constructor_macros.hpp:13). -/
def copied (T : Elements V E) : Cell V E → St (World V E) (Cell V E)
  | .value v => do
    act T .copyV
    pure (.value v)
  | .error e => do
    act T .copyE
    pure (.error e)
  | .valueless => pure .valueless

/-- The defaulted copy assignment (common/constructor_macros.hpp:15) to object `i`.  A held alternative of the same type is
assigned to.  Otherwise the old content is destroyed and the new one constructed in its place, unless that
can throw while moving cannot: then a copy is made first ([variant.assign]). -/
def copyAssign (T : Elements V E) (i : Nat) (c : Cell V E) : St (World V E) Unit := do
  let w ← St.get
  match w.obj i, c with
  | .value old, .value v => do
    orLeave i (.value (T.tornV old v)) (act T .assignV)
    put i (.value v)
  | .error old, .error e => do
    orLeave i (.error (T.tornE old e)) (act T .assignE)
    put i (.error e)
  | _, .valueless => put i .valueless
  | _, .value v =>
    if T.nx .copyV || !T.nx .moveV then do
      put i .valueless
      act T .copyV
      put i (.value v)
    else do
      act T .copyV
      act T .moveV
      put i (.value v)
  | _, .error e =>
    if T.nx .copyE || !T.nx .moveE then do
      put i .valueless
      act T .copyE
      put i (.error e)
    else do
      act T .copyE
      act T .moveE
      put i (.error e)

/-- The defaulted move assignment (common/constructor_macros.hpp:16), `noexcept`. -/
def moveAssign (T : Elements V E) (i : Nat) (c : Cell V E) : St (World V E) Unit := nox do
  let w ← St.get
  match w.obj i, c with
  | .value _, .value _ => act T .moveAssignV
  | .error _, .error _ => act T .moveAssignE
  | _, .valueless => pure ()
  | _, .value _ => act T .moveV
  | _, .error _ => act T .moveE
  put i c

/-- The constructors from a value and from an error (core/result.hpp:27-28), `noexcept`.  The parameter is a copy of the
argument if that is an lvalue, made by the caller. -/
def ofValue (T : Elements V E) (lvalue : Bool) (v : V) : St (World V E) (Cell V E) := do
  if lvalue then act T .copyV
  nox (act T .moveV)
  pure (.value v)

/-- See `ofValue` (core/result.hpp:28). -/
def ofError (T : Elements V E) (lvalue : Bool) (e : E) : St (World V E) (Cell V E) := do
  if lvalue then act T .copyE
  nox (act T .moveE)
  pure (.error e)

/-- What a function passed to `and_then` or `or_else` returns: a value, an error or a result. -/
inductive Returned (V E : Type) where
  | value (v : V)
  | error (e : E)
  | result (c : Cell V E)

/-- `result<value_type, error_type>{std::invoke(...)}` (core/result.hpp:64 and 81): what the function returns becomes the
parameter of a constructor, or the result itself, without being copied. -/
def ofReturned (T : Elements V E) : Returned V E → St (World V E) (Cell V E)
  | .value v => ofValue T false v
  | .error e => ofError T false e
  | .result c => pure c

/-- `swap` (core/result.hpp:91-94), `noexcept`.  Contents of the same type are swapped, others moved to and fro. -/
def swap (T : Elements V E) (i j : Nat) : St (World V E) Unit := nox do
  let w ← St.get
  match w.obj i, w.obj j with
  | .value _, .value _ => act T .swapV
  | .error _, .error _ => act T .swapE
  | .value _, .error _ => do
    act T .moveE
    act T .moveV
    act T .moveE
  | .error _, .value _ => do
    act T .moveV
    act T .moveE
    act T .moveV
  | .value _, .valueless => act T .moveV
  | .valueless, .value _ => act T .moveV
  | .error _, .valueless => act T .moveE
  | .valueless, .error _ => act T .moveE
  | .valueless, .valueless => pure ()
  put i (w.obj j)
  put j (w.obj i)

/-- The calls a program can make, as `Result.Op`; `lvalue` says whether the argument of a constructor is one
(core/result.hpp:27-36, 70-74, 85-94). -/
inductive Op (V E : Type) where
  | default (i : Nat)
  | ofValue (i : Nat) (lvalue : Bool) (v : V)
  | ofError (i : Nat) (lvalue : Bool) (e : E)
  | copy (i j : Nat)
  | move (i j : Nat)
  | emplace (i : Nat) (ctor : Outcome V)
  | swap (i j : Nat)
  | transform (i : Nat) (f : V → Outcome (Returned V E))
  | transformError (i : Nat) (f : E → Outcome (Returned V E))

/-- One call (core/result.hpp:27-36, 61-94; common/constructor_macros.hpp:12-16). -/
def step (T : Elements V E) : Op V E → St (World V E) Unit
  | .default i => do
    act T .defaultV
    moveAssign T i (.value T.v0)
  | .ofValue i lvalue v => do
    let c ← ofValue T lvalue v
    moveAssign T i c
  | .ofError i lvalue e => do
    let c ← ofError T lvalue e
    moveAssign T i c
  | .copy i j => do
    let w ← St.get
    copyAssign T i (w.obj j)
  | .move i j => do
    let w ← St.get
    moveAssign T i (w.obj j)
    put j (movedFrom T (w.obj j))
  | .emplace i ctor => nox do
    put i .valueless
    let v ← St.lift ctor
    put i (.value v)
  | .swap i j => swap T i j
  | .transform i f => do
    let w ← St.get
    match w.obj i with
    | .value v => do
      let r ← St.lift (f v)
      let c ← ofReturned T r
      moveAssign T i c
    | c => do
      let c' ← copied T c
      moveAssign T i c'
  | .transformError i f => do
    let w ← St.get
    match w.obj i with
    | .error e => do
      let r ← St.lift (f e)
      let c ← ofReturned T r
      moveAssign T i c
    | .value v => do
      let c' ← copied T (.value v)
      moveAssign T i c'
    | .valueless => St.lift .terminate

end Cell

end Wite
