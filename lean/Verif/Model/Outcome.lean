/-!
# Outcomes of a C++ call

Shared vocabulary of the whole model; no counterpart in `/repo` apart from the
exception types thrown there.  A C++ call either returns, throws, has undefined
behaviour, terminates the program, or never returns.
-/

namespace Wite

/-- The exception types thrown by the library, with their message.
`assertion` is `wite::assertion_error` (core/assert.hpp:27-33), thrown by failed
`_WITE_DEBUG_ASSERT`s in debug builds configured with `_WITE_ASSERT_WITH_EXCEPTION`. -/
inductive Exc where
  | invalidArgument (msg : String)
  | outOfRange (msg : String)
  | lengthError (msg : String)
  | logicError (msg : String)
  | assertion (msg : String)
  | badAlloc
  | user (n : Nat)
  deriving DecidableEq, Repr

/-- What a C++ call can do.  Undefined behaviour is an outcome of its own. -/
inductive Outcome (α : Type u) where
  | ok (a : α)
  | throw (e : Exc)
  | ub
  | terminate
  | diverge
  deriving DecidableEq, Repr

namespace Outcome

/-- Sequencing: the first outcome that is not a normal return is the result. -/
protected def bind {α : Type u} {β : Type v} (x : Outcome α) (f : α → Outcome β) : Outcome β :=
  match x with
  | ok a => f a
  | throw e => throw e
  | ub => ub
  | terminate => terminate
  | diverge => diverge

instance : Monad Outcome where
  pure := Outcome.ok
  bind := Outcome.bind

@[simp] theorem pure_eq {α : Type u} (a : α) : (pure a : Outcome α) = ok a := rfl
@[simp] theorem bind_ok {α β : Type u} (a : α) (f : α → Outcome β) : (ok a >>= f) = f a := rfl
@[simp] theorem bind_throw {α β : Type u} (e : Exc) (f : α → Outcome β) :
    ((throw e : Outcome α) >>= f) = throw e := rfl
@[simp] theorem bind_ub {α β : Type u} (f : α → Outcome β) : ((ub : Outcome α) >>= f) = ub := rfl
@[simp] theorem bind_terminate {α β : Type u} (f : α → Outcome β) :
    ((terminate : Outcome α) >>= f) = terminate := rfl
@[simp] theorem bind_diverge {α β : Type u} (f : α → Outcome β) :
    ((diverge : Outcome α) >>= f) = diverge := rfl
@[simp] theorem map_ok {α β : Type u} (a : α) (f : α → β) : f <$> (ok a) = ok (f a) := rfl
@[simp] theorem map_throw {α β : Type u} (e : Exc) (f : α → β) :
    f <$> (throw e : Outcome α) = throw e := rfl
@[simp] theorem map_ub {α β : Type u} (f : α → β) : f <$> (ub : Outcome α) = ub := rfl

/-- The call returned normally. -/
def returns {α : Type u} : Outcome α → Prop
  | ok _ => True
  | _ => False

/-- The call has defined behaviour (it may still throw). -/
def defined {α : Type u} : Outcome α → Prop
  | ub => False
  | _ => True

end Outcome

/-- Debug builds evaluate `_WITE_DEBUG_ASSERT`, release builds do not (core/assert.hpp:12-64).  `debug` is the debug build
with `_WITE_ASSERT_WITH_EXCEPTION` defined, as the tests define it; `aborting` is the one without, in which
`_WITE_DEBUG_ASSERT` is `assert`. -/
inductive Build where
  | debug
  | aborting
  | release
  deriving DecidableEq, Repr

/-- `_WITE_DEBUG_ASSERT(pred, msg)` (core/assert.hpp:42-47, 52 and 64): throws or stops the program in debug builds when
the predicate is false, does nothing in release builds. -/
def debugAssert (b : Build) (p : Bool) (msg : String) : Outcome Unit :=
  match b with
  | .debug => if p then .ok () else .throw (.assertion msg)
  | .aborting => if p then .ok () else .terminate
  | .release => .ok ()

/-- A throw out of a `noexcept` function terminates the program (no counterpart in
`/repo`; used where a function there is declared `noexcept`). -/
def noexcept {α : Type} : Outcome α → Outcome α
  | .throw _ => .terminate
  | o => o

end Wite
