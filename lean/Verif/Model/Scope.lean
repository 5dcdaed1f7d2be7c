/-!
# Model of `wite/core/scope.hpp`

Guards are objects with automatic storage, so the model is a small structured language:
declarations of guards, their release, other observable actions, `throw`, `try`/`catch`, and
sequencing.  `guard x c f rest` is `auto x = scope_…{f}; rest` — a declaration followed by the
rest of its block — so a block with several declarations is a nest of `guard`s, and its end is
the end of the innermost `rest`, as in C++.

Every guard object created gets a serial number; the trace records creations, releases, the
start of a guard's function and the end of its destructor.

Simplifications: loops, branches and function calls of the program are not in the language
(a trace of any program is the trace of an unrolled one without them); functions capture by
reference and mention only guards declared before theirs; an exception nobody catches unwinds
the stack to the top of the program, as if there were a handler there; copying guards is
treated separately at the end.
-/

namespace Wite.Scope

/-- `_exit_condition` (core/scope.hpp:28). -/
inductive Cond where
  | all
  | success
  | fail
  deriving DecidableEq, Repr

/-- `_chech_exit_condition` (core/scope.hpp:32-50); `uncaught` is
`std::uncaught_exceptions()`. -/
def checkExitCondition (c : Cond) (uncaught : Nat) : Bool :=
  match c with
  | .all => true
  | .success => uncaught == 0
  | .fail => decide (uncaught > 0)

/-- Programs. -/
inductive Prog where
  /-- any action with no exception, seen in the trace -/
  | act (a : Nat)
  | skip
  | throw (e : Nat)
  | seq (p q : Prog)
  /-- `try { p } catch (...) { h }` -/
  | tryCatch (p h : Prog)
  /-- `auto x = scope_exit{f}` (or `scope_success`, `scope_fail`), then the rest of the block
  (core/scope.hpp:61 and 80-95) -/
  | guard (x : Nat) (c : Cond) (f rest : Prog)
  /-- `x.release()` (core/scope.hpp:68) -/
  | release (x : Nat)
  deriving DecidableEq, Repr

/-- How a scope was left. -/
inductive Exit where
  | normal
  | exceptional (e : Nat)
  deriving DecidableEq, Repr

/-- What can be observed.  Guards are given by serial number. -/
inductive Event where
  | act (a : Nat)
  /-- created, while `uncaught` exceptions were in flight -/
  | created (k : Nat) (c : Cond) (uncaught : Nat)
  | released (k : Nat)
  /-- its scope has been left in this way and its destructor starts -/
  | leaving (k : Nat) (how : Exit)
  /-- its function starts -/
  | runs (k : Nat)
  /-- its destructor ends -/
  | left (k : Nat)
  deriving DecidableEq, Repr

/-- The objects: how many guards have been created so far, and which have been released, that
is, whose optional function is empty (core/scope.hpp:71). -/
structure State where
  next : Nat
  released : List Nat
  deriving DecidableEq, Repr

/-- How an execution ends: `none` means `std::terminate` was called. -/
abbrev Ended := Option Exit

/-- Number of exceptions in flight while the destructors of a scope left in this way run. -/
def inFlight (uncaught : Nat) : Exit → Nat
  | .normal => uncaught
  | .exceptional _ => uncaught + 1

/-- Run a program.  `env` maps the guard variables in scope to serial numbers, `uncaught` is the
number of exceptions in flight around it.  Guards: constructor core/scope.hpp:61, destructor
62-66 (it is implicitly `noexcept`, so an exception leaving the function terminates), release
68. -/
def exec (env : Nat → Option Nat) (uncaught : Nat) : Prog → State → List Event × Ended × State
  | .act a, s => ([.act a], some .normal, s)
  | .skip, s => ([], some .normal, s)
  | .throw e, s => ([], some (.exceptional e), s)
  | .seq p q, s =>
    match exec env uncaught p s with
    | (t, some .normal, s') =>
      let (t', r, s'') := exec env uncaught q s'
      (t ++ t', r, s'')
    | other => other
  | .tryCatch p h, s =>
    match exec env uncaught p s with
    | (t, some (.exceptional _), s') =>
      let (t', r, s'') := exec env uncaught h s'
      (t ++ t', r, s'')
    | other => other
  | .release x, s =>
    match env x with
    | some k => ([.released k], some .normal, { s with released := k :: s.released })
    | none => ([], some .normal, s)
  | .guard x c f rest, s =>
    let k := s.next
    match exec (fun y => if y = x then some k else env y) uncaught rest { s with next := k + 1 } with
    | (t, some how, s₁) =>
      let now := inFlight uncaught how
      if decide (k ∉ s₁.released) && checkExitCondition c now then
        match exec env now f s₁ with
        | (t', some .normal, s₂) =>
          (.created k c uncaught :: (t ++ .leaving k how :: .runs k :: t' ++ [.left k]), some how, s₂)
        | (t', _, s₂) => (.created k c uncaught :: (t ++ .leaving k how :: .runs k :: t'), none, s₂)
      else
        (.created k c uncaught :: (t ++ [.leaving k how, .left k]), some how, s₁)
    | (t, none, s₁) => (.created k c uncaught :: t, none, s₁)

/-- A whole program, with no guards around it and no exception in flight. -/
def run (p : Prog) : List Event × Ended := 
  let (t, r, _) := exec (fun _ => none) 0 p ⟨0, []⟩
  (t, r)

/-! ### Assignment between guards -/

/-- A guard object: its optional function (core/scope.hpp:71). -/
abbrev Guard (Fn : Type) := Option Fn

/-- Constructor (core/scope.hpp:61). -/
def Guard.make {Fn : Type} (f : Fn) : Guard Fn := some f

/-- `release` (core/scope.hpp:68). -/
def Guard.release {Fn : Type} (_g : Guard Fn) : Guard Fn := none

/-- `a = std::move(b)`, the defaulted move assignment (core/scope.hpp:59 and 86;
common/constructor_macros.hpp:23): assigns the optional, which leaves the source engaged with
whatever moving from a function leaves (`moved`).  Returns the new `a` and `b`. -/
def Guard.moveAssign {Fn : Type} (moved : Fn → Fn) (_a b : Guard Fn) : Guard Fn × Guard Fn :=
  (b, b.map moved)

/-- `a = b`, the defaulted copy assignment (common/constructor_macros.hpp:22), for copyable
functions. -/
def Guard.copyAssign {Fn : Type} (_a b : Guard Fn) : Guard Fn × Guard Fn := (b, b)

/-- Destructor of a `scope_exit` (core/scope.hpp:62-66): the functions it invokes. -/
def Guard.destroy {Fn : Type} (g : Guard Fn) : List Fn :=
  match g with
  | some f => if checkExitCondition .all 0 then [f] else []
  | none => []

/-- Leave the scope in which `a` and then `b` were declared: destructors in reverse order. -/
def Guard.leave {Fn : Type} (gs : Guard Fn × Guard Fn) : List Fn := gs.2.destroy ++ gs.1.destroy

end Wite.Scope
