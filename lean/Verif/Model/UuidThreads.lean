import Verif.Model.UuidMore

/-!
# `make_uuid` called by several threads, with a random device that may throw

`UuidMore.lean` models the calls of one thread with a device that always answers.  The engine is `thread_local`
(core/uuid.hpp:161), so the state of the program is one engine, or none yet, for every thread.  Calls of different
threads touch different engines; a run is therefore any sequence of calls in which the calls of each thread are in
order.
-/

namespace Wite.Uuid

open Wite.Io

/-- `make_uuid()` (core/uuid.hpp:160-163) in a thread; `device` is what constructing and calling `std::random_device`
does.  If it throws, the initialisation of the engine is not complete and the next call tries again
([stmt.dcl]). -/
def makeUuidDev {σ : Type} (host : Endian) (E : Engine σ) (device : Except Exc Nat) : St (Option σ) (List Nat) := fun engine =>
  match engine, device with
  | none, .error e => (.throw e, none)
  | none, .ok d => makeUuid host E d none
  | some s, _ => makeUuid host E 0 (some s)

/-- A call of a thread, and what the random device would do. -/
structure UuidCall where
  thread : Nat
  device : Except Exc Nat

/-- One call in a program of many threads (core/uuid.hpp:160-163): the thread's own engine is used. -/
def threadCall {σ : Type} (host : Endian) (E : Engine σ) (c : UuidCall) : St (Nat → Option σ) (List Nat) := fun w =>
  let r := makeUuidDev host E c.device (w c.thread)
  (r.1, fun t => if t = c.thread then r.2 else w t)

end Wite.Uuid
