import Verif.Model.Uuid
import Verif.Model.State

/-!
# More of `wite/core/uuid.hpp`: generation, object addresses, GUID structures
-/

namespace Wite.Uuid

open Wite.Io

/-! ## `make_uuid` -/

/-- A random number engine: the state after seeding it with a number, and a draw of 64 bits.  `std::mt19937_64`
(core/uuid.hpp:161) is one; nothing else is assumed of it. -/
structure Engine (σ : Type) where
  seed : Nat → σ
  draw : σ → Nat × σ

/-- The constructor from an engine (core/uuid.hpp:62-76): two draws. -/
def ofEngine {σ : Type} (host : Endian) (E : Engine σ) (s : σ) : List Nat × σ :=
  let (r1, s) := E.draw s
  let (r2, s) := E.draw s
  (ofRandom host r1 r2, s)

/-- `make_uuid()` (core/uuid.hpp:160-163).  The state is the `thread_local` engine, absent before the first call of
the thread; `device` is what `std::random_device{}()` returns, an `unsigned int`.  `UuidThreads.lean` has a
device that may throw. -/
def makeUuid {σ : Type} (host : Endian) (E : Engine σ) (device : Nat) : St (Option σ) (List Nat) := fun engine =>
  let s :=
    match engine with
    | none => E.seed (device % 2 ^ 32)
    | some s => s
  let (id, s) := ofEngine host E s
  (.ok id, some s)

/-- The UUIDs a thread gets from consecutive calls; `device k` is what the random device would return at call `k`. -/
def makeMany {σ : Type} (host : Endian) (E : Engine σ) (device : Nat → Nat) : Nat → Option σ → List (List Nat)
  | 0, _ => []
  | n + 1, engine =>
    match makeUuid host E (device 0) engine with
    | (.ok id, engine) => id :: makeMany host E (fun k => device (k + 1)) n engine
    | _ => []

/-! ## Objects at an address -/

/-- Access through a `uint64_t*` at an address: undefined unless the address is a multiple of `alignof(uint64_t)`, 8. -/
def atWord {α : Type} (addr : Nat) (x : Outcome α) : Outcome α := if addr % 8 = 0 then x else .ub

/-- `std::hash<uuid>` (core/uuid.hpp:258-264, core/uuid/uuid_hash.hpp:16-22) of a UUID stored at an address; the class has
alignment 1. -/
def hashAt (host : Endian) (h : Nat → Nat) (addr : Nat) (id : List Nat) : Outcome Nat := do
  let a ← atWord addr (.ok (numberOf host (id.take 8)))
  let b ← atWord (addr + 8) (.ok (numberOf host (id.drop 8)))
  pure (h a ^^^ h b)

/-- The constructor from an engine (core/uuid.hpp:62-76) for an object at an address. -/
def ofRandomAt (host : Endian) (addr : Nat) (r1 r2 : Nat) : Outcome (List Nat) := do
  atWord addr (.ok ())
  atWord (addr + 8) (.ok ())
  pure (ofRandom host r1 r2)

/-! ## GUID structures -/

/-- A structure with the members the concept `guid_like` asks for (core/uuid/basic_uuid.hpp:34-49): a 32-bit and two
16-bit numbers and eight bytes. -/
structure Guid where
  data1 : Nat
  data2 : Nat
  data3 : Nat
  data4 : List Nat
  deriving DecidableEq, Repr

/-- The 16 bytes of the structure in memory; there is no padding. -/
def Guid.bytes (host : Endian) (g : Guid) : List Nat :=
  objectOf host 4 g.data1 ++ objectOf host 2 g.data2 ++ objectOf host 2 g.data3 ++ g.data4

/-- `to_string` (core/uuid/uuid_functions.hpp:467-470) of such a structure: `_to_c_str` reads its memory (357-365). -/
def Guid.str (host : Endian) (g : Guid) (f : Char) : Outcome (List Nat) := Uuid.str host (g.bytes host) f

end Wite.Uuid
