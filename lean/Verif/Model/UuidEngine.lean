import Verif.Model.UuidMore

/-!
# UUIDs made with the user's own random engine

The constructor of core/uuid.hpp:62-76 draws 64-bit numbers with `std::uniform_int_distribution`.  What this does with
an engine of fewer bits is up to the implementation of the standard library; here it is that of libstdc++ for engines
whose results are all the numbers of `w` bits, `w` a divisor of 64 (`std::mt19937`, `std::mt19937_64`,
`std::random_device`, `std::independent_bits_engine` with such a `w`): there the bits are strung together and no draw is
rejected.  Not modelled: engines with other ranges, as `std::minstd_rand`.
-/

namespace Wite.Uuid

open Wite.Io

variable {σ : Type}

/-- A number made of `k` draws (core/uuid.hpp:69, 71, 74): `__ret = (__urngrange + 1) * operator()(...) + __urng()`, where
the inner call makes the part of the first draws. -/
def wideDraw (E : Engine σ) (w : Nat) : Nat → σ → Nat × σ
  | 0, s => (0, s)
  | k + 1, s =>
    let (hi, s) := wideDraw E w k s
    let (x, s) := E.draw s
    (2 ^ w * hi + x, s)

/-- `uuid{engine}` (core/uuid.hpp:62-76) with an engine of `w` bits; the engine is used in place, so it is left in the
state after the last draw. -/
def ofUserEngine (host : Endian) (E : Engine σ) (w : Nat) (s : σ) : List Nat × σ :=
  let (r1, s) := wideDraw E w (64 / w) s
  let (r2, s) := wideDraw E w (64 / w) s
  (ofRandom host r1 r2, s)

/-- The user makes `n` UUIDs with one engine (core/uuid.hpp:62-76). -/
def manyOfEngine (host : Endian) (E : Engine σ) (w : Nat) : Nat → σ → List (List Nat)
  | 0, _ => []
  | n + 1, s => (ofUserEngine host E w s).1 :: manyOfEngine host E w n (ofUserEngine host E w s).2

end Wite.Uuid
