import Verif.Model.EndianOverride
import Verif.Model.Config
import Verif.Lemmas.UuidRound
import Verif.Lemmas.UuidPrint
import Verif.Props.Uuid

/-!
# C151, C152: programs that override the native byte order
-/

namespace Wite.Props

open Wite.Io Wite.Spec Wite.Spec.Uuid Wite.Hex Wite.Uuid

/-- What a number looks like in a buffer if the wrappers keep their word: in the order of the machine when it is not
wrapped, least significant byte first in `little_endian`, most significant byte first in `big_endian`. -/
def asSaid (machine : Endian) (v : Override.Num) : List Nat :=
  match v.enc with
  | .native => intObject machine v.size v.value
  | .littleEndian => leBytes v.size v.value
  | .bigEndian => beBytes v.size v.value

/-- The same with the two wrappers exchanged. -/
def exchanged (machine : Endian) (v : Override.Num) : List Nat :=
  match v.enc with
  | .native => intObject machine v.size v.value
  | .littleEndian => beBytes v.size v.value
  | .bigEndian => leBytes v.size v.value

/-- A buffer cut into the slices the types take, from its start. -/
def slices : List Ty → List Nat → List (Enc × List Nat)
  | [], _ => []
  | t :: ts, buf => (t.enc, buf.take t.size) :: slices ts (buf.drop t.size)

/-- The number a piece stands for if the wrappers keep their word. -/
def meantAsSaid (machine : Endian) : Enc × List Nat → Nat
  | (.native, bs) => intValue machine bs
  | (.littleEndian, bs) => leValue bs
  | (.bigEndian, bs) => beValue bs

/-- The same with the two wrappers exchanged. -/
def meantExchanged (machine : Endian) : Enc × List Nat → Nat
  | (.native, bs) => intValue machine bs
  | (.littleEndian, bs) => beValue bs
  | (.bigEndian, bs) => leValue bs

/-- The bytes numbers take. -/
def numsSize (vs : List Override.Num) : Nat := (vs.map Override.Num.size).sum

/-! ## Lemmas -/

private theorem objLen (m : Endian) (k v : Nat) : (intObject m k v).length = k := by
  cases m <;> simp [intObject, beBytes, leBytes_length]

private theorem objLt (m : Endian) (k v : Nat) : ∀ b ∈ intObject m k v, b < 256 := by
  intro b hb
  cases m with
  | little => exact leBytes_lt k v b hb
  | big => exact leBytes_lt k v b (by simpa [intObject, beBytes] using hb)

private theorem bytesOf_num (native machine : Endian) (v : Override.Num) :
    bytesOf native v.enc (intObject machine v.size v.value) =
      if native = machine then asSaid machine v else exchanged machine v := by
  obtain ⟨enc, k, n⟩ := v
  cases enc <;> cases native <;> cases machine <;>
    simp [bytesOf, littleEndianBytes, bigEndianBytes, asSaid, exchanged, intObject, beBytes]

private theorem args_good (machine : Endian) (vs : List Override.Num) :
    ∀ w ∈ vs.map (Override.Num.arg machine), GoodVal w := by
  intro w hw
  obtain ⟨v, _, rfl⟩ := List.mem_map.1 hw
  rw [Override.Num.arg, objectOf_eq]
  exact objLt machine v.size v.value

private theorem args_size (machine : Endian) (vs : List Override.Num) :
    totalSize (vs.map (Override.Num.arg machine)) = numsSize vs := by
  induction vs with
  | nil => rfl
  | cons v vs ih =>
    simp only [totalSize, numsSize, List.map_cons, List.sum_cons] at ih ⊢
    rw [ih, Override.Num.arg, sizeOfVal, objectOf_eq, objLen]

private theorem encodeAll_nums (native machine : Endian) (vs : List Override.Num) :
    encodeAll native (vs.map (Override.Num.arg machine)) =
      vs.flatMap fun v => if native = machine then asSaid machine v else exchanged machine v := by
  induction vs with
  | nil => rfl
  | cons v vs ih =>
    simp only [encodeAll, List.map_cons, List.flatMap_cons] at ih ⊢
    rw [ih, Override.Num.arg, encodeVal, objectOf_eq, ← bytesOf_eq_encode native v.enc _ (objLt machine v.size v.value),
      bytesOf_num]

private theorem write_nums (native machine : Endian) (vs : List Override.Num) (buf : List Nat)
    (hT : numsSize vs < 2 ^ 64) :
    (Override.write native machine vs).run buf =
      if buf.length < numsSize vs then
        (.throw (.outOfRange "Insufficient buffer space for write"), buf)
      else (.ok (numsSize vs), overwrite buf 0
        (vs.flatMap fun v => if native = machine then asSaid machine v else exchanged machine v)) := by
  rw [Override.write, write_eq (args_good machine vs) (by rw [args_size]; exact hT), args_size, encodeAll_nums]

private theorem number_bytesOf (native machine : Endian) (enc : Enc) (bs : List Nat) :
    numberOf machine (bytesOf native enc bs) =
      if native = machine then meantAsSaid machine (enc, bs) else meantExchanged machine (enc, bs) := by
  rw [numberOf_eq]
  cases enc <;> cases native <;> cases machine <;>
    simp [bytesOf, littleEndianBytes, bigEndianBytes, meantAsSaid, meantExchanged, intValue, beValue]

private theorem decodeSeq_numbers (native machine : Endian) (ts : List Ty) (buf : List Nat) (hb : ∀ b ∈ buf, IsByte b) :
    (decodeSeq native ts buf).map (numberOf machine) =
      (slices ts buf).map (if native = machine then meantAsSaid machine else meantExchanged machine) := by
  induction ts generalizing buf with
  | nil => rfl
  | cons t ts ih =>
    have h1 := ih (buf.drop t.size) (fun b hx => hb b (List.mem_of_mem_drop hx))
    have h2 : numberOf machine (decode native t.enc (buf.take t.size)) =
        (if native = machine then meantAsSaid machine else meantExchanged machine) (t.enc, buf.take t.size) := by
      rw [← bytesOf_eq_decode native t.enc _ (fun b hx => hb b (List.mem_of_mem_take hx)), number_bytesOf]
      split <;> rfl
    simp only [decodeSeq, slices, List.map_cons]
    rw [h1, h2]

private theorem read_nums (native machine : Endian) (ts : List Ty) (buf : List Nat) (hb : ∀ b ∈ buf, IsByte b)
    (hT : totalTySize ts < 2 ^ 64) :
    Override.read native machine ts buf =
      if buf.length < totalTySize ts then .throw (.outOfRange "Insufficient buffer space for read")
      else .ok ((slices ts buf).map (if native = machine then meantAsSaid machine else meantExchanged machine)) := by
  rw [Override.read, read_eq hb hT]
  split
  · rfl
  · simp only [Outcome.bind_ok, Outcome.pure_eq]
    rw [decodeSeq_numbers native machine ts buf hb]

/-! ## C151 -/

/-- C151 (what holds): the byte order the library takes for the native one is that of the machine exactly when the macro
for the other order is not defined. -/
theorem c151_agrees_partial (cfg : Config.Macros) (machine native : Endian)
    (h : Config.nativeEndianness cfg machine = some native) :
    native = machine ↔ (machine = .little → cfg.big = false) ∧ (machine = .big → cfg.little = false) := by
  unfold Config.nativeEndianness at h
  cases hl : cfg.little <;> cases hb : cfg.big <;> cases machine <;> cases native <;> simp_all

/-- C151 (what holds): without a macro for the other byte order, `write` stores unwrapped numbers in the order of the
machine, `little_endian` ones least significant and `big_endian` ones most significant byte first. -/
theorem c151_write_partial (cfg : Config.Macros) (machine native : Endian)
    (hc : Config.nativeEndianness cfg machine = some native) (hl : machine = .little → cfg.big = false)
    (hb : machine = .big → cfg.little = false) (vs : List Override.Num) (buf : List Nat)
    (hT : numsSize vs < 2 ^ 64) (hroom : numsSize vs ≤ buf.length) :
    (Override.write native machine vs).run buf =
      (.ok (numsSize vs), overwrite buf 0 (vs.flatMap (asSaid machine))) := by
  have hm := (c151_agrees_partial cfg machine native hc).2 ⟨hl, hb⟩
  rw [write_nums native machine vs buf hT, if_neg (by omega)]
  simp only [hm, if_true]

/-- C151 (refuted): with the macro for the other byte order every `little_endian` number is stored most significant byte
first and every `big_endian` one least significant byte first; numbers that are not wrapped are stored in the order of
the machine, not in the order the macro names. -/
theorem c151_refuted_write (cfg : Config.Macros) (machine native : Endian)
    (hc : Config.nativeEndianness cfg machine = some native)
    (ho : (machine = .little ∧ cfg.big = true) ∨ (machine = .big ∧ cfg.little = true))
    (vs : List Override.Num) (buf : List Nat)
    (hT : numsSize vs < 2 ^ 64) (hroom : numsSize vs ≤ buf.length) :
    (Override.write native machine vs).run buf =
      (.ok (numsSize vs), overwrite buf 0 (vs.flatMap (exchanged machine))) := by
  have hm : native ≠ machine := by
    intro e
    have := (c151_agrees_partial cfg machine native hc).1 e
    rcases ho with ⟨h1, h2⟩ | ⟨h1, h2⟩
    · rw [this.1 h1] at h2; cases h2
    · rw [this.2 h1] at h2; cases h2
  rw [write_nums native machine vs buf hT, if_neg (by omega)]
  simp only [hm, if_false]

/-- C151 (what holds): without a macro for the other byte order, `read` takes the bytes as the types say. -/
theorem c151_read_partial (cfg : Config.Macros) (machine native : Endian)
    (hc : Config.nativeEndianness cfg machine = some native) (hl : machine = .little → cfg.big = false)
    (hb : machine = .big → cfg.little = false) (ts : List Ty) (buf : List Nat) (hby : ∀ b ∈ buf, IsByte b)
    (hT : totalTySize ts < 2 ^ 64) (hroom : totalTySize ts ≤ buf.length) :
    Override.read native machine ts buf = .ok ((slices ts buf).map (meantAsSaid machine)) := by
  have hm := (c151_agrees_partial cfg machine native hc).2 ⟨hl, hb⟩
  rw [read_nums native machine ts buf hby hT, if_neg (by omega), if_pos hm]

/-- C151 (refuted): with the macro for the other byte order, `read` takes the bytes of a `little_endian` number as most
significant first and those of a `big_endian` one as least significant first. -/
theorem c151_refuted_read (cfg : Config.Macros) (machine native : Endian)
    (hc : Config.nativeEndianness cfg machine = some native)
    (ho : (machine = .little ∧ cfg.big = true) ∨ (machine = .big ∧ cfg.little = true))
    (ts : List Ty) (buf : List Nat) (hby : ∀ b ∈ buf, IsByte b)
    (hT : totalTySize ts < 2 ^ 64) (hroom : totalTySize ts ≤ buf.length) :
    Override.read native machine ts buf = .ok ((slices ts buf).map (meantExchanged machine)) := by
  have hm : native ≠ machine := by
    intro e
    have := (c151_agrees_partial cfg machine native hc).1 e
    rcases ho with ⟨h1, h2⟩ | ⟨h1, h2⟩
    · rw [this.1 h1] at h2; cases h2
    · rw [this.2 h1] at h2; cases h2
  rw [read_nums native machine ts buf hby hT, if_neg (by omega), if_neg hm]

private theorem flat_len (machine : Endian) (p : Prop) [Decidable p] (vs : List Override.Num) :
    (vs.flatMap fun v => if p then asSaid machine v else exchanged machine v).length = numsSize vs := by
  induction vs with
  | nil => rfl
  | cons v vs ih =>
    simp only [List.flatMap_cons, List.length_append, numsSize, List.map_cons, List.sum_cons] at ih ⊢
    rw [ih]
    congr 1
    obtain ⟨enc, k, n⟩ := v
    split <;> cases enc <;> simp [asSaid, exchanged, objLen, leBytes_length, beBytes]

private theorem flat_lt (machine : Endian) (p : Prop) [Decidable p] (vs : List Override.Num) :
    ∀ b ∈ vs.flatMap (fun v => if p then asSaid machine v else exchanged machine v), b < 256 := by
  intro b hb
  obtain ⟨v, _, hv⟩ := List.mem_flatMap.1 hb
  obtain ⟨enc, k, n⟩ := v
  have hle : ∀ b ∈ leBytes k n, b < 256 := leBytes_lt k n
  have hbe : ∀ b ∈ beBytes k n, b < 256 := fun b hb => leBytes_lt k n b (by simpa [beBytes] using hb)
  have hob := objLt machine k n
  split at hv <;> cases enc <;> simp only [asSaid, exchanged] at hv
  · exact hob b hv
  · exact hle b hv
  · exact hbe b hv
  · exact hob b hv
  · exact hbe b hv
  · exact hle b hv

/-- How a number is understood and how it is stored, in one direction each. -/
private def meant (b : Bool) (machine : Endian) : Enc × List Nat → Nat :=
  if b then meantAsSaid machine else meantExchanged machine
private def looks (b : Bool) (machine : Endian) (v : Override.Num) : List Nat :=
  if b then asSaid machine v else exchanged machine v

private theorem looks_len (b : Bool) (machine : Endian) (v : Override.Num) : (looks b machine v).length = v.size := by
  obtain ⟨enc, k, n⟩ := v
  cases b <;> cases enc <;> simp [looks, asSaid, exchanged, objLen, leBytes_length, beBytes]

private theorem meant_looks (b : Bool) (machine : Endian) (v : Override.Num) (hv : v.value < 256 ^ v.size) :
    meant b machine (v.enc, looks b machine v) = v.value := by
  obtain ⟨enc, k, n⟩ := v
  have := leValue_leBytes k n hv
  cases b <;> cases enc <;> cases machine <;>
    simp [meant, looks, meantAsSaid, meantExchanged, asSaid, exchanged, intObject, intValue, beBytes, beValue, this]

private theorem slices_looks (b : Bool) (machine : Endian) (vs : List Override.Num)
    (hv : ∀ v ∈ vs, v.value < 256 ^ v.size) (rest : List Nat) :
    (slices (vs.map fun v => ⟨v.size, v.enc⟩) (vs.flatMap (looks b machine) ++ rest)).map (meant b machine) =
      vs.map Override.Num.value := by
  induction vs with
  | nil => rfl
  | cons v vs ih =>
    have hl := looks_len b machine v
    simp only [List.map_cons, List.flatMap_cons, slices]
    rw [List.append_assoc, List.take_left' hl, List.drop_left' hl, ih (fun x hx => hv x (by simp [hx])),
      meant_looks b machine v (hv v (by simp))]

/-- C151 (what holds): whatever macros are defined and whatever the machine, numbers written by a program are read back
by the same program. -/
theorem c151_round_trip_partial (native machine : Endian) (vs : List Override.Num) (buf : List Nat)
    (hby : ∀ b ∈ buf, IsByte b) (hv : ∀ v ∈ vs, v.value < 256 ^ v.size)
    (hT : numsSize vs < 2 ^ 64) (hroom : numsSize vs ≤ buf.length) :
    ∃ out, (Override.write native machine vs).run buf = (.ok (numsSize vs), out) ∧
      Override.read native machine (vs.map fun v => ⟨v.size, v.enc⟩) out = .ok (vs.map Override.Num.value) := by
  refine ⟨_, by rw [write_nums native machine vs buf hT, if_neg (by omega)], ?_⟩
  have hlen := flat_len machine (native = machine) vs
  have hlt := flat_lt machine (native = machine) vs
  have hsz : totalTySize (vs.map fun v => (⟨v.size, v.enc⟩ : Ty)) = numsSize vs := by
    simp [totalTySize, numsSize, Function.comp_def]
  rw [read_nums]
  · rw [if_neg]
    · have key := slices_looks (decide (native = machine)) machine vs hv (buf.drop (numsSize vs))
      have hf : looks (decide (native = machine)) machine =
          fun v => if native = machine then asSaid machine v else exchanged machine v := by
        funext v; simp [looks]
      rw [hf] at key
      simp only [meant, decide_eq_true_eq] at key
      simp only [overwrite, List.take_zero, List.nil_append, Nat.zero_add, hlen]
      rw [key]
    · simp only [overwrite, List.take_zero, List.nil_append, Nat.zero_add, List.length_append, hlen, hsz]
      omega
  · intro b hb
    simp only [overwrite, List.take_zero, List.nil_append, List.mem_append] at hb
    rcases hb with hb | hb
    · exact hlt b hb
    · exact hby b (List.mem_of_mem_drop hb)
  · rw [hsz]; exact hT

/-- The number with the bytes of another in the opposite order. -/
def byteSwapped (k v : Nat) : Nat := leValue (beBytes k v)

/-- C151 (refuted): a number written in `little_endian` or `big_endian` by a program with an overriding macro and read,
in the same wrapper, by a program without (or the other way round), whatever the machines, arrives with its bytes in the
opposite order: it is the same number only if its bytes read the same both ways. -/
theorem c151_refuted_between (n₁ m₁ n₂ m₂ : Endian) (hd : ¬(n₁ = m₁ ↔ n₂ = m₂)) (enc : Enc) (he : enc ≠ .native)
    (k v : Nat) (hv : v < 256 ^ k) (hk : k < 2 ^ 64) :
    ∃ out, (Override.write n₁ m₁ [⟨enc, k, v⟩]).run (List.replicate k 0) = (.ok k, out) ∧
      Override.read n₂ m₂ [⟨k, enc⟩] out = .ok [byteSwapped k v] ∧
      (byteSwapped k v = v ↔ leBytes k v = beBytes k v) := by
  have hT : numsSize [⟨enc, k, v⟩] = k := by simp [numsSize]
  have hlen := flat_len m₁ (n₁ = m₁) [⟨enc, k, v⟩]
  have hlt := flat_lt m₁ (n₁ = m₁) [⟨enc, k, v⟩]
  refine ⟨_, by rw [write_nums _ _ _ _ (by rw [hT]; exact hk), if_neg (by rw [hT]; simp), hT], ?_, ?_⟩
  · simp only [overwrite, List.take_zero, List.nil_append, Nat.zero_add, hlen, hT]
    rw [List.drop_of_length_le (by simp), List.append_nil, read_nums _ _ _ _ hlt (by simpa [totalTySize] using hk),
      if_neg (by rw [hlen, hT]; simp [totalTySize])]
    have hl : ∀ w, (leBytes k w).length = k := leBytes_length k
    simp only [slices, List.map_cons, List.map_nil, List.flatMap_cons, List.flatMap_nil, List.append_nil]
    rw [List.take_of_length_le (by
      have := hlen; simp only [List.flatMap_cons, List.flatMap_nil, List.append_nil, hT] at this; omega)]
    by_cases h1 : n₁ = m₁ <;> by_cases h2 : n₂ = m₂ <;> simp only [h1, h2, iff_self, not_true] at hd <;>
      simp only [h1, h2, if_true, if_false] <;> cases enc <;> try (exact absurd rfl he)
    all_goals simp [asSaid, exchanged, meantAsSaid, meantExchanged, byteSwapped, beBytes, beValue]
  · constructor
    · intro h
      have h1 := congrArg (leBytes k) h
      rw [byteSwapped] at h1
      have h2 := leBytes_leValue (beBytes k v) (fun b hb => leBytes_lt k v b (by simpa [beBytes] using hb))
      rw [show (beBytes k v).length = k by simp [beBytes, leBytes_length]] at h2
      rw [h2] at h1
      exact h1.symm
    · intro h
      rw [byteSwapped, ← h, leValue_leBytes k v hv]

/-- C151 (what holds): between two programs that both override the order of their machines, or neither, the number
arrives. -/
theorem c151_between_partial (n₁ m₁ n₂ m₂ : Endian) (hd : n₁ = m₁ ↔ n₂ = m₂) (enc : Enc) (he : enc ≠ .native)
    (k v : Nat) (hv : v < 256 ^ k) (hk : k < 2 ^ 64) :
    ∃ out, (Override.write n₁ m₁ [⟨enc, k, v⟩]).run (List.replicate k 0) = (.ok k, out) ∧
      Override.read n₂ m₂ [⟨k, enc⟩] out = .ok [v] := by
  have hT : numsSize [⟨enc, k, v⟩] = k := by simp [numsSize]
  have hlen := flat_len m₁ (n₁ = m₁) [⟨enc, k, v⟩]
  have hlt := flat_lt m₁ (n₁ = m₁) [⟨enc, k, v⟩]
  refine ⟨_, by rw [write_nums _ _ _ _ (by rw [hT]; exact hk), if_neg (by rw [hT]; simp), hT], ?_⟩
  simp only [overwrite, List.take_zero, List.nil_append, Nat.zero_add, hlen, hT]
  rw [List.drop_of_length_le (by simp), List.append_nil, read_nums _ _ _ _ hlt (by simpa [totalTySize] using hk),
    if_neg (by rw [hlen, hT]; simp [totalTySize])]
  have hval := leValue_leBytes k v hv
  simp only [slices, List.map_cons, List.map_nil, List.flatMap_cons, List.flatMap_nil, List.append_nil]
  rw [List.take_of_length_le (by
    have := hlen; simp only [List.flatMap_cons, List.flatMap_nil, List.append_nil, hT] at this; omega)]
  by_cases h1 : n₁ = m₁ <;> by_cases h2 : n₂ = m₂ <;> simp only [h1, h2, iff_true, iff_false, not_true] at hd <;>
    simp only [h1, h2, if_true, if_false] <;> cases enc <;> try (exact absurd rfl he)
  all_goals simp [asSaid, exchanged, meantAsSaid, meantExchanged, beBytes, beValue, hval]

example : (Override.write .big .little [⟨.bigEndian, 4, 0x01020304⟩, ⟨.native, 2, 0x0506⟩]).run (List.replicate 8 0) =
    (.ok 6, [4, 3, 2, 1, 6, 5, 0, 0]) := by decide +kernel
example : (Override.write .little .little [⟨.bigEndian, 4, 0x01020304⟩, ⟨.native, 2, 0x0506⟩]).run
    (List.replicate 8 0) = (.ok 6, [1, 2, 3, 4, 6, 5, 0, 0]) := by decide +kernel
example : Override.read .little .little [⟨4, .bigEndian⟩] [4, 3, 2, 1] = .ok [0x04030201] := by decide +kernel
example : byteSwapped 4 0x01020304 = 0x04030201 := by decide +kernel

/-! ## C152 -/

private theorem reverse_isUuid {u : List Nat} (hu : IsUuid u) : IsUuid (formatAsUuidData u) := by
  obtain ⟨hl, hb⟩ := hu
  obtain ⟨b0, b1, b2, b3, b4, b5, b6, b7, b8, b9, b10, b11, b12, b13, b14, b15, rfl⟩ := explode hl
  refine ⟨rfl, ?_⟩
  intro b h
  apply hb b
  simp only [formatAsUuidData, List.take_succ_cons, List.take_zero, List.drop_succ_cons, List.drop_zero,
    List.reverse_cons, List.reverse_nil, List.nil_append, List.cons_append, List.mem_cons, List.not_mem_nil,
    or_false] at h ⊢
  tauto

/-- With the other order the fields are read from their bytes in the opposite order. -/
private theorem ov_swap (native machine : Endian) (h : native ≠ machine) {u : List Nat} (hu : IsUuid u) (fmt : Format)
    (n : Nat) : Override.toCStrFmt native machine u fmt n = Uuid.toCStrFmt machine (formatAsUuidData u) fmt n := by
  obtain ⟨hl, hb⟩ := hu
  obtain ⟨b0, b1, b2, b3, b4, b5, b6, b7, b8, b9, b10, b11, b12, b13, b14, b15, rfl⟩ := explode hl
  cases native <;> cases machine <;> first | exact absurd rfl h | rfl

/-- C152 (what holds): when the library's idea of the native order is that of the machine, printing is what the theorems
about printing (C17, C18) describe. -/
theorem c152_agree_partial (machine : Endian) (u : List Nat) (hu : IsUuid u) (l : Layout) (up : Bool) :
    Override.str machine machine u (letter l up) = .ok (text l up u) := by
  exact str_eq machine l up hu

private theorem str_swapped (native machine : Endian) (h : native ≠ machine) {u : List Nat} (hu : IsUuid u) (f : Char) :
    Override.str native machine u f = Uuid.str machine (formatAsUuidData u) f := by
  simp only [Override.str, Uuid.str]
  cases printFormat f with
  | none => rfl
  | some fmt =>
    simp only [Override.toStringFmt, Uuid.toStringFmt]
    rw [ov_swap native machine h hu]
    rfl

private theorem text_swapped (l : Layout) (up : Bool) {u : List Nat} (hu : IsUuid u) :
    text l up (formatAsUuidData u) =
      fieldText l up (beValue (u.take 4)) (beValue ((u.drop 4).take 2)) (beValue ((u.drop 6).take 2)) (u.drop 8) := by
  obtain ⟨hl, hb⟩ := hu
  obtain ⟨b0, b1, b2, b3, b4, b5, b6, b7, b8, b9, b10, b11, b12, b13, b14, b15, rfl⟩ := explode hl
  rfl

/-- C152 (refuted): with the macro for the other byte order, the text of every UUID, in every format, shows the first
three fields with their bytes in the opposite order. -/
theorem c152_refuted_text (native machine : Endian) (h : native ≠ machine) (u : List Nat) (hu : IsUuid u) (l : Layout)
    (up : Bool) :
    Override.str native machine u (letter l up) =
      .ok (fieldText l up (beValue (u.take 4)) (beValue ((u.drop 4).take 2)) (beValue ((u.drop 6).take 2))
        (u.drop 8)) := by
  rw [str_swapped native machine h hu, str_eq machine l up (reverse_isUuid hu), text_swapped l up hu]

private theorem text_round_trip (l : Layout) (up : Bool) (u : List Nat) (hu : IsUuid u) (behind : List Nat)
    (hz : 0 ∈ behind) : ofString (text l up u) (letter l up) behind = .ok u := by
  have := c16_round_trip .little l up u hu behind hz
  rw [str_eq .little l up hu] at this
  exact this

private theorem swap_eq_iff {u : List Nat} (hu : IsUuid u) :
    formatAsUuidData u = u ↔ (u.take 4).reverse = u.take 4 ∧ ((u.drop 4).take 2).reverse = (u.drop 4).take 2 ∧
      ((u.drop 6).take 2).reverse = (u.drop 6).take 2 := by
  obtain ⟨hl, hb⟩ := hu
  obtain ⟨b0, b1, b2, b3, b4, b5, b6, b7, b8, b9, b10, b11, b12, b13, b14, b15, rfl⟩ := explode hl
  simp only [formatAsUuidData, List.take_succ_cons, List.take_zero, List.drop_succ_cons, List.drop_zero,
    List.reverse_cons, List.reverse_nil, List.nil_append, List.cons_append, List.cons.injEq, and_true]
  constructor
  · rintro ⟨h1, h2, h3, h4, h5, h6, h7, h8⟩
    exact ⟨⟨h1, h2, h3, h4⟩, ⟨h5, h6⟩, h7, h8⟩
  · rintro ⟨⟨h1, h2, h3, h4⟩, ⟨h5, h6⟩, h7, h8⟩
    exact ⟨h1, h2, h3, h4, h5, h6, h7, h8⟩

/-- C152 (refuted): with the macro for the other byte order, a UUID made from a text prints another text, unless the
bytes of each of the first three fields read the same both ways; and reading the printed text back gives a UUID with
these bytes exchanged, not the UUID printed. -/
theorem c152_refuted_round_trip (native machine : Endian) (h : native ≠ machine) (u : List Nat) (hu : IsUuid u)
    (l : Layout) (up : Bool) (behind : List Nat) (hz : 0 ∈ behind) :
    ofString (text l up u) (letter l up) behind = .ok u ∧
    ∃ t, Override.str native machine u (letter l up) = .ok t ∧
      ofString t (letter l up) behind =
        .ok ((u.take 4).reverse ++ ((u.drop 4).take 2).reverse ++ ((u.drop 6).take 2).reverse ++ u.drop 8) ∧
      (t = text l up u ↔ (u.take 4).reverse = u.take 4 ∧ ((u.drop 4).take 2).reverse = (u.drop 4).take 2 ∧
        ((u.drop 6).take 2).reverse = (u.drop 6).take 2) := by
  have hr := reverse_isUuid hu
  have h1 := text_round_trip l up u hu behind hz
  have h2 := text_round_trip l up _ hr behind hz
  refine ⟨h1, text l up (formatAsUuidData u), ?_, h2, ?_⟩
  · rw [str_swapped native machine h hu, str_eq machine l up hr]
  · rw [← swap_eq_iff hu]
    constructor
    · intro e
      rw [e, h1] at h2
      exact (Outcome.ok.inj h2).symm
    · intro e
      rw [e]

private theorem ov_ofFields (native machine : Endian) (h : native ≠ machine) (d1 d2 d3 : Nat) (d4 : List Nat)
    (h4l : d4.length = 8) (h4 : ∀ b ∈ d4, b < 256) :
    Override.ofFields native machine d1 d2 d3 d4 = .ok (beBytes 4 d1 ++ beBytes 2 d2 ++ beBytes 2 d3 ++ d4) := by
  have hgood : ∀ v ∈ [WVal.single .littleEndian (objectOf machine 4 d1), .single .littleEndian (objectOf machine 2 d2),
      .single .littleEndian (objectOf machine 2 d3), .range 1 (d4.map fun b => [b])], GoodVal v := by
    intro v hv
    simp only [List.mem_cons, List.not_mem_nil, or_false, objectOf_eq] at hv
    rcases hv with rfl | rfl | rfl | rfl
    · exact objLt machine 4 d1
    · exact objLt machine 2 d2
    · exact objLt machine 2 d3
    · intro o ho
      obtain ⟨b, hb, rfl⟩ := List.mem_map.1 ho
      exact ⟨rfl, by simpa [IsByte] using h4 b hb⟩
  have ht : totalSize [.single .littleEndian (objectOf machine 4 d1), .single .littleEndian (objectOf machine 2 d2),
      .single .littleEndian (objectOf machine 2 d3), .range 1 (d4.map fun b => [b])] = 16 := by
    simp [totalSize, sizeOfVal, objectOf_eq, objLen, h4l]
  have hfl : (d4.map fun b => [b]).flatten = d4 := by
    clear h4l h4 ht hgood
    induction d4 with
    | nil => rfl
    | cons b bs ih => simp [ih]
  have he : encodeAll native [.single .littleEndian (objectOf machine 4 d1), .single .littleEndian (objectOf machine 2 d2),
      .single .littleEndian (objectOf machine 2 d3), .range 1 (d4.map fun b => [b])] =
      beBytes 4 d1 ++ beBytes 2 d2 ++ beBytes 2 d3 ++ d4 := by
    have hx : ∀ k v, encode native .littleEndian (objectOf machine k v) = beBytes k v := by
      intro k v
      rw [objectOf_eq, ← bytesOf_eq_encode native .littleEndian _ (objLt machine k v)]
      have := bytesOf_num native machine ⟨.littleEndian, k, v⟩
      simpa [h, exchanged] using this
    simp only [encodeAll, List.flatMap_cons, List.flatMap_nil, encodeVal, hfl, hx]
    simp
  rw [Override.ofFields, write_eq hgood (by rw [ht]; decide), ht, if_neg (by simp), he]
  have hl : (beBytes 4 d1 ++ beBytes 2 d2 ++ beBytes 2 d3 ++ d4).length = 16 := by
    simp [beBytes, leBytes_length, h4l]
  rw [overwrite, hl]
  simp

/-- C152 (what holds): whatever macros are defined, a UUID made from its fields prints these fields, in every format. -/
theorem c152_fields_partial (native machine : Endian) (d1 d2 d3 : Nat) (d4 : List Nat)
    (h1 : d1 < 2 ^ 32) (h2 : d2 < 2 ^ 16) (h3 : d3 < 2 ^ 16) (h4l : d4.length = 8) (h4 : ∀ b ∈ d4, b < 256)
    (l : Layout) (up : Bool) :
    (Override.ofFields native machine d1 d2 d3 d4 >>= fun u => Override.str native machine u (letter l up)) =
      .ok (fieldText l up d1 d2 d3 d4) := by
  have v1 := leValue_leBytes 4 d1 (by omega)
  have v2 := leValue_leBytes 2 d2 (by omega)
  have v3 := leValue_leBytes 2 d3 (by omega)
  have lle : ∀ k v, (leBytes k v).length = k := leBytes_length
  have lbe : ∀ k v, (beBytes k v).length = k := fun k v => by simp [beBytes, leBytes_length]
  by_cases h : native = machine
  · subst h
    have e : Override.ofFields native native d1 d2 d3 d4 = Uuid.ofFields native d1 d2 d3 d4 := rfl
    rw [e, ofFields_eq native d1 d2 d3 d4 h1 h2 h3 h4l h4, Outcome.bind_ok]
    have hu : IsUuid (leBytes 4 d1 ++ leBytes 2 d2 ++ leBytes 2 d3 ++ d4) := by
      refine ⟨by simp [lle, h4l], ?_⟩
      intro b hb
      simp only [List.mem_append] at hb
      rcases hb with ((hb | hb) | hb) | hb
      · exact leBytes_lt _ _ b hb
      · exact leBytes_lt _ _ b hb
      · exact leBytes_lt _ _ b hb
      · exact h4 b hb
    rw [c152_agree_partial native _ hu, text]
    congr 2
  · rw [ov_ofFields native machine h d1 d2 d3 d4 h4l h4, Outcome.bind_ok]
    have hu : IsUuid (beBytes 4 d1 ++ beBytes 2 d2 ++ beBytes 2 d3 ++ d4) := by
      refine ⟨by simp [lbe, h4l], ?_⟩
      intro b hb
      simp only [List.mem_append, beBytes, List.mem_reverse] at hb
      rcases hb with ((hb | hb) | hb) | hb
      · exact leBytes_lt _ _ b hb
      · exact leBytes_lt _ _ b hb
      · exact leBytes_lt _ _ b hb
      · exact h4 b hb
    have w : ∀ k v, beValue (beBytes k v) = leValue (leBytes k v) := by intro k v; simp [beValue, beBytes]
    rw [c152_refuted_text native machine h _ hu]
    congr 2

/-- C152 (refuted): with the macro for the other byte order, the UUID made from the fields and the UUID made from the
text that shows them are equal only if the bytes of each of the first three fields read the same both ways. -/
theorem c152_refuted_fields (native machine : Endian) (h : native ≠ machine) (d1 d2 d3 : Nat) (d4 : List Nat)
    (h1 : d1 < 2 ^ 32) (h2 : d2 < 2 ^ 16) (h3 : d3 < 2 ^ 16) (h4l : d4.length = 8) (h4 : ∀ b ∈ d4, b < 256)
    (l : Layout) (up : Bool) (behind : List Nat) (hz : 0 ∈ behind) :
    Override.ofFields native machine d1 d2 d3 d4 = ofString (fieldText l up d1 d2 d3 d4) (letter l up) behind ↔
      leBytes 4 d1 = beBytes 4 d1 ∧ leBytes 2 d2 = beBytes 2 d2 ∧ leBytes 2 d3 = beBytes 2 d3 := by
  have v1 := leValue_leBytes 4 d1 (by omega)
  have v2 := leValue_leBytes 2 d2 (by omega)
  have v3 := leValue_leBytes 2 d3 (by omega)
  have lle : ∀ k v, (leBytes k v).length = k := leBytes_length
  have lbe : ∀ k v, (beBytes k v).length = k := fun k v => by simp [beBytes, leBytes_length]
  have hu : IsUuid (leBytes 4 d1 ++ leBytes 2 d2 ++ leBytes 2 d3 ++ d4) := by
    refine ⟨by simp [lle, h4l], ?_⟩
    intro b hb
    simp only [List.mem_append] at hb
    rcases hb with ((hb | hb) | hb) | hb
    · exact leBytes_lt _ _ b hb
    · exact leBytes_lt _ _ b hb
    · exact leBytes_lt _ _ b hb
    · exact h4 b hb
  have ht : text l up (leBytes 4 d1 ++ leBytes 2 d2 ++ leBytes 2 d3 ++ d4) = fieldText l up d1 d2 d3 d4 := by
    rw [text]
    congr 1
  rw [← ht, text_round_trip l up _ hu behind hz, ov_ofFields native machine h d1 d2 d3 d4 h4l h4]
  constructor
  · intro e
    have e := Outcome.ok.inj e
    obtain ⟨e, -⟩ := List.append_inj e (by simp [lle, lbe])
    obtain ⟨e, e3⟩ := List.append_inj e (by simp [lle, lbe])
    obtain ⟨e1, e2⟩ := List.append_inj e (by simp [lle, lbe])
    exact ⟨e1.symm, e2.symm, e3.symm⟩
  · rintro ⟨e1, e2, e3⟩
    rw [e1, e2, e3]

private def chars (s : String) : List Nat := s.toList.map Char.toNat

private def overrideSample : List Nat :=
  [0x33, 0x22, 0x11, 0x00, 0x55, 0x44, 0x77, 0x66, 0x88, 0x99, 0xAA, 0xBB, 0xCC, 0xDD, 0xEE, 0xFF]

example : Override.str .little .little overrideSample 'D' = .ok (chars "00112233-4455-6677-8899-AABBCCDDEEFF") := by
  decide +kernel
example : Override.str .big .little overrideSample 'D' = .ok (chars "33221100-5544-7766-8899-AABBCCDDEEFF") := by
  decide +kernel
example : (Override.ofFields .big .little 0x00112233 0x4455 0x6677 [1, 2, 3, 4, 5, 6, 7, 8] >>= fun u =>
    Override.str .big .little u 'n') = .ok (chars "00112233445566770102030405060708") := by decide +kernel
example : Override.ofFields .big .little 0x00112233 0x4455 0x6677 [1, 2, 3, 4, 5, 6, 7, 8] =
    .ok [0x00, 0x11, 0x22, 0x33, 0x44, 0x55, 0x66, 0x77, 1, 2, 3, 4, 5, 6, 7, 8] := by decide +kernel

end Wite.Props
