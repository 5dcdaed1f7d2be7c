import Verif.Lemmas.IoWide

/-!
# Property C132: reading from every buffer that the read functions accept

The concepts that guard the read functions accept ranges of elements of any width
(`Verif/Model/IoWide.lean`).  For elements of one byte the reads are exactly those of C32 to
C34 and C40.  For elements that are wider every read that is not refused writes outside the
value being read.  Every C++ type has size at least one.
-/

namespace Wite.Props

open Wite.Io Wite.Spec Wite.IoWide

/-- C132 is false for `read` and `read_at`: on a buffer of elements wider than a byte they
throw when the buffer has fewer elements than the values have bytes, and otherwise always
access memory out of bounds, whatever the types and their encodings. -/
theorem c132_refuted_read (host : Endian) (width : Nat) (hw : 1 < width) (t : Ty) (ts : List Ty)
    (ht : 0 < t.size) (hT : totalTySize (t :: ts) < 2 ^ 64) (buf : List Elem)
    (hb : ∀ e ∈ buf, e.length = width) (pos : Nat) (hp : pos < 2 ^ 64) :
    (IoWide.read host width (t :: ts) buf =
      if buf.length < totalTySize (t :: ts) then
        .throw (.outOfRange "Insufficient buffer space for read")
      else .ub) ∧
    (IoWide.readAt host width (t :: ts) pos buf =
      if 2 ^ 64 ≤ pos + totalTySize (t :: ts) then
        .throw (.invalidArgument "Buffer read position exceeds allowed value")
      else if buf.length < pos + totalTySize (t :: ts) then
        .throw (.outOfRange "Insufficient buffer space for read")
      else .ub) := by
  have key : ∀ b : List Elem, Elems width b → IoWide.read host width (t :: ts) b =
      if b.length < totalTySize (t :: ts) then
        .throw (.outOfRange "Insufficient buffer space for read") else .ub := by
    intro b hb
    rw [IoWide.read, byteCountTys_eq hT, IoWide.recursiveRead_ub hw ht hb]
  refine ⟨key buf hb, ?_⟩
  rw [IoWide.readAt, byteCountTys_eq hT]
  simp only [wrap_lt hp hT]
  split
  · rfl
  · by_cases h2 : pos > buf.length
    · rw [if_pos h2, if_pos (by omega)]
    · rw [if_neg h2, IoWide.spanFrom, if_pos (by omega), Outcome.bind_ok,
        key _ (Elems.drop hb pos), List.length_drop]
      by_cases h4 : buf.length < pos + totalTySize (t :: ts)
      · rw [if_pos h4, if_pos (by omega)]
      · rw [if_neg h4, if_neg (by omega)]

/-- C132 is false for `try_read` and `try_read_at` as well. -/
theorem c132_refuted_try_read (host : Endian) (width : Nat) (hw : 1 < width) (t : Ty)
    (ht : 0 < t.size) (hT : t.size < 2 ^ 64) (buf : List Elem)
    (hb : ∀ e ∈ buf, e.length = width) (pos : Nat) (hp : pos < 2 ^ 64) :
    (IoWide.tryRead host width t buf =
      if buf.length < t.size then .ok (.error .insufficientBuffer) else .ub) ∧
    (IoWide.tryReadAt host width t pos buf =
      if 2 ^ 64 ≤ pos + t.size then .ok (.error .invalidPositionOffset)
      else if buf.length < pos + t.size then .ok (.error .insufficientBuffer)
      else .ub) := by
  have key : ∀ b : List Elem, Elems width b → IoWide.tryRead host width t b =
      if b.length < t.size then .ok (.error .insufficientBuffer) else .ub := by
    intro b hb
    rw [IoWide.tryRead, IoWide.uncheckedRead_ub hw ht hb]
    rfl
  refine ⟨key buf hb, ?_⟩
  rw [IoWide.tryReadAt]
  simp only [wrap_lt hp hT]
  split
  · rfl
  · by_cases h2 : pos ≥ buf.length
    · rw [if_pos h2, if_pos (by omega)]
    · rw [if_neg h2, IoWide.spanFrom, if_pos (by omega), Outcome.bind_ok,
        key _ (Elems.drop hb pos), List.length_drop]
      by_cases h4 : buf.length < pos + t.size
      · rw [if_pos h4, if_pos (by omega)]
      · rw [if_neg h4, if_neg (by omega)]

/-- C132 is false for reading a range of one or more values. -/
theorem c132_refuted_range (host : Endian) (width : Nat) (hw : 1 < width) (t : Ty)
    (ht : 0 < t.size) (n : Nat) (hn : 0 < n) (hT : n * t.size < 2 ^ 64) (buf : List Elem)
    (hb : ∀ e ∈ buf, e.length = width) (pos : Nat) (hp : pos < 2 ^ 64) :
    (IoWide.readRange host width t n buf =
      if buf.length < n * t.size then .throw (.outOfRange "Insufficient buffer space for read")
      else .ub) ∧
    (IoWide.tryReadRange host width t n buf =
      if buf.length < n * t.size then .ok (.error .insufficientBuffer) else .ub) ∧
    (IoWide.readRangeAt host width t n pos buf =
      if 2 ^ 64 ≤ pos + n * t.size then
        .throw (.invalidArgument "Buffer read position exceeds allowed value")
      else if buf.length < pos + n * t.size then
        .throw (.outOfRange "Insufficient buffer space for read")
      else .ub) ∧
    (IoWide.tryReadRangeAt host width t n pos buf =
      if 2 ^ 64 ≤ pos + n * t.size then .ok (.error .invalidPositionOffset)
      else if buf.length < pos + n * t.size then .ok (.error .insufficientBuffer)
      else .ub) := by
  have hnt : 0 < n * t.size := Nat.mul_pos hn ht
  have e : (n * t.size) % sizeMod = n * t.size := Nat.mod_eq_of_lt (by rw [sizeMod]; omega)
  have key : ∀ b : List Elem, Elems width b → IoWide.readRange host width t n b =
      if b.length < n * t.size then .throw (.outOfRange "Insufficient buffer space for read")
      else .ub := by
    intro b hb
    rw [IoWide.readRange, byteCountRange, e, IoWide.generateRead_ub hw ht hb hn]
  have key2 : ∀ b : List Elem, Elems width b → IoWide.tryReadRange host width t n b =
      if b.length < n * t.size then .ok (.error .insufficientBuffer) else .ub := by
    intro b hb
    rw [IoWide.tryReadRange, e, IoWide.generateRead_ub hw ht hb hn]
    rfl
  refine ⟨key buf hb, key2 buf hb, ?_, ?_⟩
  · rw [IoWide.readRangeAt, byteCountRange, e]
    simp only [wrap_lt hp hT]
    split
    · rfl
    · by_cases h2 : pos > buf.length
      · rw [if_pos h2, if_pos (by omega)]
      · rw [if_neg h2, IoWide.spanFrom, if_pos (by omega), Outcome.bind_ok,
          key _ (Elems.drop hb pos), List.length_drop]
        by_cases h4 : buf.length < pos + n * t.size
        · rw [if_pos h4, if_pos (by omega)]
        · rw [if_neg h4, if_neg (by omega)]
  · rw [IoWide.tryReadRangeAt, byteCountRange, e]
    simp only [wrap_lt hp hT]
    split
    · rfl
    · by_cases h2 : pos ≥ buf.length
      · rw [if_pos h2, if_pos (by omega)]
      · rw [if_neg h2, IoWide.spanFrom, if_pos (by omega), Outcome.bind_ok,
          key2 _ (Elems.drop hb pos), List.length_drop]
        by_cases h4 : buf.length < pos + n * t.size
        · rw [if_pos h4, if_pos (by omega)]
        · rw [if_neg h4, if_neg (by omega)]

/-- C132 for buffers of bytes, single values and ranges from the start: a read is refused when
the buffer is too short, and otherwise gives the values laid out from the start of the buffer,
with every access inside the buffer and inside the values. -/
theorem c132_partial (host : Endian) (bs : List Nat) (hb : ∀ b ∈ bs, IsByte b) :
    (∀ ts, totalTySize ts < 2 ^ 64 → IoWide.read host 1 ts (bs.map fun b => [b]) =
      if bs.length < totalTySize ts then .throw (.outOfRange "Insufficient buffer space for read")
      else .ok (decodeSeq host ts bs)) ∧
    (∀ t : Ty, IoWide.tryRead host 1 t (bs.map fun b => [b]) =
      if bs.length < t.size then .ok (.error .insufficientBuffer)
      else .ok (.value (decode host t.enc (bs.take t.size)))) ∧
    (∀ (t : Ty) n, n * t.size < 2 ^ 64 → IoWide.readRange host 1 t n (bs.map fun b => [b]) =
      if bs.length < n * t.size then .throw (.outOfRange "Insufficient buffer space for read")
      else .ok (decodeSeq host (List.replicate n t) bs)) ∧
    (∀ (t : Ty) n, n * t.size < 2 ^ 64 → IoWide.tryReadRange host 1 t n (bs.map fun b => [b]) =
      if bs.length < n * t.size then .ok (.error .insufficientBuffer)
      else .ok (.value (decodeSeq host (List.replicate n t) bs))) :=
  ⟨fun ts hT => (read_one host ts bs).trans (read_eq hb hT),
   fun t => (tryRead_one host t bs).trans (tryRead_eq hb),
   fun t n hT => (readRange_one host t n bs).trans (readRange_eq hb hT),
   fun t n hT => (tryReadRange_one host t n bs).trans (tryReadRange_eq hb hT)⟩

/-- C132 for buffers of bytes, from a position. -/
theorem c132_at_partial (host : Endian) (bs : List Nat) (hb : ∀ b ∈ bs, IsByte b) (pos : Nat)
    (hp : pos < 2 ^ 64) :
    (∀ ts, totalTySize ts < 2 ^ 64 → IoWide.readAt host 1 ts pos (bs.map fun b => [b]) =
      if 2 ^ 64 ≤ pos + totalTySize ts then
        .throw (.invalidArgument "Buffer read position exceeds allowed value")
      else if bs.length < pos + totalTySize ts then
        .throw (.outOfRange "Insufficient buffer space for read")
      else .ok (decodeSeq host ts (bs.drop pos))) ∧
    (∀ t : Ty, 0 < t.size → t.size < 2 ^ 64 →
      IoWide.tryReadAt host 1 t pos (bs.map fun b => [b]) =
      if 2 ^ 64 ≤ pos + t.size then .ok (.error .invalidPositionOffset)
      else if bs.length < pos + t.size then .ok (.error .insufficientBuffer)
      else .ok (.value (decode host t.enc ((bs.drop pos).take t.size)))) ∧
    (∀ (t : Ty) n, n * t.size < 2 ^ 64 →
      IoWide.readRangeAt host 1 t n pos (bs.map fun b => [b]) =
      if 2 ^ 64 ≤ pos + n * t.size then
        .throw (.invalidArgument "Buffer read position exceeds allowed value")
      else if bs.length < pos + n * t.size then
        .throw (.outOfRange "Insufficient buffer space for read")
      else .ok (decodeSeq host (List.replicate n t) (bs.drop pos))) ∧
    (∀ (t : Ty) n, 0 < n * t.size → n * t.size < 2 ^ 64 →
      IoWide.tryReadRangeAt host 1 t n pos (bs.map fun b => [b]) =
      if 2 ^ 64 ≤ pos + n * t.size then .ok (.error .invalidPositionOffset)
      else if bs.length < pos + n * t.size then .ok (.error .insufficientBuffer)
      else .ok (.value (decodeSeq host (List.replicate n t) (bs.drop pos)))) := by
  refine ⟨fun ts hT => (readAt_one host ts pos bs).trans (readAt_eq hb hp hT),
    fun t hs hT => (tryReadAt_one host t pos bs).trans (tryReadAt_eq hb hp hs hT),
    fun t n hT => (readRangeAt_one host t n pos bs).trans (readRangeAt_eq hb hp hT),
    fun t n h0 hT => (tryReadRangeAt_one host t n pos bs).trans ?_⟩
  have e : (n * t.size) % sizeMod = n * t.size := Nat.mod_eq_of_lt (by rw [sizeMod]; omega)
  rw [Io.tryReadRangeAt, byteCountRange, e]
  simp only [wrap_lt hp hT]
  split
  · rfl
  · by_cases h2 : pos ≥ bs.length
    · rw [if_pos h2, if_pos (by omega)]
    · rw [if_neg h2, Io.spanFrom, if_pos (by omega), Outcome.bind_ok,
        tryReadRange_eq (fun b hx => hb b (List.mem_of_mem_drop hx)) hT, List.length_drop]
      by_cases h4 : bs.length < pos + n * t.size
      · rw [if_pos h4, if_pos (by omega)]
      · rw [if_neg h4, if_neg (by omega)]

/-! A `uint32_t` read from a `std::vector<uint32_t>`: four elements of four bytes each are
copied into the four-byte value. -/

example : IoWide.read .little 4 [⟨4, .native⟩]
    [[1, 0, 0, 0], [2, 0, 0, 0], [3, 0, 0, 0], [4, 0, 0, 0]] = .ub := by decide
example : IoWide.read .little 4 [⟨4, .native⟩] [[1, 0, 0, 0]]
    = .throw (.outOfRange "Insufficient buffer space for read") := by decide
example : IoWide.tryRead .little 2 ⟨2, .bigEndian⟩ [[1, 0], [2, 0]] = .ub := by decide
example : IoWide.tryRead .little 1 ⟨2, .bigEndian⟩ [[1], [2]] = .ok (.value [2, 1]) := by decide
example : IoWide.readAt .big 1 [⟨2, .littleEndian⟩, ⟨1, .native⟩] 1 [[9], [1], [2], [3]]
    = .ok [[2, 1], [3]] := by decide

end Wite.Props
