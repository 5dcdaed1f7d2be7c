import Verif.Lemmas.Io

/-!
# Properties C29–C40: reading and writing byte buffers

Objects are lists of bytes in memory order; `encode`, `decode`, `overwrite`, `decodeSeq`,
`totalSize`, `totalTySize` are the specification in `Verif/Spec/Io.lean`.  The total size
of the arguments of one call is below 2^64, as for any objects that exist in memory.
-/

namespace Wite.Props

open Wite.Io Wite.Spec Wite.Hex

private theorem singles_good {xs : List (Enc × Obj)} (hx : ∀ p ∈ xs, ∀ b ∈ p.2, IsByte b) :
    ∀ v ∈ xs.map (fun p => WVal.single p.1 p.2), GoodVal v := by
  intro v hv
  obtain ⟨p, hp, rfl⟩ := List.mem_map.1 hv
  exact hx p hp

private theorem totalTySize_tyOf (xs : List (Enc × Obj)) :
    totalTySize (xs.map tyOf) = totalSize (xs.map (fun p => WVal.single p.1 p.2)) := by
  simp only [totalTySize, totalSize, List.map_map]
  rfl

private theorem totalTySize_one (t : Ty) : totalTySize [t] = t.size := by simp [totalTySize]

private theorem totalSize_one (v : WVal) : totalSize [v] = sizeOfVal v := by simp [totalSize]

private theorem encodeAll_one (host : Endian) (v : WVal) : encodeAll host [v] = encodeVal host v := by
  simp [encodeAll]

/-- C29 at the start of a buffer: the value comes back. -/
theorem c29_write_then_read (host : Endian) (enc : Enc) (o : Obj) (buf : List Nat)
    (ho : ∀ b ∈ o, IsByte b) (hb : ∀ b ∈ buf, IsByte b) (hfit : o.length ≤ buf.length)
    (hsz : o.length < 2 ^ 64) :
    ∃ buf', (write host [.single enc o]).run buf = (.ok o.length, buf') ∧
      read host [⟨o.length, enc⟩] buf' = .ok [o] := by
  have hv : ∀ v ∈ [WVal.single enc o], GoodVal v := by simpa [GoodVal] using ho
  have e := encode_length (host := host) (enc := enc) ho
  refine ⟨overwrite buf 0 (encode host enc o), ?_, ?_⟩
  · rw [write_eq hv (by simpa [totalSize, sizeOfVal] using hsz), totalSize_one, encodeAll_one,
      if_neg (by simp only [sizeOfVal]; omega)]
    rfl
  · rw [read_eq (overwrite_isByte hb (encode_isByte ho)) (by rw [totalTySize_one]; exact hsz),
      totalTySize_one, overwrite_length (by omega), if_neg (by simp; omega)]
    have h := drop_overwrite (buf := buf) (pos := 0) (bs := encode host enc o) (by omega)
    rw [List.drop_zero] at h
    rw [h, decodeSeq, decodeSeq]
    simp only
    rw [List.take_append, e, Nat.sub_self, List.take_zero, List.append_nil,
      List.take_of_length_le (by omega), decode_encode ho]

/-- C29 at any position, for any number of values of any mixture of types and encodings. -/
theorem c29_write_at_then_read_at (host : Endian) (xs : List (Enc × Obj)) (pos : Nat) (buf : List Nat)
    (hx : ∀ p ∈ xs, ∀ b ∈ p.2, IsByte b) (hb : ∀ b ∈ buf, IsByte b)
    (hfit : pos + totalSize (xs.map fun p => .single p.1 p.2) ≤ buf.length)
    (hlen : buf.length < 2 ^ 64) :
    ∃ n buf', (writeAt host pos (xs.map fun p => .single p.1 p.2)).run buf = (.ok n, buf') ∧
      readAt host (xs.map fun p => ⟨p.2.length, p.1⟩) pos buf' = .ok (xs.map Prod.snd) := by
  have hv := singles_good hx
  have e := encodeAll_length (host := host) hv
  have hT := totalTySize_tyOf xs
  refine ⟨pos + totalSize (xs.map fun p => .single p.1 p.2),
    overwrite buf pos (encodeAll host (xs.map fun p => .single p.1 p.2)), ?_, ?_⟩
  · rw [writeAt_eq hv (by omega) (by omega), if_neg (by omega), if_neg (by omega)]
  · have : (xs.map fun p => (⟨p.2.length, p.1⟩ : Ty)) = xs.map tyOf := rfl
    rw [this, readAt_eq (overwrite_isByte hb (encodeAll_isByte hv)) (by omega) (by omega), hT,
      overwrite_length (by omega), if_neg (by omega), if_neg (by omega),
      drop_overwrite (by omega), decodeSeq_encode _ _ hx]

example : ∃ buf', (write .big [.single .littleEndian [0x12, 0x34]]).run [1, 2, 3] = (.ok 2, buf') ∧
    read .big [⟨2, .littleEndian⟩] buf' = .ok [[0x12, 0x34]] := ⟨[0x34, 0x12, 3], by decide, by decide⟩

/-- C30: `io::little_endian{v}` is stored least significant byte first and
`io::big_endian{v}` most significant byte first, on a machine of either endianness. -/
theorem c30_endian_bytes (host : Endian) (n v : Nat) (buf : List Nat) (_hv : v < 256 ^ n)
    (hfit : n ≤ buf.length) (hn : n < 2 ^ 64) :
    (write host [.single .littleEndian (intObject host n v)]).run buf
      = (.ok n, leBytes n v ++ buf.drop n) ∧
    (write host [.single .bigEndian (intObject host n v)]).run buf
      = (.ok n, (leBytes n v).reverse ++ buf.drop n) := by
  have hl : (intObject host n v).length = n := by
    cases host <;> simp [intObject, beBytes, leBytes_length]
  have hby : ∀ b ∈ intObject host n v, IsByte b := by
    have : ∀ b ∈ leBytes n v, IsByte b := leBytes_lt n v
    cases host <;> simpa [intObject, beBytes] using this
  have hval : ∀ enc, encode host enc (intObject host n v) = bytesOf host enc (intObject host n v) :=
    fun enc => (bytesOf_eq_encode host enc _ hby).symm
  have key : ∀ enc, (write host [.single enc (intObject host n v)]).run buf
      = (.ok n, bytesOf host enc (intObject host n v) ++ buf.drop n) := by
    intro enc
    have hvv : ∀ w ∈ [WVal.single enc (intObject host n v)], GoodVal w := by
      simpa [GoodVal] using hby
    rw [write_eq hvv (by rw [totalSize_one]; simp only [sizeOfVal]; omega), totalSize_one,
      encodeAll_one, if_neg (by simp only [sizeOfVal]; omega)]
    simp only [sizeOfVal, encodeVal, hval, hl, overwrite, List.take_zero, List.nil_append,
      bytesOf_length, Nat.zero_add]
  refine ⟨?_, ?_⟩
  · rw [key]
    cases host <;> simp [bytesOf, littleEndianBytes, intObject, beBytes]
  · rw [key]
    cases host <;> simp [bytesOf, bigEndianBytes, intObject, beBytes]

/-- C30, reading: on either machine, the bytes `leBytes n v` are read as the integer `v` by
`io::little_endian`, and reversed by `io::big_endian`. -/
theorem c30_endian_read (host : Endian) (n v : Nat) (rest : List Nat) (hv : v < 256 ^ n)
    (hr : ∀ b ∈ rest, IsByte b) (hn : n < 2 ^ 64) :
    read host [⟨n, .littleEndian⟩] (leBytes n v ++ rest) = .ok [intObject host n v] ∧
    read host [⟨n, .bigEndian⟩] ((leBytes n v).reverse ++ rest) = .ok [intObject host n v] := by
  have hl := leBytes_length n v
  have hlt := leBytes_lt n v
  have hle := leValue_leBytes n v hv
  constructor
  · rw [read_eq (by intro b hb; rcases List.mem_append.1 hb with h | h; exact hlt b h; exact hr b h)
      (by rw [totalTySize_one]; exact hn), totalTySize_one,
      if_neg (by simp only [List.length_append]; omega), decodeSeq, decodeSeq]
    simp only
    rw [List.take_append, hl, Nat.sub_self, List.take_zero, List.append_nil,
      List.take_of_length_le (by omega), decode, hle, hl]
  · rw [read_eq (by
        intro b hb; rcases List.mem_append.1 hb with h | h
        · exact hlt b (List.mem_reverse.1 h)
        · exact hr b h)
      (by rw [totalTySize_one]; exact hn), totalTySize_one,
      if_neg (by simp only [List.length_append, List.length_reverse]; omega), decodeSeq, decodeSeq]
    simp only
    rw [List.take_append, List.length_reverse, hl, Nat.sub_self, List.take_zero, List.append_nil,
      List.take_of_length_le (by rw [List.length_reverse]; omega), decode, beValue,
      List.reverse_reverse, hle, List.length_reverse, hl]

example : (write .big [.single .littleEndian (intObject .big 4 0x01020304)]).run [9, 9, 9, 9, 9]
    = (.ok 4, [4, 3, 2, 1, 9]) := by decide
example : (write .little [.single .bigEndian (intObject .little 4 0x01020304)]).run [9, 9, 9, 9, 9]
    = (.ok 4, [1, 2, 3, 4, 9]) := by decide

/-- C30, endianness chosen at run time: `write_with_endian` stores, and `read_with_endian`
reads, exactly what the matching wrapper type does. -/
theorem c30_runtime_endian (host : Endian) (n v : Nat) (buf : List Nat) (hv : v < 256 ^ n)
    (hb : ∀ b ∈ buf, IsByte b) (hfit : n ≤ buf.length) (hn : n < 2 ^ 64) :
    (writeWithEndian host 0 (intObject host n v) .little).run buf = (.ok n, leBytes n v ++ buf.drop n) ∧
    (writeWithEndian host 0 (intObject host n v) .big).run buf =
      (.ok n, (leBytes n v).reverse ++ buf.drop n) ∧
    readWithEndian host n (leBytes n v ++ buf) .little = .ok [intObject host n v] ∧
    readWithEndian host n ((leBytes n v).reverse ++ buf) .big = .ok [intObject host n v] := by
  have h1 := c30_endian_bytes host n v buf hv hfit hn
  have h2 := c30_endian_read host n v buf hv hb hn
  exact ⟨h1.1, h1.2, h2.1, h2.2⟩

example : (writeWithEndian .little 0 (intObject .little 2 0x1234) .big).run [9, 9, 7] =
    (.ok 2, [0x12, 0x34, 7]) := by decide

/-- C31: a successful write replaces exactly the first `totalSize` bytes by the concatenated
encodings; a write that does not fit throws and changes nothing.  There is no third case. -/
theorem c31_write_frame (host : Endian) (vs : List WVal) (buf : List Nat)
    (hv : ∀ v ∈ vs, GoodVal v) (hT : totalSize vs < 2 ^ 64) :
    (totalSize vs ≤ buf.length →
      (encodeAll host vs).length = totalSize vs ∧
      (write host vs).run buf = (.ok (totalSize vs), encodeAll host vs ++ buf.drop (totalSize vs))) ∧
    (buf.length < totalSize vs →
      (write host vs).run buf = (.throw (.outOfRange "Insufficient buffer space for write"), buf)) := by
  have e := encodeAll_length (host := host) hv
  constructor
  · intro h
    refine ⟨e, ?_⟩
    rw [write_eq hv hT, if_neg (by omega)]
    simp [overwrite, e]
  · intro h
    rw [write_eq hv hT, if_pos h]

example : (write .little [.single .native [1, 2], .range 1 [[3], [4]], .single .bigEndian [5, 6]]).run
    [0, 0, 0, 0, 0, 0, 7] = (.ok 6, [1, 2, 3, 4, 6, 5, 7]) := by decide
example : (write .little [.single .native [1, 2], .single .native [3]]).run [9, 9]
    = (.throw (.outOfRange "Insufficient buffer space for write"), [9, 9]) := by decide
example : ∀ v ∈ [WVal.single .native [1, 2], .range 1 [[3], [4]], .single .bigEndian [5, 6]],
    GoodVal v := by simp [GoodVal, IsByte]

private theorem decodeSeq_length (host : Endian) (ts : List Ty) (buf : List Nat) :
    (decodeSeq host ts buf).length = ts.length := by
  induction ts generalizing buf with
  | nil => rfl
  | cons t ts ih => simp [decodeSeq, ih]

private theorem decodeSeq_get (host : Endian) (ts : List Ty) (buf : List Nat) (i : Nat) (t : Ty)
    (h : ts[i]? = some t) :
    (decodeSeq host ts buf)[i]? =
      some (decode host t.enc ((buf.drop (totalTySize (ts.take i))).take t.size)) := by
  induction ts generalizing buf i with
  | nil => simp at h
  | cons u us ih =>
    cases i with
    | zero =>
      simp at h
      subst h
      simp [decodeSeq, totalTySize]
    | succ i =>
      simp at h
      simp only [decodeSeq, List.getElem?_cons_succ, ih (buf.drop u.size) i h, List.drop_drop,
        List.take_succ_cons, totalTySize, List.map_cons, List.sum_cons]

/-- C32: `read` throws exactly when the buffer is too short; otherwise it returns one value
per type, the i-th decoded from its own bytes, which start where the previous value ended.
In neither case is a byte outside the buffer accessed (that would be `ub`). -/
theorem c32_read (host : Endian) (ts : List Ty) (buf : List Nat) (hb : ∀ b ∈ buf, IsByte b)
    (hT : totalTySize ts < 2 ^ 64) :
    (buf.length < totalTySize ts →
      read host ts buf = .throw (.outOfRange "Insufficient buffer space for read")) ∧
    (totalTySize ts ≤ buf.length → ∃ vals, read host ts buf = .ok vals ∧
      vals.length = ts.length ∧
      ∀ i t, ts[i]? = some t →
        vals[i]? = some (decode host t.enc ((buf.drop (totalTySize (ts.take i))).take t.size))) := by
  constructor
  · intro h; rw [read_eq hb hT, if_pos h]
  · intro h
    refine ⟨decodeSeq host ts buf, ?_, decodeSeq_length _ _ _, decodeSeq_get _ _ _⟩
    rw [read_eq hb hT, if_neg (by omega)]

example : read .little [⟨1, .native⟩, ⟨2, .bigEndian⟩, ⟨1, .native⟩] [7, 0x12, 0x34, 8, 9]
    = .ok [[7], [0x34, 0x12], [8]] := by decide
example : read .little [⟨1, .native⟩, ⟨2, .bigEndian⟩] [7, 0x12]
    = .throw (.outOfRange "Insufficient buffer space for read") := by decide

/-- C33 for `write_at`: it succeeds iff the values fit at that position (as mathematical
integers), then writes exactly the bytes from the position on and returns the end position;
otherwise it throws `out_of_range`, or `invalid_argument` when the end position is not a
`size_t`, and changes nothing. -/
theorem c33_write_at (host : Endian) (pos : Nat) (vs : List WVal) (buf : List Nat)
    (hv : ∀ v ∈ vs, GoodVal v) (hT : totalSize vs < 2 ^ 64) (hp : pos < 2 ^ 64)
    (hlen : buf.length < 2 ^ 64) :
    (pos + totalSize vs ≤ buf.length →
      (writeAt host pos vs).run buf =
        (.ok (pos + totalSize vs),
          buf.take pos ++ encodeAll host vs ++ buf.drop (pos + totalSize vs))) ∧
    (buf.length < pos + totalSize vs → pos + totalSize vs < 2 ^ 64 →
      (writeAt host pos vs).run buf =
        (.throw (.outOfRange "Insufficient buffer space for write"), buf)) ∧
    (2 ^ 64 ≤ pos + totalSize vs →
      (writeAt host pos vs).run buf =
        (.throw (.invalidArgument "Buffer read position exceeds allowed value"), buf)) := by
  have e := encodeAll_length (host := host) hv
  rw [writeAt_eq hv hp hT]
  refine ⟨fun h => ?_, fun h h2 => ?_, fun h => ?_⟩
  · rw [if_neg (by omega), if_neg (by omega), overwrite, e]
  · rw [if_neg (by omega), if_pos h]
  · rw [if_pos h]

/-- C33 for `read_at`. -/
theorem c33_read_at (host : Endian) (pos : Nat) (ts : List Ty) (buf : List Nat)
    (hb : ∀ b ∈ buf, IsByte b) (hT : totalTySize ts < 2 ^ 64) (hp : pos < 2 ^ 64)
    (hlen : buf.length < 2 ^ 64) :
    (pos + totalTySize ts ≤ buf.length → ∃ vals, readAt host ts pos buf = .ok vals ∧
      vals.length = ts.length ∧
      ∀ i t, ts[i]? = some t →
        vals[i]? = some (decode host t.enc
          ((buf.drop (pos + totalTySize (ts.take i))).take t.size))) ∧
    (buf.length < pos + totalTySize ts → pos + totalTySize ts < 2 ^ 64 →
      readAt host ts pos buf = .throw (.outOfRange "Insufficient buffer space for read")) ∧
    (2 ^ 64 ≤ pos + totalTySize ts →
      readAt host ts pos buf =
        .throw (.invalidArgument "Buffer read position exceeds allowed value")) := by
  rw [readAt_eq hb hp hT]
  refine ⟨fun h => ?_, fun h h2 => ?_, fun h => ?_⟩
  · refine ⟨decodeSeq host ts (buf.drop pos), ?_, decodeSeq_length _ _ _, ?_⟩
    · rw [if_neg (by omega), if_neg (by omega)]
    · intro i t hi
      rw [decodeSeq_get _ _ _ i t hi, List.drop_drop]
  · rw [if_neg (by omega), if_pos h]
  · rw [if_pos h]

example : (writeAt .little 2 [.single .native [5, 6]]).run [0, 0, 0, 0, 0]
    = (.ok 4, [0, 0, 5, 6, 0]) := by decide
example : (writeAt .little (2 ^ 64 - 1) [.single .native [5, 6]]).run [0, 0, 0]
    = (.throw (.invalidArgument "Buffer read position exceeds allowed value"), [0, 0, 0]) := by
  decide
example : readAt .little [⟨2, .native⟩] 1 [1, 2, 3] = .ok [[2, 3]] := by decide
example : readAt .little [⟨2, .native⟩] 2 [1, 2, 3]
    = .throw (.outOfRange "Insufficient buffer space for read") := by decide

/-- C34: `try_read` returns the value `read` returns, and `insufficient_buffer` exactly when
`read` throws `out_of_range`. -/
theorem c34_try_read_agrees (host : Endian) (t : Ty) (buf : List Nat) (hb : ∀ b ∈ buf, IsByte b)
    (hT : t.size < 2 ^ 64) :
    (∃ v, tryRead host t buf = .ok (.value v) ∧ read host [t] buf = .ok [v]) ∨
    (tryRead host t buf = .ok (.error .insufficientBuffer) ∧
      read host [t] buf = .throw (.outOfRange "Insufficient buffer space for read")) := by
  rw [tryRead_eq hb, read_eq hb (by rw [totalTySize_one]; exact hT), totalTySize_one]
  by_cases h : buf.length < t.size
  · right; rw [if_pos h, if_pos h]; exact ⟨rfl, rfl⟩
  · left; rw [if_neg h, if_neg h]; exact ⟨_, rfl, rfl⟩

/-- C34: `try_read_at` returns the value `read_at` returns, and an error exactly when
`read_at` throws: `insufficient_buffer` for `out_of_range`, `invalid_position_offset` for
`invalid_argument`.  (Every C++ type has size at least one.) -/
theorem c34_try_read_at_agrees (host : Endian) (t : Ty) (pos : Nat) (buf : List Nat)
    (hb : ∀ b ∈ buf, IsByte b) (hs : 0 < t.size) (hT : t.size < 2 ^ 64) (hp : pos < 2 ^ 64) :
    (∃ v, tryReadAt host t pos buf = .ok (.value v) ∧ readAt host [t] pos buf = .ok [v]) ∨
    (tryReadAt host t pos buf = .ok (.error .insufficientBuffer) ∧
      readAt host [t] pos buf = .throw (.outOfRange "Insufficient buffer space for read")) ∨
    (tryReadAt host t pos buf = .ok (.error .invalidPositionOffset) ∧
      readAt host [t] pos buf =
        .throw (.invalidArgument "Buffer read position exceeds allowed value")) := by
  rw [tryReadAt_eq hb hp hs hT, readAt_eq hb hp (by rw [totalTySize_one]; exact hT), totalTySize_one]
  by_cases h : 2 ^ 64 ≤ pos + t.size
  · right; right; rw [if_pos h, if_pos h]; exact ⟨rfl, rfl⟩
  · rw [if_neg h, if_neg h]
    by_cases h2 : buf.length < pos + t.size
    · right; left; rw [if_pos h2, if_pos h2]; exact ⟨rfl, rfl⟩
    · left; rw [if_neg h2, if_neg h2]; exact ⟨_, rfl, rfl⟩

example : tryRead .little ⟨2, .bigEndian⟩ [1, 2, 3] = .ok (.value [2, 1]) := by decide
example : tryReadAt .little ⟨2, .native⟩ (2 ^ 64 - 1) [1, 2, 3]
    = .ok (.error .invalidPositionOffset) := by decide
example : tryReadAt .little ⟨2, .native⟩ 2 [1, 2, 3] = .ok (.error .insufficientBuffer) := by decide

private theorem recursiveTryRead_get (host : Endian) (ts : List Ty) (buf : List Nat)
    (hb : ∀ b ∈ buf, IsByte b) (hs : ∀ t ∈ ts, 0 < t.size) :
    ∃ rs, recursiveTryRead host ts buf = .ok rs ∧ rs.length = ts.length ∧
      ∀ i t, ts[i]? = some t → rs[i]? = some (
        if totalTySize (ts.take (i + 1)) ≤ buf.length then
          .value (decode host t.enc ((buf.drop (totalTySize (ts.take i))).take t.size))
        else .error .insufficientBuffer) := by
  induction ts generalizing buf with
  | nil => exact ⟨[], rfl, rfl, by simp⟩
  | cons t ts ih =>
    have hst := hs t (by simp)
    have hss : ∀ u ∈ ts, 0 < u.size := fun u hu => hs u (by simp [hu])
    by_cases h : buf.length < t.size
    · obtain ⟨rs, hrs, hlen, hget⟩ := ih [] (by simp) hss
      refine ⟨.error .insufficientBuffer :: rs, ?_, by simp [hlen], ?_⟩
      · simp only [recursiveTryRead, tryRead_eq hb, if_pos h, Outcome.bind_ok, Result.ok, Result.index]
        simp [spanFrom, hrs]
      · intro i u hu
        cases i with
        | zero =>
          simp at hu; subst hu
          have : ¬ totalTySize [t] ≤ buf.length := by simp [totalTySize]; omega
          simp [this]
        | succ i =>
          simp at hu
          have h1 := hget i u hu
          have hpos : ¬ totalTySize (ts.take (i + 1)) ≤ 0 := by
            have hi : i < ts.length := by
              rcases Nat.lt_or_ge i ts.length with h | h
              · exact h
              · rw [List.getElem?_eq_none h] at hu; exact absurd hu (by simp)
            cases ts with
            | nil => simp at hi
            | cons w ws =>
              have := hss w (by simp)
              simp [totalTySize]; omega
          rw [if_neg (by simpa using hpos)] at h1
          have h2 : ¬ totalTySize ((t :: ts).take (i + 1 + 1)) ≤ buf.length := by
            simp [totalTySize]; omega
          rw [if_neg h2]
          simpa using h1
    · obtain ⟨rs, hrs, hlen, hget⟩ := ih (buf.drop t.size)
        (fun b hx => hb b (List.mem_of_mem_drop hx)) hss
      refine ⟨.value (decode host t.enc (buf.take t.size)) :: rs, ?_, by simp [hlen], ?_⟩
      · have h' : t.size ≤ buf.length := by omega
        simp only [recursiveTryRead, tryRead_eq hb, if_neg h, Outcome.bind_ok, Result.ok, Result.index]
        simp [spanFrom, h', hrs]
      · intro i u hu
        cases i with
        | zero =>
          simp at hu; subst hu
          have : totalTySize [t] ≤ buf.length := by simp [totalTySize]; omega
          simp [this]
          simp [totalTySize]
        | succ i =>
          simp at hu
          have h1 := hget i u hu
          have e1 : totalTySize ((t :: ts).take (i + 1 + 1)) = t.size + totalTySize (ts.take (i + 1)) := by
            simp [totalTySize]
          have e2 : totalTySize ((t :: ts).take (i + 1)) = t.size + totalTySize (ts.take i) := by
            simp [totalTySize]
          rw [e1, e2]
          simp only [List.getElem?_cons_succ, h1, List.length_drop, List.drop_drop]
          by_cases h3 : totalTySize (ts.take (i + 1)) ≤ buf.length - t.size
          · rw [if_pos h3, if_pos (by omega)]
          · rw [if_neg h3, if_neg (by omega)]

/-- C35: the i-th result of a multi-value `try_read` is a value, decoded from its own bytes,
as long as everything up to it fits, and `insufficient_buffer` otherwise (so an error is
never followed by a value). -/
theorem c35_multi_try_read (host : Endian) (ts : List Ty) (buf : List Nat)
    (hb : ∀ b ∈ buf, IsByte b) (hs : ∀ t ∈ ts, 0 < t.size) :
    ∃ rs, recursiveTryRead host ts buf = .ok rs ∧ rs.length = ts.length ∧
      ∀ i t, ts[i]? = some t → rs[i]? = some (
        if totalTySize (ts.take (i + 1)) ≤ buf.length then
          .value (decode host t.enc ((buf.drop (totalTySize (ts.take i))).take t.size))
        else .error .insufficientBuffer) :=
  recursiveTryRead_get host ts buf hb hs

/-- C35: when the whole list fits the values are those of the throwing `read`; more
generally the leading `k` results are those of `read` of the leading `k` types. -/
theorem c35_prefix_as_read (host : Endian) (ts : List Ty) (buf : List Nat) (k : Nat)
    (hb : ∀ b ∈ buf, IsByte b) (hs : ∀ t ∈ ts, 0 < t.size) (hlen : buf.length < 2 ^ 64)
    (hfit : totalTySize (ts.take k) ≤ buf.length) :
    ∃ rs vals, recursiveTryRead host ts buf = .ok rs ∧ read host (ts.take k) buf = .ok vals ∧
      rs.take k = vals.map Result.value := by
  obtain ⟨rs, hrs, hl, hget⟩ := recursiveTryRead_get host ts buf hb hs
  obtain ⟨vals, hvals, hvl, hvget⟩ := (c32_read host (ts.take k) buf hb (by omega)).2 hfit
  refine ⟨rs, vals, hrs, hvals, ?_⟩
  apply List.ext_getElem?
  intro i
  rw [List.getElem?_take]
  by_cases hik : i < k
  · rw [if_pos hik]
    rcases hti : ts[i]? with _ | t
    · have : ts.length ≤ i := List.getElem?_eq_none_iff.1 hti
      rw [List.getElem?_eq_none (by omega), List.getElem?_eq_none]
      simp [hvl]; omega
    · have h1 := hget i t hti
      have h2 := hvget i t (by rw [List.getElem?_take, if_pos hik, hti])
      have hle : totalTySize (ts.take (i + 1)) ≤ totalTySize (ts.take k) := by
        obtain ⟨d, hd⟩ : ∃ d, k = (i + 1) + d := ⟨k - (i + 1), by omega⟩
        have ht : ts.take k = ts.take (i + 1) ++ (ts.drop (i + 1)).take d := by
          rw [hd, List.take_add]
        rw [ht]
        simp only [totalTySize, List.map_append, List.sum_append]
        omega
      rw [if_pos (by omega)] at h1
      rw [h1, List.getElem?_map, h2]
      have e : (ts.take k).take i = ts.take i := by
        rw [List.take_take, Nat.min_eq_left (by omega)]
      rw [e]; rfl
  · rw [if_neg hik, List.getElem?_eq_none]
    simp [hvl]; omega

example : recursiveTryRead .little [⟨2, .native⟩, ⟨2, .bigEndian⟩, ⟨2, .native⟩, ⟨1, .native⟩]
    [1, 2, 3, 4, 5] = .ok [.value [1, 2], .value [4, 3], .error .insufficientBuffer,
      .error .insufficientBuffer] := by decide

/-- C36 when the positions do not wrap (`pos` plus the total size is below 2^64): every value
returned is decoded from the bytes at `pos` plus the sizes of the preceding types, and lies
inside the buffer.  Missing: positions within the total size of 2^64, where it is false. -/
theorem c36_multi_try_read_at_partial (host : Endian) (ts : List Ty) (pos : Nat) (buf : List Nat)
    (hb : ∀ b ∈ buf, IsByte b) (hs : ∀ t ∈ ts, 0 < t.size)
    (hnowrap : pos + totalTySize ts < 2 ^ 64) :
    ∃ rs, recursiveTryReadAt host ts pos buf = .ok rs ∧ rs.length = ts.length ∧
      ∀ i t, ts[i]? = some t → rs[i]? = some (
        if pos + totalTySize (ts.take (i + 1)) ≤ buf.length then
          .value (decode host t.enc ((buf.drop (pos + totalTySize (ts.take i))).take t.size))
        else .error .insufficientBuffer) := by
  induction ts generalizing pos with
  | nil => exact ⟨[], rfl, rfl, by simp⟩
  | cons t ts ih =>
    have e0 : totalTySize (t :: ts) = t.size + totalTySize ts := by simp [totalTySize]
    have hst := hs t (by simp)
    obtain ⟨rs, hrs, hlen, hget⟩ := ih (pos + t.size) (fun u hu => hs u (by simp [hu])) (by omega)
    have hm : (pos + t.size) % sizeMod = pos + t.size := Nat.mod_eq_of_lt (by rw [sizeMod]; omega)
    have h1 := tryReadAt_eq (host := host) (t := t) (pos := pos) hb (by omega) hst (by omega)
    rw [if_neg (by omega)] at h1
    have hrec : ∀ i u, ts[i]? = some u → rs[i]? = some (
        if pos + totalTySize ((t :: ts).take (i + 1 + 1)) ≤ buf.length then
          .value (decode host u.enc ((buf.drop (pos + totalTySize ((t :: ts).take (i + 1)))).take u.size))
        else .error .insufficientBuffer) := by
      intro i u hu
      have h2 := hget i u hu
      have e1 : totalTySize ((t :: ts).take (i + 1 + 1)) = t.size + totalTySize (ts.take (i + 1)) := by
        simp [totalTySize]
      have e2 : totalTySize ((t :: ts).take (i + 1)) = t.size + totalTySize (ts.take i) := by
        simp [totalTySize]
      rw [e1, e2, ← Nat.add_assoc, ← Nat.add_assoc]; exact h2
    by_cases h : buf.length < pos + t.size
    · rw [if_pos h] at h1
      refine ⟨.error .insufficientBuffer :: rs, ?_, by simp [hlen], ?_⟩
      · simp [recursiveTryReadAt, h1, hm, hrs]
      · intro i u hu
        cases i with
        | zero =>
          have : ¬ pos + totalTySize [t] ≤ buf.length := by simp [totalTySize]; omega
          simp [this]
        | succ i =>
          rw [List.getElem?_cons_succ] at hu ⊢
          exact hrec i u hu
    · rw [if_neg h] at h1
      refine ⟨.value (decode host t.enc ((buf.drop pos).take t.size)) :: rs, ?_, by simp [hlen], ?_⟩
      · simp [recursiveTryReadAt, h1, hm, hrs]
      · intro i u hu
        cases i with
        | zero =>
          simp at hu; subst hu
          have : pos + totalTySize [t] ≤ buf.length := by simp [totalTySize]; omega
          simp [this]
          simp [totalTySize]
        | succ i =>
          rw [List.getElem?_cons_succ] at hu ⊢
          exact hrec i u hu

/-- C36 for every position: the place of each value is `pos` plus the sizes of the preceding
types modulo 2^64.  So a value comes from the wrong place exactly if that sum reaches 2^64 and the
remainder is a place in the buffer with room for the value. -/
theorem c36_every_position_partial (host : Endian) (ts : List Ty) (pos : Nat) (buf : List Nat)
    (hb : ∀ b ∈ buf, IsByte b) (hs : ∀ t ∈ ts, 0 < t.size ∧ t.size < 2 ^ 64) (hp : pos < 2 ^ 64) :
    ∃ rs, recursiveTryReadAt host ts pos buf = .ok rs ∧ rs.length = ts.length ∧
      ∀ i t, ts[i]? = some t → rs[i]? = some (
        if 2 ^ 64 ≤ (pos + totalTySize (ts.take i)) % 2 ^ 64 + t.size then .error .invalidPositionOffset
        else if buf.length < (pos + totalTySize (ts.take i)) % 2 ^ 64 + t.size then .error .insufficientBuffer
        else .value (decode host t.enc
          ((buf.drop ((pos + totalTySize (ts.take i)) % 2 ^ 64)).take t.size))) := by
  induction ts generalizing pos with
  | nil => exact ⟨[], rfl, rfl, by simp⟩
  | cons t ts ih =>
    obtain ⟨hs0, hsT⟩ := hs t (by simp)
    obtain ⟨rs, hrs, hlen, hget⟩ := ih ((pos + t.size) % 2 ^ 64) (fun u hu => hs u (by simp [hu]))
      (Nat.mod_lt _ (by positivity))
    have h1 := tryReadAt_eq (host := host) (t := t) (pos := pos) hb hp hs0 hsT
    have hm : (pos + t.size) % sizeMod = (pos + t.size) % 2 ^ 64 := rfl
    obtain ⟨r, hr, hr'⟩ : ∃ r, tryReadAt host t pos buf = .ok r ∧ r =
        if 2 ^ 64 ≤ pos + t.size then .error .invalidPositionOffset
        else if buf.length < pos + t.size then .error .insufficientBuffer
        else .value (decode host t.enc ((buf.drop pos).take t.size)) := by
      rw [h1]
      split
      · exact ⟨_, rfl, rfl⟩
      · split
        · exact ⟨_, rfl, rfl⟩
        · exact ⟨_, rfl, rfl⟩
    refine ⟨r :: rs, by rw [recursiveTryReadAt, hr, hm, Outcome.bind_ok, hrs]; rfl, by simp [hlen], ?_⟩
    intro i u hu
    cases i with
    | zero =>
      simp at hu; subst hu
      have e : (pos + totalTySize (List.take 0 (t :: ts))) % 2 ^ 64 = pos := by
        simp only [List.take_zero, totalTySize, List.map_nil, List.sum_nil, Nat.add_zero]
        exact Nat.mod_eq_of_lt hp
      rw [e, ← hr']
      rfl
    | succ i =>
      rw [List.getElem?_cons_succ] at hu ⊢
      have e : ((pos + t.size) % 2 ^ 64 + totalTySize (ts.take i)) % 2 ^ 64 =
          (pos + totalTySize ((t :: ts).take (i + 1))) % 2 ^ 64 := by
        have : totalTySize ((t :: ts).take (i + 1)) = t.size + totalTySize (ts.take i) := by simp [totalTySize]
        rw [this, Nat.mod_add_mod, Nat.add_assoc]
      have h2 := hget i u hu
      rw [e] at h2
      exact h2

/-- C36 is false: near the top of the address range the position wraps around after a
failed value, and later values are read from the start of the buffer.  Whenever the place of a
type would be at or beyond 2^64 and what is left after subtracting 2^64 lies in the buffer with room
for the value, a value is returned, decoded from there. -/
theorem c36_refuted_position_wraps (host : Endian) (ts : List Ty) (pos : Nat) (buf : List Nat)
    (hb : ∀ b ∈ buf, IsByte b) (hs : ∀ t ∈ ts, 0 < t.size ∧ t.size < 2 ^ 64) (hp : pos < 2 ^ 64)
    (hlen : buf.length < 2 ^ 64) (i : Nat) (t : Ty) (ht : ts[i]? = some t) (q : Nat)
    (hq : pos + totalTySize (ts.take i) = 2 ^ 64 + q) (hfit : q + t.size ≤ buf.length) :
    ∃ rs, recursiveTryReadAt host ts pos buf = .ok rs ∧
      rs[i]? = some (.value (decode host t.enc ((buf.drop q).take t.size))) := by
  obtain ⟨rs, h1, -, h2⟩ := c36_every_position_partial host ts pos buf hb hs hp
  refine ⟨rs, h1, ?_⟩
  have h3 := h2 i t ht
  have e : (pos + totalTySize (ts.take i)) % 2 ^ 64 = q := by
    rw [hq, Nat.add_mod_left, Nat.mod_eq_of_lt (by omega)]
  rw [e, if_neg (by omega), if_neg (by omega)] at h3
  exact h3

example : recursiveTryReadAt .little [⟨4, .native⟩, ⟨1, .native⟩] (2 ^ 64 - 4) [7] =
    .ok [.error .invalidPositionOffset, .value [7]] := by decide

example : recursiveTryReadAt .little [⟨4, .native⟩, ⟨2, .native⟩, ⟨1, .native⟩] (2 ^ 64 - 3) [1, 2, 3, 4]
    = .ok [.error .invalidPositionOffset, .value [2, 3], .value [4]] := by decide

example : recursiveTryReadAt .little [⟨2, .native⟩, ⟨1, .native⟩, ⟨2, .native⟩] 1 [1, 2, 3, 4, 5]
    = .ok [.value [2, 3], .value [4], .error .insufficientBuffer] := by decide

/-- C37: `try_write` succeeds iff `write` does, with the same buffer and byte count. -/
theorem c37_try_write_agrees (host : Endian) (vs : List WVal) (buf : List Nat)
    (hv : ∀ v ∈ vs, GoodVal v) (hT : totalSize vs < 2 ^ 64) :
    (∃ n buf', (tryWrite host vs).run buf = (.ok (.value n), buf') ∧
      (write host vs).run buf = (.ok n, buf')) ∨
    (∃ buf', (tryWrite host vs).run buf = (.ok (.error .insufficientBuffer), buf') ∧
      (write host vs).run buf = (.throw (.outOfRange "Insufficient buffer space for write"), buf)) := by
  rw [tryWrite, recursiveTryWrite_eq vs 0 buf hv hT (by omega), write_eq hv hT]
  by_cases h : buf.length < totalSize vs
  · right; rw [if_pos (by omega), if_pos h]; exact ⟨_, rfl, rfl⟩
  · left; rw [if_neg (by omega), if_neg h]; exact ⟨_, _, rfl, rfl⟩

/-- C37: a failed `try_write` has written the leading values that fit and left every later
byte alone. -/
theorem c37_failed_try_write (host : Endian) (vs : List WVal) (buf : List Nat)
    (hv : ∀ v ∈ vs, GoodVal v) (hT : totalSize vs < 2 ^ 64) (hbig : buf.length < totalSize vs) :
    (tryWrite host vs).run buf =
      (.ok (.error .insufficientBuffer),
        encodeAll host (leadingFit buf.length vs) ++
          buf.drop (totalSize (leadingFit buf.length vs))) := by
  have hg : ∀ (ws : List WVal) (room : Nat), (∀ v ∈ ws, GoodVal v) →
      ∀ v ∈ leadingFit room ws, GoodVal v := by
    intro ws
    induction ws with
    | nil => intro room _ v hm; simp [leadingFit] at hm
    | cons w ws ih =>
      intro room hw v hm
      rw [leadingFit] at hm
      by_cases hr : sizeOfVal w ≤ room
      · rw [if_pos hr] at hm
        rcases List.mem_cons.1 hm with rfl | hm
        · exact hw _ (by simp)
        · exact ih _ (fun x hx => hw x (by simp [hx])) v hm
      · rw [if_neg hr] at hm; simp at hm
  have e := encodeAll_length (host := host) (hg vs buf.length hv)
  rw [tryWrite, recursiveTryWrite_eq vs 0 buf hv hT (by omega), if_pos (by omega)]
  simp [overwrite, e]

example : (tryWrite .little [.single .native [1, 2], .single .native [3, 4]]).run [9, 9, 9]
    = (.ok (.error .insufficientBuffer), [1, 2, 9]) := by decide
example : leadingFit 3 [.single .native [1, 2], .single .native [3, 4]] = [.single .native [1, 2]] := by
  decide

/-- C38: `try_write_at` returns ok with the end position iff `write_at` succeeds, and leaves
the same buffer; otherwise it returns an error and changes nothing. -/
theorem c38_try_write_at_agrees (host : Endian) (pos : Nat) (v : WVal) (buf : List Nat)
    (hv : GoodVal v) (hs : 0 < sizeOfVal v) (hT : sizeOfVal v < 2 ^ 64) (hp : pos < 2 ^ 64)
    (hlen : buf.length < 2 ^ 64) :
    (pos + sizeOfVal v ≤ buf.length → ∃ buf',
      (tryWriteAt host pos v).run buf = (.ok (.value (pos + sizeOfVal v)), buf') ∧
      (writeAt host pos [v]).run buf = (.ok (pos + sizeOfVal v), buf')) ∧
    (buf.length < pos + sizeOfVal v → ∃ e x,
      (tryWriteAt host pos v).run buf = (.ok (.error e), buf) ∧
      (writeAt host pos [v]).run buf = (.throw x, buf)) := by
  rw [tryWriteAt_eq hv hp hs hT,
    writeAt_eq (by simpa using hv) hp (by rw [totalSize_one]; exact hT), totalSize_one, encodeAll_one]
  constructor
  · intro h
    rw [if_neg (by omega), if_neg (by omega), if_neg (by omega), if_neg (by omega)]
    exact ⟨_, rfl, rfl⟩
  · intro h
    by_cases h2 : 2 ^ 64 ≤ pos + sizeOfVal v
    · rw [if_pos h2, if_pos h2]; exact ⟨_, _, rfl, rfl⟩
    · rw [if_neg h2, if_neg h2, if_pos h, if_pos h]; exact ⟨_, _, rfl, rfl⟩

private theorem recursiveTryWriteAt_ok (host : Endian) (vs : List WVal) (pos : Nat) (buf : List Nat)
    (hv : ∀ v ∈ vs, GoodVal v) (hs : ∀ v ∈ vs, 0 < sizeOfVal v) (hlen : buf.length < 2 ^ 64)
    (hfit : pos + totalSize vs ≤ buf.length) :
    (recursiveTryWriteAt host pos vs).run buf =
      (.ok (.value (pos + totalSize vs)), overwrite buf pos (encodeAll host vs)) := by
  induction vs generalizing pos buf with
  | nil => simp [recursiveTryWriteAt, totalSize, encodeAll, overwrite_nil]
  | cons v vs ih =>
    have hv1 := hv v (by simp)
    have hvs : ∀ x ∈ vs, GoodVal x := fun x hx => hv x (by simp [hx])
    have hs1 := hs v (by simp)
    rw [totalSize_cons] at hfit ⊢
    have hl := encodeVal_length (host := host) hv1
    have hla := encodeAll_length (host := host) hvs
    have h1 := tryWriteAt_eq (host := host) (pos := pos) (buf := buf) hv1 (by omega) hs1 (by omega)
    rw [if_neg (by omega), if_neg (by omega)] at h1
    rw [recursiveTryWriteAt, St.run_bind_ok h1]
    cases vs with
    | nil => simp [totalSize, encodeAll]
    | cons v' vs' =>
      simp only [List.isEmpty_cons, Bool.false_eq_true, if_false]
      have happ := overwrite_append (buf := buf) (pos := pos) (b1 := encodeVal host v)
        (b2 := encodeAll host (v' :: vs')) (by omega)
      rw [hl] at happ
      rw [ih (pos + sizeOfVal v) _ hvs (fun x hx => hs x (by simp [hx]))
        (by rw [overwrite_length (by omega)]; exact hlen)
        (by rw [overwrite_length (by omega)]; omega), happ, encodeAll_cons host v (v' :: vs'),
        Nat.add_assoc]

/-- C38 for several values: when all of them fit, the multi-value `try_write_at` does what
`write_at` does. -/
theorem c38_multi_try_write_at_agrees (host : Endian) (pos : Nat) (vs : List WVal) (buf : List Nat)
    (hv : ∀ v ∈ vs, GoodVal v) (hs : ∀ v ∈ vs, 0 < sizeOfVal v) (hlen : buf.length < 2 ^ 64)
    (hfit : pos + totalSize vs ≤ buf.length) :
    ∃ buf', (recursiveTryWriteAt host pos vs).run buf = (.ok (.value (pos + totalSize vs)), buf') ∧
      (writeAt host pos vs).run buf = (.ok (pos + totalSize vs), buf') := by
  refine ⟨_, recursiveTryWriteAt_ok host vs pos buf hv hs hlen hfit, ?_⟩
  rw [writeAt_eq hv (by omega) (by omega), if_neg (by omega), if_neg (by omega)]

example : (tryWriteAt .little 1 (.single .native [5, 6])).run [0, 0, 0, 0]
    = (.ok (.value 3), [0, 5, 6, 0]) := by decide
example : (tryWriteAt .little 3 (.single .native [5, 6])).run [0, 0, 0, 0]
    = (.ok (.error .insufficientBuffer), [0, 0, 0, 0]) := by decide

/-- C39: `to_bytes` yields the encoding and never fails. -/
theorem c39_to_bytes (host : Endian) (enc : Enc) (o : Obj) (ho : ∀ b ∈ o, IsByte b)
    (hsz : o.length < 2 ^ 64) :
    toBytes host enc o = .ok (encode host enc o) ∧
    tryToBytes host enc o = .ok (.value (encode host enc o)) := by
  have hv : ∀ v ∈ [WVal.single enc o], GoodVal v := by simpa [GoodVal] using ho
  have e := encode_length (host := host) (enc := enc) ho
  have hT : totalSize [WVal.single enc o] < 2 ^ 64 := by simpa [totalSize, sizeOfVal] using hsz
  constructor
  · rw [toBytes, write_eq hv hT, totalSize_one, if_neg (by simp [sizeOfVal])]
    simp [encodeAll, encodeVal, overwrite, e]
  · rw [tryToBytes, tryWrite, recursiveTryWrite_eq _ 0 _ hv hT (by omega), totalSize_one,
      if_neg (by simp [sizeOfVal])]
    simp [encodeAll, encodeVal, overwrite, e]

/-- C39: `from_bytes` undoes `to_bytes`. -/
theorem c39_from_to_bytes (host : Endian) (enc : Enc) (o : Obj) (ho : ∀ b ∈ o, IsByte b)
    (hsz : o.length < 2 ^ 64) :
    (toBytes host enc o >>= fromBytes host ⟨o.length, enc⟩) = .ok [o] ∧
    (toBytes host enc o >>= tryFromBytes host ⟨o.length, enc⟩) = .ok (.value o) := by
  have e := encode_length (host := host) (enc := enc) ho
  rw [(c39_to_bytes host enc o ho hsz).1]
  simp only [Outcome.bind_ok, fromBytes, tryFromBytes]
  rw [read_eq (encode_isByte ho) (by rw [totalTySize_one]; exact hsz), tryRead_eq (encode_isByte ho),
    totalTySize_one, if_neg (by simp; omega), if_neg (by simp; omega), decodeSeq, decodeSeq]
  rw [← e, List.take_length, decode_encode ho]
  exact ⟨rfl, rfl⟩

/-- C39: `to_bytes` undoes `from_bytes` on every byte array of the type's size. -/
theorem c39_to_from_bytes (host : Endian) (t : Ty) (bs : List Nat) (hb : ∀ b ∈ bs, IsByte b)
    (hl : bs.length = t.size) (hsz : t.size < 2 ^ 64) :
    ∃ v, fromBytes host t bs = .ok [v] ∧ v.length = t.size ∧ toBytes host t.enc v = .ok bs := by
  refine ⟨decode host t.enc bs, ?_, ?_, ?_⟩
  · rw [fromBytes, read_eq hb (by rw [totalTySize_one]; exact hsz), totalTySize_one,
      if_neg (by omega), decodeSeq, decodeSeq, ← hl, List.take_length]
  · rw [decode_length hb, hl]
  · have hd : decode host t.enc bs = bytesOf host t.enc bs := (bytesOf_eq_decode _ _ _ hb).symm
    rw [(c39_to_bytes host t.enc (decode host t.enc bs) (by rw [hd]; exact bytesOf_isByte hb)
      (by rw [decode_length hb]; omega)).1, encode_decode hb]

example : toBytes .little .bigEndian [1, 2, 3, 4] = .ok [4, 3, 2, 1] := by decide
example : fromBytes .big ⟨2, .littleEndian⟩ [1, 2] = .ok [[2, 1]] := by decide

/-- C40: a range written with `write` is read back element for element by `read_range`. -/
theorem c40_range_round_trip (host : Endian) (n : Nat) (elems : List Obj) (buf : List Nat)
    (he : ∀ o ∈ elems, o.length = n ∧ ∀ b ∈ o, IsByte b) (hb : ∀ b ∈ buf, IsByte b)
    (hfit : elems.length * n ≤ buf.length) (hlen : buf.length < 2 ^ 64) :
    ∃ buf', (write host [.range n elems]).run buf = (.ok (elems.length * n), buf') ∧
      readRange host ⟨n, .native⟩ elems.length buf' = .ok elems ∧
      tryReadRange host ⟨n, .native⟩ elems.length buf' = .ok (.value elems) := by
  have hv : ∀ v ∈ [WVal.range n elems], GoodVal v := by simpa [GoodVal] using he
  have hvl := encodeVal_length (host := host) (v := .range n elems) he
  simp only [encodeVal, sizeOfVal] at hvl
  have hfl : ∀ b ∈ elems.flatten, IsByte b := encodeVal_isByte (host := host) (v := .range n elems) he
  refine ⟨overwrite buf 0 elems.flatten, ?_, ?_, ?_⟩
  · rw [write_eq hv (by simp only [totalSize_one, sizeOfVal]; omega), totalSize_one, encodeAll_one,
      if_neg (by simp only [sizeOfVal]; omega)]
    rfl
  all_goals
    have hd := drop_overwrite (buf := buf) (pos := 0) (bs := elems.flatten) (by omega)
    rw [List.drop_zero] at hd
  · rw [readRange_eq (overwrite_isByte hb hfl) (by simp; omega), overwrite_length (by omega),
      if_neg (by simp; omega), hd, decodeSeq_native n elems _ (fun o ho => (he o ho).1)]
  · rw [tryReadRange_eq (overwrite_isByte hb hfl) (by simp; omega), overwrite_length (by omega),
      if_neg (by simp; omega), hd, decodeSeq_native n elems _ (fun o ho => (he o ho).1)]

/-- C40: on an insufficient buffer a range write throws and changes nothing, a range read
throws, and the `try_` form reports `insufficient_buffer`. -/
theorem c40_range_insufficient (host : Endian) (n : Nat) (elems : List Obj) (buf : List Nat)
    (he : ∀ o ∈ elems, o.length = n ∧ ∀ b ∈ o, IsByte b) (hb : ∀ b ∈ buf, IsByte b)
    (hT : elems.length * n < 2 ^ 64) (hbig : buf.length < elems.length * n) :
    (write host [.range n elems]).run buf =
      (.throw (.outOfRange "Insufficient buffer space for write"), buf) ∧
    (tryWrite host [.range n elems]).run buf = (.ok (.error .insufficientBuffer), buf) ∧
    readRange host ⟨n, .native⟩ elems.length buf =
      .throw (.outOfRange "Insufficient buffer space for read") ∧
    tryReadRange host ⟨n, .native⟩ elems.length buf = .ok (.error .insufficientBuffer) := by
  have hv : ∀ v ∈ [WVal.range n elems], GoodVal v := by simpa [GoodVal] using he
  refine ⟨?_, ?_, ?_, ?_⟩
  · rw [write_eq hv (by simp only [totalSize_one, sizeOfVal]; omega), totalSize_one,
      if_pos (by simp only [sizeOfVal]; omega)]
  · have h1 := c37_failed_try_write host [.range n elems] buf hv
      (by simp only [totalSize_one, sizeOfVal]; omega) (by simp only [totalSize_one, sizeOfVal]; omega)
    rw [h1, leadingFit, if_neg (by simp only [sizeOfVal]; omega)]
    simp [encodeAll, totalSize]
  · rw [readRange_eq hb hT, if_pos hbig]
  · rw [tryReadRange_eq hb hT, if_pos hbig]

/-- C40 at a position: `read_range_at` reads the elements from the position on, and throws
exactly when they do not all fit there. -/
theorem c40_range_at (host : Endian) (t : Ty) (n pos : Nat) (buf : List Nat)
    (hb : ∀ b ∈ buf, IsByte b) (hp : pos < 2 ^ 64) (hT : n * t.size < 2 ^ 64)
    (hlen : buf.length < 2 ^ 64) :
    (pos + n * t.size ≤ buf.length → ∃ vals, readRangeAt host t n pos buf = .ok vals ∧
      vals.length = n ∧ ∀ i < n, vals[i]? =
        some (decode host t.enc ((buf.drop (pos + i * t.size)).take t.size))) ∧
    (buf.length < pos + n * t.size → ∃ e, readRangeAt host t n pos buf = .throw e) := by
  rw [readRangeAt_eq hb hp hT]
  constructor
  · intro h
    refine ⟨decodeSeq host (List.replicate n t) (buf.drop pos), ?_, ?_, ?_⟩
    · rw [if_neg (by omega), if_neg (by omega)]
    · rw [decodeSeq_length]; simp
    · intro i hi
      rw [decodeSeq_get _ _ _ i t (by rw [List.getElem?_replicate, if_pos hi]), List.drop_drop,
        List.take_replicate, totalTySize_replicate]
      congr 6
      omega
  · intro h
    by_cases h2 : 2 ^ 64 ≤ pos + n * t.size
    · rw [if_pos h2]; exact ⟨_, rfl⟩
    · rw [if_neg h2, if_pos h]; exact ⟨_, rfl⟩

example : readRange .little ⟨2, .native⟩ 2 [1, 2, 3, 4, 5] = .ok [[1, 2], [3, 4]] := by decide
example : readRangeAt .little ⟨2, .bigEndian⟩ 2 1 [1, 2, 3, 4, 5] = .ok [[3, 2], [5, 4]] := by decide
example : ∀ o ∈ [[1, 2], [3, 4]], o.length = 2 ∧ ∀ b ∈ o, IsByte b := by simp [IsByte]

end Wite.Props
