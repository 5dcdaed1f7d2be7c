import Verif.Spec.Io
import Verif.Lemmas.Hex

/-!
# Lemmas about buffer reads and writes
-/

namespace Wite.Io

open Wite.Spec Wite.Hex

theorem bytesOf_length (host : Endian) (enc : Enc) (o : Obj) : (bytesOf host enc o).length = o.length := by
  cases enc <;> cases host <;> simp [bytesOf, littleEndianBytes, bigEndianBytes]

theorem bytesOf_bytesOf (host : Endian) (enc : Enc) (o : Obj) :
    bytesOf host enc (bytesOf host enc o) = o := by
  cases enc <;> cases host <;> simp [bytesOf, littleEndianBytes, bigEndianBytes]

theorem bytesOf_isByte {host : Endian} {enc : Enc} {o : Obj} (h : ∀ b ∈ o, IsByte b) :
    ∀ b ∈ bytesOf host enc o, IsByte b := by
  cases enc <;> cases host <;> simpa [bytesOf, littleEndianBytes, bigEndianBytes] using h

theorem leBytes_leValue_reverse (o : List Nat) (h : ∀ b ∈ o, b < 256) :
    leBytes o.length (leValue o.reverse) = o.reverse := by
  have := leBytes_leValue o.reverse (by simpa using h)
  simpa using this

theorem bytesOf_eq_encode (host : Endian) (enc : Enc) (o : Obj) (h : ∀ b ∈ o, IsByte b) :
    bytesOf host enc o = encode host enc o := by
  have h1 := leBytes_leValue o h
  have h2 := leBytes_leValue_reverse o h
  cases enc <;> cases host <;>
    simp [bytesOf, littleEndianBytes, bigEndianBytes, encode, intValue, beValue, beBytes, h1, h2]

theorem bytesOf_eq_decode (host : Endian) (enc : Enc) (o : Obj) (h : ∀ b ∈ o, IsByte b) :
    bytesOf host enc o = decode host enc o := by
  have h1 := leBytes_leValue o h
  have h2 := leBytes_leValue_reverse o h
  cases enc <;> cases host <;>
    simp [bytesOf, littleEndianBytes, bigEndianBytes, decode, intObject, beValue, beBytes, h1, h2]

theorem encode_length {host : Endian} {enc : Enc} {o : Obj} (h : ∀ b ∈ o, IsByte b) :
    (encode host enc o).length = o.length := by
  rw [← bytesOf_eq_encode host enc o h, bytesOf_length]

theorem encode_isByte {host : Endian} {enc : Enc} {o : Obj} (h : ∀ b ∈ o, IsByte b) :
    ∀ b ∈ encode host enc o, IsByte b := by
  rw [← bytesOf_eq_encode host enc o h]; exact bytesOf_isByte h

theorem decode_encode {host : Endian} {enc : Enc} {o : Obj} (h : ∀ b ∈ o, IsByte b) :
    decode host enc (encode host enc o) = o := by
  rw [← bytesOf_eq_decode _ _ _ (encode_isByte h), ← bytesOf_eq_encode _ _ _ h, bytesOf_bytesOf]

theorem encode_decode {host : Endian} {enc : Enc} {bs : List Nat} (h : ∀ b ∈ bs, IsByte b) :
    encode host enc (decode host enc bs) = bs := by
  have hd : decode host enc bs = bytesOf host enc bs := (bytesOf_eq_decode _ _ _ h).symm
  rw [hd, ← bytesOf_eq_encode _ _ _ (bytesOf_isByte h), bytesOf_bytesOf]

theorem decode_length {host : Endian} {enc : Enc} {bs : List Nat} (h : ∀ b ∈ bs, IsByte b) :
    (decode host enc bs).length = bs.length := by
  rw [← bytesOf_eq_decode _ _ _ h, bytesOf_length]

theorem encodeVal_length {host : Endian} {v : WVal} (h : GoodVal v) :
    (encodeVal host v).length = sizeOfVal v := by
  cases v with
  | single enc o => exact encode_length h
  | range n elems =>
    simp only [encodeVal, sizeOfVal]
    induction elems with
    | nil => simp
    | cons o os ih =>
      have h1 := (h o (by simp)).1
      have h2 : GoodVal (.range n os) := fun x hx => h x (by simp [hx])
      simp only [List.flatten_cons, List.length_append, List.length_cons, ih h2, h1]
      rw [Nat.succ_mul, Nat.add_comm]

theorem encodeAll_length {host : Endian} {vs : List WVal} (h : ∀ v ∈ vs, GoodVal v) :
    (encodeAll host vs).length = totalSize vs := by
  induction vs with
  | nil => rfl
  | cons v vs ih =>
    have := ih (fun x hx => h x (by simp [hx]))
    simp only [encodeAll, totalSize, List.flatMap_cons, List.length_append, List.map_cons, List.sum_cons] at *
    rw [this, encodeVal_length (h v (by simp))]

/-! ## Reading -/

theorem readMem_ok {buf : List Nat} {pos n : Nat} (h : pos + n ≤ buf.length) :
    readMem buf pos n = .ok ((buf.drop pos).take n) := by simp [readMem, h]

theorem uncheckedRead_ok {host : Endian} {t : Ty} {buf : List Nat} {pos : Nat}
    (hb : ∀ b ∈ buf, IsByte b) (h : pos + t.size ≤ buf.length) :
    uncheckedRead host t buf pos =
      .ok (decode host t.enc ((buf.drop pos).take t.size), pos + t.size) := by
  simp only [uncheckedRead, readMem_ok h, Outcome.bind_ok, Outcome.pure_eq]
  rw [bytesOf_eq_decode]
  intro b hx
  exact hb b (List.mem_of_mem_drop (List.mem_of_mem_take hx))

theorem recursiveRead_ok {host : Endian} (ts : List Ty) (buf : List Nat)
    (hb : ∀ b ∈ buf, IsByte b) (h : totalTySize ts ≤ buf.length) :
    recursiveRead host ts buf = .ok (decodeSeq host ts buf) := by
  induction ts generalizing buf with
  | nil => rfl
  | cons t ts ih =>
    have hsum : totalTySize (t :: ts) = t.size + totalTySize ts := by simp [totalTySize]
    have h1 : 0 + t.size ≤ buf.length := by omega
    have h2 : totalTySize ts ≤ (buf.drop t.size).length := by simp; omega
    have h3 := ih (buf.drop t.size) (fun b hx => hb b (List.mem_of_mem_drop hx)) h2
    have h4 : t.size ≤ buf.length := by omega
    simp [recursiveRead, uncheckedRead_ok hb h1, spanFrom, h4, h3, decodeSeq]

theorem byteCountTys_eq {ts : List Ty} (h : totalTySize ts < 2 ^ 64) :
    byteCountTys ts = totalTySize ts := by
  induction ts with
  | nil => rfl
  | cons t ts ih =>
    have hsum : totalTySize (t :: ts) = t.size + totalTySize ts := by simp [totalTySize]
    rw [byteCountTys, ih (by omega), hsum]
    apply Nat.mod_eq_of_lt
    rw [sizeMod]; omega

theorem read_eq {host : Endian} {ts : List Ty} {buf : List Nat} (hb : ∀ b ∈ buf, IsByte b)
    (hT : totalTySize ts < 2 ^ 64) :
    read host ts buf =
      if buf.length < totalTySize ts then .throw (.outOfRange "Insufficient buffer space for read")
      else .ok (decodeSeq host ts buf) := by
  rw [read, byteCountTys_eq hT]
  by_cases h : buf.length < totalTySize ts
  · rw [if_pos h, if_pos h]
  · rw [if_neg h, if_neg h, recursiveRead_ok ts buf hb (by omega)]

/-- The values at consecutive positions of one type. -/
theorem generateRead_ok {host : Endian} {t : Ty} {buf : List Nat} (hb : ∀ b ∈ buf, IsByte b)
    (n pos : Nat) (h : pos + n * t.size ≤ buf.length) :
    generateRead host t buf n pos = .ok (decodeSeq host (List.replicate n t) (buf.drop pos)) := by
  induction n generalizing pos with
  | zero => simp [generateRead, decodeSeq]
  | succ n ih =>
    have e : (n + 1) * t.size = n * t.size + t.size := Nat.succ_mul _ _
    have h1 : pos + t.size ≤ buf.length := by omega
    have h2 := ih (pos + t.size) (by omega)
    simp [generateRead, uncheckedRead_ok hb h1, h2, List.replicate_succ, decodeSeq, List.drop_drop]

theorem totalTySize_replicate (n : Nat) (t : Ty) : totalTySize (List.replicate n t) = n * t.size := by
  simp [totalTySize]

theorem readRange_eq {host : Endian} {t : Ty} {n : Nat} {buf : List Nat} (hb : ∀ b ∈ buf, IsByte b)
    (hT : n * t.size < 2 ^ 64) :
    readRange host t n buf =
      if buf.length < n * t.size then .throw (.outOfRange "Insufficient buffer space for read")
      else .ok (decodeSeq host (List.replicate n t) buf) := by
  have e : byteCountRange t n = n * t.size := by
    rw [byteCountRange]; exact Nat.mod_eq_of_lt (by rw [sizeMod]; omega)
  rw [readRange, e]
  by_cases h : buf.length < n * t.size
  · rw [if_pos h, if_pos h]
  · rw [if_neg h, if_neg h, generateRead_ok hb n 0 (by omega)]; simp

theorem tryReadRange_eq {host : Endian} {t : Ty} {n : Nat} {buf : List Nat} (hb : ∀ b ∈ buf, IsByte b)
    (hT : n * t.size < 2 ^ 64) :
    tryReadRange host t n buf =
      if buf.length < n * t.size then .ok (.error .insufficientBuffer)
      else .ok (.value (decodeSeq host (List.replicate n t) buf)) := by
  have e : (n * t.size) % sizeMod = n * t.size := Nat.mod_eq_of_lt (by rw [sizeMod]; omega)
  rw [tryReadRange, e]
  by_cases h : buf.length < n * t.size
  · rw [if_pos h, if_pos h]
  · rw [if_neg h, if_neg h, generateRead_ok hb n 0 (by omega)]; simp

theorem wrap_lt {pos n : Nat} (hp : pos < 2 ^ 64) (hn : n < 2 ^ 64) :
    (pos + n) % sizeMod < pos ↔ 2 ^ 64 ≤ pos + n := by
  rw [sizeMod]; omega

theorem readAt_eq {host : Endian} {ts : List Ty} {pos : Nat} {buf : List Nat}
    (hb : ∀ b ∈ buf, IsByte b) (hp : pos < 2 ^ 64) (hT : totalTySize ts < 2 ^ 64) :
    readAt host ts pos buf =
      if 2 ^ 64 ≤ pos + totalTySize ts then
        .throw (.invalidArgument "Buffer read position exceeds allowed value")
      else if buf.length < pos + totalTySize ts then
        .throw (.outOfRange "Insufficient buffer space for read")
      else .ok (decodeSeq host ts (buf.drop pos)) := by
  rw [readAt, byteCountTys_eq hT]
  simp only [wrap_lt hp hT]
  by_cases h : 2 ^ 64 ≤ pos + totalTySize ts
  · rw [if_pos h, if_pos h]
  · rw [if_neg h, if_neg h]
    by_cases h2 : pos > buf.length
    · rw [if_pos h2, if_pos (by omega)]
    · have h3 : pos ≤ buf.length := by omega
      rw [if_neg h2]
      simp only [spanFrom, h3, if_true, Outcome.bind_ok]
      rw [read_eq (fun b hx => hb b (List.mem_of_mem_drop hx)) hT]
      by_cases h4 : buf.length < pos + totalTySize ts
      · rw [if_pos h4, if_pos (by simp; omega)]
      · rw [if_neg h4, if_neg (by simp; omega)]

theorem readRangeAt_eq {host : Endian} {t : Ty} {n pos : Nat} {buf : List Nat}
    (hb : ∀ b ∈ buf, IsByte b) (hp : pos < 2 ^ 64) (hT : n * t.size < 2 ^ 64) :
    readRangeAt host t n pos buf =
      if 2 ^ 64 ≤ pos + n * t.size then
        .throw (.invalidArgument "Buffer read position exceeds allowed value")
      else if buf.length < pos + n * t.size then
        .throw (.outOfRange "Insufficient buffer space for read")
      else .ok (decodeSeq host (List.replicate n t) (buf.drop pos)) := by
  have e : byteCountRange t n = n * t.size := by
    rw [byteCountRange]; exact Nat.mod_eq_of_lt (by rw [sizeMod]; omega)
  rw [readRangeAt, e]
  simp only [wrap_lt hp hT]
  by_cases h : 2 ^ 64 ≤ pos + n * t.size
  · rw [if_pos h, if_pos h]
  · rw [if_neg h, if_neg h]
    by_cases h2 : pos > buf.length
    · rw [if_pos h2, if_pos (by omega)]
    · have h3 : pos ≤ buf.length := by omega
      rw [if_neg h2]
      simp only [spanFrom, h3, if_true, Outcome.bind_ok]
      rw [readRange_eq (fun b hx => hb b (List.mem_of_mem_drop hx)) hT]
      by_cases h4 : buf.length < pos + n * t.size
      · rw [if_pos h4, if_pos (by simp; omega)]
      · rw [if_neg h4, if_neg (by simp; omega)]

theorem tryRead_eq {host : Endian} {t : Ty} {buf : List Nat} (hb : ∀ b ∈ buf, IsByte b) :
    tryRead host t buf =
      if buf.length < t.size then .ok (.error .insufficientBuffer)
      else .ok (.value (decode host t.enc (buf.take t.size))) := by
  rw [tryRead]
  by_cases h : buf.length < t.size
  · rw [if_pos h, if_pos h]
  · rw [if_neg h, if_neg h, uncheckedRead_ok hb (by omega)]; simp

theorem tryReadAt_eq {host : Endian} {t : Ty} {pos : Nat} {buf : List Nat}
    (hb : ∀ b ∈ buf, IsByte b) (hp : pos < 2 ^ 64) (hs : 0 < t.size) (hT : t.size < 2 ^ 64) :
    tryReadAt host t pos buf =
      if 2 ^ 64 ≤ pos + t.size then .ok (.error .invalidPositionOffset)
      else if buf.length < pos + t.size then .ok (.error .insufficientBuffer)
      else .ok (.value (decode host t.enc ((buf.drop pos).take t.size))) := by
  rw [tryReadAt]
  simp only [wrap_lt hp hT]
  by_cases h : 2 ^ 64 ≤ pos + t.size
  · rw [if_pos h, if_pos h]
  · rw [if_neg h, if_neg h]
    by_cases h2 : pos ≥ buf.length
    · rw [if_pos h2, if_pos (by omega)]
    · have h3 : pos ≤ buf.length := by omega
      rw [if_neg h2]
      simp only [spanFrom, h3, if_true, Outcome.bind_ok]
      rw [tryRead_eq (fun b hx => hb b (List.mem_of_mem_drop hx))]
      by_cases h4 : buf.length < pos + t.size
      · rw [if_pos h4, if_pos (by simp; omega)]
      · rw [if_neg h4, if_neg (by simp; omega)]

/-! ## Writing -/

theorem overwrite_length {buf : List Nat} {pos : Nat} {bs : List Nat} (h : pos + bs.length ≤ buf.length) :
    (overwrite buf pos bs).length = buf.length := by
  simp [overwrite]; omega

theorem overwrite_nil {buf : List Nat} {pos : Nat} : overwrite buf pos [] = buf := by
  simp [overwrite]

theorem overwrite_append {buf : List Nat} {pos : Nat} {b1 b2 : List Nat}
    (h : pos + b1.length + b2.length ≤ buf.length) :
    overwrite (overwrite buf pos b1) (pos + b1.length) b2 = overwrite buf pos (b1 ++ b2) := by
  have h1 : (buf.take pos ++ b1).length = pos + b1.length := by simp; omega
  unfold overwrite
  rw [List.take_append, List.drop_append, h1]
  simp only [Nat.sub_self, List.take_zero, List.append_nil, List.length_append]
  rw [List.take_of_length_le (by omega), List.drop_of_length_le (by omega)]
  simp only [List.nil_append, List.drop_drop, List.append_assoc]
  congr 3
  congr 1
  omega

theorem writeMem_ok {buf : List Nat} {pos : Nat} {bs : List Nat} (h : pos + bs.length ≤ buf.length) :
    (writeMem pos bs).run buf = (.ok ⟨⟩, overwrite buf pos bs) := by
  simp [writeMem, St.run, h, overwrite]

theorem writeSingle_ok {host : Endian} {enc : Enc} {o : Obj} {pos : Nat} {buf : List Nat}
    (ho : ∀ b ∈ o, IsByte b) (h : pos + o.length ≤ buf.length) :
    (writeSingle host enc o pos).run buf = (.ok o.length, overwrite buf pos (encode host enc o)) := by
  have hl := bytesOf_length host enc o
  rw [writeSingle, St.run_bind_ok (writeMem_ok (by omega)), bytesOf_eq_encode _ _ _ ho]
  rfl

theorem writeRangeLoop_ok {host : Endian} (elems : List Obj) (n written pos : Nat) (buf : List Nat)
    (he : ∀ o ∈ elems, o.length = n ∧ ∀ b ∈ o, IsByte b) (h : pos + elems.length * n ≤ buf.length) :
    (writeRangeLoop host elems written pos).run buf =
      (.ok (written + elems.length * n), overwrite buf pos elems.flatten) := by
  induction elems generalizing written pos buf with
  | nil => simp [writeRangeLoop, overwrite_nil]
  | cons o os ih =>
    obtain ⟨hn, ho⟩ := he o (by simp)
    have e : (os.length + 1) * n = os.length * n + n := Nat.succ_mul _ _
    simp only [List.length_cons] at h
    have hfl : os.flatten.length = os.length * n := by
      have := encodeVal_length (host := host) (v := .range n os) (fun x hx => he x (by simp [hx]))
      simpa [encodeVal, sizeOfVal] using this
    rw [writeRangeLoop, St.run_bind_ok (writeSingle_ok ho (by omega)),
      ih _ _ _ (fun x hx => he x (by simp [hx]))]
    · simp only [encode, List.flatten_cons, List.length_cons]
      rw [overwrite_append (by rw [hfl]; omega)]
      rw [hn, e]
      congr 2
      omega
    · rw [overwrite_length (by rw [encode_length ho]; omega)]; omega

theorem uncheckedWrite_ok {host : Endian} {pos : Nat} {v : WVal} {buf : List Nat} (hv : GoodVal v)
    (h : pos + sizeOfVal v ≤ buf.length) :
    (uncheckedWrite host pos v).run buf = (.ok (sizeOfVal v), overwrite buf pos (encodeVal host v)) := by
  cases v with
  | single enc o => exact writeSingle_ok hv h
  | range n elems =>
    have := writeRangeLoop_ok (host := host) elems n 0 pos buf hv h
    simpa [uncheckedWrite, sizeOfVal, encodeVal] using this

theorem valueSize_eq {v : WVal} (h : sizeOfVal v < 2 ^ 64) : valueSize v = sizeOfVal v := by
  cases v with
  | single enc o => rfl
  | range n elems => exact Nat.mod_eq_of_lt (by rw [sizeMod]; exact h)

theorem totalSize_cons (v : WVal) (vs : List WVal) : totalSize (v :: vs) = sizeOfVal v + totalSize vs := by
  simp [totalSize]

theorem byteCountVals_eq {vs : List WVal} (h : totalSize vs < 2 ^ 64) : byteCountVals vs = totalSize vs := by
  induction vs with
  | nil => rfl
  | cons v vs ih =>
    rw [totalSize_cons] at h ⊢
    rw [byteCountVals, ih (by omega), valueSize_eq (by omega)]
    exact Nat.mod_eq_of_lt (by rw [sizeMod]; omega)

theorem encodeAll_cons (host : Endian) (v : WVal) (vs : List WVal) :
    encodeAll host (v :: vs) = encodeVal host v ++ encodeAll host vs := by simp [encodeAll]

theorem recursiveUnsafeWrite_ok {host : Endian} (vs : List WVal) (pos : Nat) (buf : List Nat)
    (hv : ∀ v ∈ vs, GoodVal v) (hT : totalSize vs < 2 ^ 64) (h : pos + totalSize vs ≤ buf.length) :
    (recursiveUnsafeWrite host pos vs).run buf =
      (.ok (totalSize vs), overwrite buf pos (encodeAll host vs)) := by
  induction vs generalizing pos buf with
  | nil => simp [recursiveUnsafeWrite, totalSize, encodeAll, overwrite_nil]
  | cons v vs ih =>
    have hv1 := hv v (by simp)
    have hvs : ∀ x ∈ vs, GoodVal x := fun x hx => hv x (by simp [hx])
    rw [totalSize_cons] at hT h
    have hl := encodeVal_length (host := host) hv1
    have hla := encodeAll_length (host := host) hvs
    rw [recursiveUnsafeWrite, St.run_bind_ok (uncheckedWrite_ok hv1 (by omega)),
      valueSize_eq (by omega)]
    rw [St.run_bind_ok (ih (pos + sizeOfVal v) _ hvs (by omega)
      (by rw [overwrite_length (by omega)]; omega))]
    rw [← hl, overwrite_append (by omega), encodeAll_cons, totalSize_cons, St.run_pure, hl,
      Nat.mod_eq_of_lt (by rw [sizeMod]; omega)]

theorem writeFrom_eq {host : Endian} {start : Nat} {vs : List WVal} {buf : List Nat}
    (hv : ∀ v ∈ vs, GoodVal v) (hT : totalSize vs < 2 ^ 64) (hs : start ≤ buf.length) :
    (writeFrom host start vs).run buf =
      if buf.length < start + totalSize vs then
        (.throw (.outOfRange "Insufficient buffer space for write"), buf)
      else (.ok (totalSize vs), overwrite buf start (encodeAll host vs)) := by
  rw [writeFrom, St.run_bind_ok (St.run_get _), byteCountVals_eq hT, St.run_ite, if_neg (by omega), St.run_ite]
  by_cases h : buf.length < start + totalSize vs
  · rw [if_pos (by omega), if_pos h]; rfl
  · rw [if_neg (by omega), if_neg h, recursiveUnsafeWrite_ok vs start buf hv hT (by omega)]

theorem write_eq {host : Endian} {vs : List WVal} {buf : List Nat}
    (hv : ∀ v ∈ vs, GoodVal v) (hT : totalSize vs < 2 ^ 64) :
    (write host vs).run buf =
      if buf.length < totalSize vs then
        (.throw (.outOfRange "Insufficient buffer space for write"), buf)
      else (.ok (totalSize vs), overwrite buf 0 (encodeAll host vs)) := by
  rw [write, writeFrom_eq hv hT (by omega), Nat.zero_add]

theorem writeAt_eq {host : Endian} {pos : Nat} {vs : List WVal} {buf : List Nat}
    (hv : ∀ v ∈ vs, GoodVal v) (hp : pos < 2 ^ 64) (hT : totalSize vs < 2 ^ 64) :
    (writeAt host pos vs).run buf =
      if 2 ^ 64 ≤ pos + totalSize vs then
        (.throw (.invalidArgument "Buffer read position exceeds allowed value"), buf)
      else if buf.length < pos + totalSize vs then
        (.throw (.outOfRange "Insufficient buffer space for write"), buf)
      else (.ok (pos + totalSize vs), overwrite buf pos (encodeAll host vs)) := by
  rw [writeAt, St.run_bind_ok (St.run_get _), byteCountVals_eq hT]
  simp only [wrap_lt hp hT, St.run_ite]
  by_cases h : 2 ^ 64 ≤ pos + totalSize vs
  · rw [if_pos h, if_pos h]; rfl
  · rw [if_neg h, if_neg h, Nat.mod_eq_of_lt (by rw [sizeMod]; omega)]
    by_cases h2 : buf.length < pos + totalSize vs
    · rw [if_pos h2, if_pos h2]; rfl
    · rw [if_neg h2, if_neg h2, St.run_bind_ok (recursiveUnsafeWrite_ok vs pos buf hv hT (by omega)),
        St.run_pure, Nat.mod_eq_of_lt (by rw [sizeMod]; omega)]

theorem tryWriteOne_eq {host : Endian} {start : Nat} {v : WVal} {buf : List Nat} (hv : GoodVal v)
    (hT : sizeOfVal v < 2 ^ 64) (hs : start ≤ buf.length) :
    (tryWriteOne host start v).run buf =
      if buf.length < start + sizeOfVal v then (.ok (.error .insufficientBuffer), buf)
      else (.ok (.value (sizeOfVal v)), overwrite buf start (encodeVal host v)) := by
  rw [tryWriteOne, St.run_bind_ok (St.run_get _), valueSize_eq hT, St.run_ite, if_neg (by omega), St.run_ite]
  by_cases h : buf.length < start + sizeOfVal v
  · rw [if_pos (by omega), if_pos h]; rfl
  · rw [if_neg (by omega), if_neg h, St.run_bind_ok (uncheckedWrite_ok hv (by omega))]; rfl

theorem tryWriteAt_eq {host : Endian} {pos : Nat} {v : WVal} {buf : List Nat} (hv : GoodVal v)
    (hp : pos < 2 ^ 64) (hs : 0 < sizeOfVal v) (hT : sizeOfVal v < 2 ^ 64) :
    (tryWriteAt host pos v).run buf =
      if 2 ^ 64 ≤ pos + sizeOfVal v then (.ok (.error .invalidPositionOffset), buf)
      else if buf.length < pos + sizeOfVal v then (.ok (.error .insufficientBuffer), buf)
      else (.ok (.value (pos + sizeOfVal v)), overwrite buf pos (encodeVal host v)) := by
  rw [tryWriteAt, St.run_bind_ok (St.run_get _), valueSize_eq hT]
  simp only [wrap_lt hp hT, St.run_ite]
  by_cases h : 2 ^ 64 ≤ pos + sizeOfVal v
  · rw [if_pos h, if_pos h]; rfl
  · rw [if_neg h, if_neg h]
    by_cases h2 : pos ≥ buf.length
    · rw [if_pos h2, if_pos (by omega)]; rfl
    · rw [if_neg h2]
      have h1 := tryWriteOne_eq (host := host) (start := pos) (buf := buf) hv hT (by omega)
      by_cases h3 : buf.length < pos + sizeOfVal v
      · rw [if_pos h3] at h1 ⊢
        rw [St.run_bind_ok h1]; rfl
      · rw [if_neg h3] at h1 ⊢
        rw [St.run_bind_ok h1]
        simp only [St.run_pure]
        rw [Nat.mod_eq_of_lt (by rw [sizeMod]; omega)]

theorem recursiveTryWrite_eq {host : Endian} (vs : List WVal) (start : Nat) (buf : List Nat)
    (hv : ∀ v ∈ vs, GoodVal v) (hT : totalSize vs < 2 ^ 64) (hs : start ≤ buf.length) :
    (recursiveTryWrite host start vs).run buf =
      if buf.length < start + totalSize vs then
        (.ok (.error .insufficientBuffer),
          overwrite buf start (encodeAll host (leadingFit (buf.length - start) vs)))
      else (.ok (.value (totalSize vs)), overwrite buf start (encodeAll host vs)) := by
  induction vs generalizing start buf with
  | nil =>
    rw [if_neg (by simp [totalSize]; omega)]
    simp [recursiveTryWrite, totalSize, encodeAll, overwrite_nil]
  | cons v vs ih =>
    have hv1 := hv v (by simp)
    have hvs : ∀ x ∈ vs, GoodVal x := fun x hx => hv x (by simp [hx])
    rw [totalSize_cons] at hT ⊢
    have hl := encodeVal_length (host := host) hv1
    have h1 := tryWriteOne_eq (host := host) (start := start) (buf := buf) hv1 (by omega) hs
    rw [recursiveTryWrite]
    by_cases h : buf.length < start + sizeOfVal v
    · rw [if_pos h] at h1
      rw [St.run_bind_ok h1, if_pos (by omega), leadingFit, if_neg (by omega)]
      simp [encodeAll, overwrite_nil]
    · rw [if_neg h] at h1
      rw [St.run_bind_ok h1]
      have hfit : leadingFit (buf.length - start) (v :: vs) =
          v :: leadingFit (buf.length - start - sizeOfVal v) vs := by
        rw [leadingFit, if_pos (by omega)]
      rw [hfit]
      cases vs with
      | nil =>
        have h0 : totalSize [] = 0 := rfl
        rw [if_neg (by omega)]
        simp [h0, encodeAll]
      | cons v' vs' =>
        have hlen : (overwrite buf start (encodeVal host v)).length = buf.length :=
          overwrite_length (by omega)
        have ih' := ih (start + sizeOfVal v) (overwrite buf start (encodeVal host v)) hvs (by omega)
          (by omega)
        rw [hlen] at ih'
        rw [encodeAll_cons, encodeAll_cons host v (v' :: vs')]
        simp only [valueSize_eq (show sizeOfVal v < 2 ^ 64 by omega), List.isEmpty_cons, Bool.false_eq_true,
          if_false]
        have hsub : buf.length - (start + sizeOfVal v) = buf.length - start - sizeOfVal v := by omega
        have hlead : (encodeAll host (leadingFit (buf.length - start - sizeOfVal v) (v' :: vs'))).length
            ≤ buf.length - start - sizeOfVal v := by
          have key : ∀ (ws : List WVal) (room : Nat), (∀ x ∈ ws, GoodVal x) →
              (encodeAll host (leadingFit room ws)).length ≤ room := by
            intro ws
            induction ws with
            | nil => intro room _; simp [leadingFit, encodeAll]
            | cons w ws ihw =>
              intro room hw
              rw [leadingFit]
              by_cases hr : sizeOfVal w ≤ room
              · rw [if_pos hr, encodeAll_cons, List.length_append,
                  encodeVal_length (hw w (by simp))]
                have := ihw (room - sizeOfVal w) (fun x hx => hw x (by simp [hx]))
                omega
              · rw [if_neg hr]; simp [encodeAll]
          exact key _ _ hvs
        have hall := encodeAll_length (host := host) hvs
        by_cases h3 : buf.length < start + sizeOfVal v + totalSize (v' :: vs')
        · rw [if_pos h3] at ih'
          rw [if_pos (by omega)]
          rw [St.run_bind_ok ih']
          simp only [St.run_pure]
          have happ := overwrite_append (buf := buf) (pos := start) (b1 := encodeVal host v)
            (b2 := encodeAll host (leadingFit (buf.length - start - sizeOfVal v) (v' :: vs')))
            (by omega)
          rw [hl] at happ
          rw [hsub, happ]
        · rw [if_neg h3] at ih'
          rw [if_neg (by omega)]
          rw [St.run_bind_ok ih']
          simp only [St.run_pure]
          rw [Nat.mod_eq_of_lt (by rw [sizeMod]; omega), ← hl, overwrite_append (by omega)]

/-! ## Reading what was written -/

/-- The type an object written with encoding `enc` is read back as. -/
def tyOf : Enc × Obj → Ty := fun p => ⟨p.2.length, p.1⟩

theorem take_drop_overwrite {buf : List Nat} {pos : Nat} {bs : List Nat}
    (h : pos + bs.length ≤ buf.length) :
    ((overwrite buf pos bs).drop pos).take bs.length = bs := by
  unfold overwrite
  rw [List.append_assoc, List.drop_append]
  have : (buf.take pos).length = pos := by simp; omega
  rw [this, List.drop_of_length_le (by omega), Nat.sub_self, List.drop_zero, List.nil_append,
    List.take_append, Nat.sub_self, List.take_zero, List.append_nil, List.take_of_length_le (by omega)]

theorem drop_overwrite {buf : List Nat} {pos : Nat} {bs : List Nat}
    (h : pos + bs.length ≤ buf.length) :
    (overwrite buf pos bs).drop pos = bs ++ buf.drop (pos + bs.length) := by
  unfold overwrite
  have : (buf.take pos).length = pos := by simp; omega
  rw [List.append_assoc, List.drop_append, this, List.drop_of_length_le (by omega), Nat.sub_self,
    List.drop_zero, List.nil_append]

theorem decodeSeq_encode {host : Endian} (xs : List (Enc × Obj)) (rest : List Nat)
    (hx : ∀ p ∈ xs, ∀ b ∈ p.2, IsByte b) :
    decodeSeq host (xs.map tyOf)
      (encodeAll host (xs.map (fun p => WVal.single p.1 p.2)) ++ rest) = xs.map Prod.snd := by
  induction xs with
  | nil => rfl
  | cons x xs ih =>
    have h1 := hx x (by simp)
    have hl := encode_length (host := host) (enc := x.1) h1
    have ih' := ih (fun p hp => hx p (by simp [hp]))
    simp only [List.map_cons, encodeAll_cons, encodeVal, decodeSeq, tyOf, List.append_assoc]
    rw [List.take_append, List.drop_append, hl, Nat.sub_self, List.take_zero, List.append_nil,
      List.drop_zero, List.take_of_length_le (by omega), List.drop_of_length_le (by omega),
      List.nil_append, decode_encode h1]
    congr 1

theorem decodeSeq_native {host : Endian} (n : Nat) (elems : List Obj) (rest : List Nat)
    (he : ∀ o ∈ elems, o.length = n) :
    decodeSeq host (List.replicate elems.length ⟨n, .native⟩) (elems.flatten ++ rest) = elems := by
  induction elems with
  | nil => rfl
  | cons o os ih =>
    have h1 := he o (by simp)
    simp only [List.length_cons, List.replicate_succ, decodeSeq, List.flatten_cons, List.append_assoc]
    rw [List.take_append, List.drop_append, h1, Nat.sub_self, List.take_zero, List.append_nil,
      List.drop_zero, List.take_of_length_le (by omega), List.drop_of_length_le (by omega),
      List.nil_append, ih (fun x hx => he x (by simp [hx]))]
    rfl

theorem overwrite_isByte {buf : List Nat} {pos : Nat} {bs : List Nat} (hb : ∀ b ∈ buf, IsByte b)
    (hbs : ∀ b ∈ bs, IsByte b) : ∀ b ∈ overwrite buf pos bs, IsByte b := by
  intro b h
  simp only [overwrite, List.mem_append] at h
  rcases h with (h | h) | h
  · exact hb b (List.mem_of_mem_take h)
  · exact hbs b h
  · exact hb b (List.mem_of_mem_drop h)

theorem encodeVal_isByte {host : Endian} {v : WVal} (h : GoodVal v) :
    ∀ b ∈ encodeVal host v, IsByte b := by
  cases v with
  | single enc o => exact encode_isByte h
  | range n elems =>
    intro b hb
    simp only [encodeVal, List.mem_flatten] at hb
    obtain ⟨o, ho, hbo⟩ := hb
    exact (h o ho).2 b hbo

theorem encodeAll_isByte {host : Endian} {vs : List WVal} (h : ∀ v ∈ vs, GoodVal v) :
    ∀ b ∈ encodeAll host vs, IsByte b := by
  intro b hb
  simp only [encodeAll, List.mem_flatMap] at hb
  obtain ⟨v, hv, hbv⟩ := hb
  exact encodeVal_isByte (h v hv) b hbv

end Wite.Io
