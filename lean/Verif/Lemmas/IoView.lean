import Verif.Model.IoView
import Verif.Lemmas.Io

/-!
# Lemmas about buffer views: what each operation does, in closed form
-/

namespace Wite.Io

open Wite.Spec

theorem drop_isByte {buf : List Nat} {n : Nat} (hb : ∀ b ∈ buf, IsByte b) :
    ∀ b ∈ buf.drop n, IsByte b := fun b hx => hb b (List.mem_of_mem_drop hx)

namespace ReadView

theorem rest_run {v : ReadView} (h : v.pos ≤ v.data.length) :
    rest.run v = (.ok (v.data.drop v.pos), v) := by
  rw [rest, St.run_bind_ok (St.run_get _), St.run_lift, spanFrom, if_pos h]

theorem advance_run {v : ReadView} {n : Nat} (h : v.pos + n ≤ v.data.length) :
    (advance n).run v = (.ok ⟨⟩, { v with pos := v.pos + n }) := by
  simp [advance, St.run, h]

theorem uncheckedSeek_run {v : ReadView} {p : Nat} (h : p ≤ v.data.length) :
    (uncheckedSeek p).run v = (.ok ⟨⟩, { v with pos := p }) := by
  simp [uncheckedSeek, St.run, h]

theorem seek_run (v : ReadView) (p : Nat) :
    (seek p).run v =
      if v.data.length < p then (.throw (.outOfRange "Cannot seek past end of buffer"), v)
      else (.ok ⟨⟩, { v with pos := p }) := by
  rw [seek, St.run_bind_ok (St.run_get _), St.run_ite]
  by_cases h : v.data.length < p
  · rw [if_pos h, if_pos h]; rfl
  · rw [if_neg h, if_neg h, uncheckedSeek_run (by omega)]

theorem trySeek_run (v : ReadView) (p : Nat) :
    (trySeek p).run v =
      if v.data.length < p then (.ok (.error .invalidPositionOffset), v)
      else (.ok (.value true), { v with pos := p }) := by
  rw [trySeek, St.run_bind_ok (St.run_get _), St.run_ite]
  by_cases h : v.data.length < p
  · rw [if_pos h, if_pos h]; rfl
  · rw [if_neg h, if_neg h, St.run_bind_ok (uncheckedSeek_run (by omega))]; rfl

theorem read_run {host : Endian} {ts : List Ty} {v : ReadView} (hb : ∀ b ∈ v.data, IsByte b)
    (h : v.pos ≤ v.data.length) (hT : totalTySize ts < 2 ^ 64) :
    (read host ts).run v =
      if v.data.length < v.pos + totalTySize ts then
        (.throw (.outOfRange "Insufficient buffer space for read"), v)
      else (.ok (decodeSeq host ts (v.data.drop v.pos)), { v with pos := v.pos + totalTySize ts }) := by
  rw [read, St.run_bind_ok (rest_run h), read_eq (drop_isByte hb) hT, List.length_drop]
  by_cases h2 : v.data.length < v.pos + totalTySize ts
  · rw [if_pos (by omega), if_pos h2]; rfl
  · rw [if_neg (by omega), if_neg h2, St.run_bind_ok (St.run_lift _ _), byteCountTys_eq hT,
      St.run_bind_ok (advance_run (by omega))]
    rfl

theorem readRange_run {host : Endian} {t : Ty} {n : Nat} {v : ReadView} (hb : ∀ b ∈ v.data, IsByte b)
    (h : v.pos ≤ v.data.length) (hT : n * t.size < 2 ^ 64) :
    (readRange host t n).run v =
      if v.data.length < v.pos + n * t.size then
        (.throw (.outOfRange "Insufficient buffer space for read"), v)
      else (.ok (decodeSeq host (List.replicate n t) (v.data.drop v.pos)),
        { v with pos := v.pos + n * t.size }) := by
  have e : byteCountRange t n = n * t.size := by
    rw [byteCountRange]; exact Nat.mod_eq_of_lt (by rw [sizeMod]; omega)
  rw [readRange, St.run_bind_ok (rest_run h), readRange_eq (drop_isByte hb) hT, List.length_drop]
  by_cases h2 : v.data.length < v.pos + n * t.size
  · rw [if_pos (by omega), if_pos h2]; rfl
  · rw [if_neg (by omega), if_neg h2, St.run_bind_ok (St.run_lift _ _), e,
      St.run_bind_ok (advance_run (by omega))]
    rfl

/-- The encoding named by an `endian` value. -/
def encOf : Endian → Enc
  | .little => .littleEndian
  | .big => .bigEndian

theorem readWithEndian_eq (host : Endian) (size : Nat) (buf : List Nat) (e : Endian) :
    readWithEndian host size buf e = Io.read host [⟨size, encOf e⟩] buf := by
  cases e <;> rfl

theorem readWithEndianness_run {host : Endian} {size : Nat} {e : Endian} {v : ReadView}
    (hb : ∀ b ∈ v.data, IsByte b) (h : v.pos ≤ v.data.length) (hT : size < 2 ^ 64) :
    (readWithEndianness host size e).run v =
      if v.data.length < v.pos + size then
        (.throw (.outOfRange "Insufficient buffer space for read"), v)
      else (.ok [decode host (encOf e) ((v.data.drop v.pos).take size)],
        { v with pos := v.pos + size }) := by
  have e1 : totalTySize [⟨size, encOf e⟩] = size := by simp [totalTySize]
  rw [readWithEndianness, St.run_bind_ok (rest_run h), readWithEndian_eq,
    read_eq (drop_isByte hb) (by rw [e1]; exact hT), List.length_drop, e1]
  by_cases h2 : v.data.length < v.pos + size
  · rw [if_pos (by omega), if_pos h2]; rfl
  · rw [if_neg (by omega), if_neg h2, St.run_bind_ok (St.run_lift _ _),
      St.run_bind_ok (advance_run (by omega))]
    rfl

theorem tryRead_run {host : Endian} {ts : List Ty} {v : ReadView} {rs : List (Result Obj ReadError)}
    (h : v.pos ≤ v.data.length) (hT : totalTySize ts < 2 ^ 64)
    (hrs : recursiveTryRead host ts (v.data.drop v.pos) = .ok rs) :
    (tryRead host ts).run v =
      (.ok rs, { v with pos := min (v.pos + totalTySize ts) v.data.length }) := by
  rw [tryRead, St.run_bind_ok (rest_run h), hrs, St.run_bind_ok (St.run_lift _ _),
    St.run_bind_ok (St.run_get _), byteCountTys_eq hT, St.run_bind_ok (advance_run (by omega))]
  have : v.pos + min (totalTySize ts) (v.data.length - v.pos) =
      min (v.pos + totalTySize ts) v.data.length := by omega
  rw [this]; rfl

theorem tryReadRange_run {host : Endian} {t : Ty} {n : Nat} {v : ReadView}
    (hb : ∀ b ∈ v.data, IsByte b) (h : v.pos ≤ v.data.length) (hT : n * t.size < 2 ^ 64) :
    (tryReadRange host t n).run v =
      if v.data.length < v.pos + n * t.size then
        (.ok (.error .insufficientBuffer), { v with pos := v.data.length })
      else (.ok (.value (decodeSeq host (List.replicate n t) (v.data.drop v.pos))),
        { v with pos := v.pos + n * t.size }) := by
  have e : byteCountRange t n = n * t.size := by
    rw [byteCountRange]; exact Nat.mod_eq_of_lt (by rw [sizeMod]; omega)
  rw [tryReadRange, St.run_bind_ok (rest_run h), tryReadRange_eq (drop_isByte hb) hT, List.length_drop]
  by_cases h2 : v.data.length < v.pos + n * t.size
  · rw [if_pos (by omega), if_pos h2, St.run_bind_ok (St.run_lift _ _)]
    simp only
    rw [St.run_bind_ok (St.run_get _), St.run_bind_ok (St.run_set _ _)]
    rfl
  · rw [if_neg (by omega), if_neg h2, St.run_bind_ok (St.run_lift _ _)]
    simp only
    rw [e, St.run_bind_ok (advance_run (by omega))]
    rfl

end ReadView

/-- Every multi-value `try_read` returns (it neither throws nor goes out of bounds). -/
theorem recursiveTryRead_returns (host : Endian) (ts : List Ty) (buf : List Nat)
    (hb : ∀ b ∈ buf, IsByte b) : ∃ rs, recursiveTryRead host ts buf = .ok rs := by
  induction ts generalizing buf with
  | nil => exact ⟨[], rfl⟩
  | cons t ts ih =>
    simp only [recursiveTryRead, tryRead_eq hb]
    by_cases h : buf.length < t.size
    · obtain ⟨rs, hrs⟩ := ih [] (by simp)
      simp [h, spanFrom, Result.ok, Result.index, hrs]
    · obtain ⟨rs, hrs⟩ := ih (buf.drop t.size) (drop_isByte hb)
      have h' : t.size ≤ buf.length := by omega
      simp [h, spanFrom, Result.ok, Result.index, hrs, h']

namespace WriteView

theorem onBuffer_run {α : Type} {x : Nat → St (List Nat) α} {v : WriteView} {o : Outcome α} {d : List Nat}
    (h : (x v.pos).run v.data = (o, d)) : (onBuffer x).run v = (o, { v with data := d }) := by
  have h' : x v.pos v.data = (o, d) := h
  simp [onBuffer, St.run, h']

theorem advance_run {v : WriteView} {n : Nat} (h : v.pos + n ≤ v.data.length) :
    (advance n).run v = (.ok ⟨⟩, { v with pos := v.pos + n }) := by
  simp [advance, St.run, h]

theorem uncheckedSeek_run {v : WriteView} {p : Nat} (h : p ≤ v.data.length) :
    (uncheckedSeek p).run v = (.ok ⟨⟩, { v with pos := p }) := by
  simp [uncheckedSeek, St.run, h]

theorem seek_run (v : WriteView) (p : Nat) :
    (seek p).run v =
      if v.data.length < p then (.throw (.outOfRange "Cannot seek past end of buffer"), v)
      else (.ok ⟨⟩, { v with pos := p }) := by
  rw [seek, St.run_bind_ok (St.run_get _), St.run_ite]
  by_cases h : v.data.length < p
  · rw [if_pos h, if_pos h]; rfl
  · rw [if_neg h, if_neg h, uncheckedSeek_run (by omega)]

theorem trySeek_run (v : WriteView) (p : Nat) :
    (trySeek p).run v =
      if v.data.length < p then (.ok (.error .invalidPositionOffset), v)
      else (.ok (.value true), { v with pos := p }) := by
  rw [trySeek, St.run_bind_ok (St.run_get _), St.run_ite]
  by_cases h : v.data.length < p
  · rw [if_pos h, if_pos h]; rfl
  · rw [if_neg h, if_neg h, St.run_bind_ok (uncheckedSeek_run (by omega))]; rfl

theorem write_run {host : Endian} {vs : List WVal} {v : WriteView} (hv : ∀ x ∈ vs, GoodVal x)
    (h : v.pos ≤ v.data.length) (hT : totalSize vs < 2 ^ 64) :
    (write host vs).run v =
      if v.data.length < v.pos + totalSize vs then
        (.throw (.outOfRange "Insufficient buffer space for write"), v)
      else (.ok (totalSize vs),
        { data := overwrite v.data v.pos (encodeAll host vs), pos := v.pos + totalSize vs }) := by
  have hw := writeFrom_eq (host := host) (buf := v.data) hv hT h
  have hl := encodeAll_length (host := host) hv
  rw [write]
  by_cases h2 : v.data.length < v.pos + totalSize vs
  · rw [if_pos h2] at hw ⊢
    rw [St.run_bind_throw (onBuffer_run (x := fun pos => writeFrom host pos vs) hw)]
  · rw [if_neg h2] at hw ⊢
    rw [St.run_bind_ok (onBuffer_run (x := fun pos => writeFrom host pos vs) hw),
      St.run_bind_ok (advance_run (by simp only; rw [overwrite_length (by omega)]; omega))]
    rfl

theorem writeWithEndian_eq (host : Endian) (o : Obj) (e : Endian) :
    (fun pos => Io.writeWithEndian host pos o e) =
      fun pos => writeFrom host pos [.single (ReadView.encOf e) o] := by
  funext pos; cases e <;> rfl

theorem writeWithEndian_run {host : Endian} {o : Obj} {e : Endian} {v : WriteView}
    (ho : ∀ b ∈ o, IsByte b) (h : v.pos ≤ v.data.length) (hT : o.length < 2 ^ 64) :
    (writeWithEndian host o e).run v =
      if v.data.length < v.pos + o.length then
        (.throw (.outOfRange "Insufficient buffer space for write"), v)
      else (.ok o.length,
        { data := overwrite v.data v.pos (encode host (ReadView.encOf e) o), pos := v.pos + o.length }) := by
  have e1 : totalSize [WVal.single (ReadView.encOf e) o] = o.length := by simp [totalSize, sizeOfVal]
  have := write_run (host := host) (vs := [.single (ReadView.encOf e) o]) (v := v)
    (by simpa [GoodVal] using ho) h (by rw [e1]; exact hT)
  rw [e1] at this
  rw [writeWithEndian, writeWithEndian_eq]
  rw [write] at this
  rw [this]
  simp [encodeAll, encodeVal]

theorem leadingFit_le {host : Endian} (ws : List WVal) (room : Nat) (hw : ∀ x ∈ ws, GoodVal x) :
    (encodeAll host (leadingFit room ws)).length ≤ room := by
  induction ws generalizing room with
  | nil => simp [leadingFit, encodeAll]
  | cons w ws ihw =>
    rw [leadingFit]
    by_cases hr : sizeOfVal w ≤ room
    · rw [if_pos hr, encodeAll_cons, List.length_append, encodeVal_length (hw w (by simp))]
      have := ihw (room - sizeOfVal w) (fun x hx => hw x (by simp [hx]))
      omega
    · rw [if_neg hr]; simp [encodeAll]

theorem tryWrite_run {host : Endian} {vs : List WVal} {v : WriteView} (hv : ∀ x ∈ vs, GoodVal x)
    (h : v.pos ≤ v.data.length) (hT : totalSize vs < 2 ^ 64) :
    (tryWrite host vs).run v =
      if v.data.length < v.pos + totalSize vs then
        (.ok (.error .insufficientBuffer),
          { data := overwrite v.data v.pos (encodeAll host (leadingFit (v.data.length - v.pos) vs)),
            pos := v.pos })
      else (.ok (.value (totalSize vs)),
        { data := overwrite v.data v.pos (encodeAll host vs), pos := v.pos + totalSize vs }) := by
  have hw := recursiveTryWrite_eq (host := host) vs v.pos v.data hv hT h
  have hl := encodeAll_length (host := host) hv
  rw [tryWrite]
  by_cases h2 : v.data.length < v.pos + totalSize vs
  · rw [if_pos h2] at hw ⊢
    rw [St.run_bind_ok (onBuffer_run (x := fun pos => recursiveTryWrite host pos vs) hw)]
    rfl
  · rw [if_neg h2] at hw ⊢
    rw [St.run_bind_ok (onBuffer_run (x := fun pos => recursiveTryWrite host pos vs) hw)]
    simp only
    rw [St.run_bind_ok (advance_run (by simp only; rw [overwrite_length (by omega)]; omega))]
    rfl

end WriteView

end Wite.Io
