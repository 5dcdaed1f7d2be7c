import Verif.Lemmas.Io
import Verif.Model.IoPodRange

/-!
# Property C133: values of trivial types that are ranges themselves

`Tight` types are those whose elements make up the whole object, such as `std::array` of one
or more elements (`array_tight`).
-/

namespace Wite.Props

open Wite.Io Wite.Spec Wite.IoPod

/-- Every object of the type is exactly its elements, one after another. -/
def Tight (t : PTy) : Prop :=
  ∀ s, t.shape = some s → ∀ o : Obj, o.length = t.size →
    s.count o * s.elemSize = t.size ∧ (s.elems o).flatten = o ∧
      ∀ e ∈ s.elems o, e.length = s.elemSize

/-- `std::array<T, n>` with `sizeof(T) = k`. -/
def arrayTy (n k : Nat) : PTy :=
  ⟨n * k, some ⟨k, fun _ => n, fun o i => (o.drop (i * k)).take k⟩⟩

/-- A vector with room for `cap` bytes: the first byte is the number of elements, the others
are the room. -/
def smallVec (cap : Nat) : PTy :=
  ⟨cap + 1, some ⟨1, fun o => match o with | [] => 0 | n :: _ => n,
    fun o i => (o.drop (i + 1)).take 1⟩⟩

/-- The total size of a list of types. -/
def totalPTy (ts : List PTy) : Nat := (ts.map PTy.size).sum

private theorem chunks_flatten (k : Nat) : ∀ (n : Nat) (o : Obj), o.length = n * k →
    ((List.range n).map fun i => (o.drop (i * k)).take k).flatten = o
  | 0, o, h => by
    have : o = [] := List.length_eq_zero_iff.1 (by omega)
    simp [this]
  | n + 1, o, h => by
    have e : (n + 1) * k = n * k + k := Nat.succ_mul _ _
    have ih := chunks_flatten k n (o.drop k) (by simp; omega)
    rw [List.range_succ_eq_map, List.map_cons, List.flatten_cons, List.map_map]
    have : ((fun i => (o.drop (i * k)).take k) ∘ Nat.succ)
        = fun i => ((o.drop k).drop (i * k)).take k := by
      funext i
      simp only [Function.comp, List.drop_drop, Nat.succ_mul]
      congr 2
      omega
    rw [this, ih]
    simp

/-- Arrays are tight. -/
theorem array_tight (n k : Nat) : Tight (arrayTy n k) := by
  intro s hs o ho
  simp only [arrayTy, Option.some.injEq] at hs
  subst hs
  refine ⟨rfl, chunks_flatten k n o ho, ?_⟩
  intro e he
  simp only [Shape.elems, List.mem_map, List.mem_range] at he
  obtain ⟨i, hi, rfl⟩ := he
  simp only [arrayTy] at ho
  have : (i + 1) * k ≤ n * k := Nat.mul_le_mul_right k hi
  have e : (i + 1) * k = i * k + k := Nat.succ_mul _ _
  simp
  omega

private theorem valueSizeOf_tight {t : PTy} (h : Tight t) (hs : t.size < 2 ^ 64) {o : Obj}
    (ho : o.length = t.size) : valueSizeOf t o = t.size := by
  rw [valueSizeOf]
  split
  · next s e => rw [(h s e o ho).1]; exact Nat.mod_eq_of_lt (by rw [sizeMod]; omega)
  · rfl

private theorem uncheckedRead_at {t : PTy} {buf : List Nat} {pos : Nat}
    (h : pos + t.size ≤ buf.length) :
    IoPod.uncheckedRead t buf pos =
      if pos + valueSizeOf t ((buf.drop pos).take t.size) ≤ buf.length then
        .ok ((buf.drop pos).take t.size, pos + valueSizeOf t ((buf.drop pos).take t.size))
      else .ub := by
  rw [IoPod.uncheckedRead, readMem_ok h, Outcome.bind_ok, nextIn]
  split
  · rfl
  · rfl

private theorem byteCount_eq {ts : List PTy} (h : totalPTy ts < 2 ^ 64) :
    IoPod.byteCountTys ts = totalPTy ts := by
  induction ts with
  | nil => rfl
  | cons t ts ih =>
    simp only [totalPTy, List.map_cons, List.sum_cons] at h ih ⊢
    rw [IoPod.byteCountTys, ih (by omega)]
    exact Nat.mod_eq_of_lt (by rw [sizeMod]; omega)

/-- The slices of `buf` of the sizes of the types, one after another. -/
private def slices : List PTy → List Nat → List Obj
  | [], _ => []
  | t :: ts, buf => buf.take t.size :: slices ts (buf.drop t.size)

private theorem slices_length : ∀ (ts : List PTy) (buf : List Nat), (slices ts buf).length = ts.length
  | [], _ => rfl
  | t :: ts, buf => by simp [slices, slices_length ts]

private theorem slices_get : ∀ (ts : List PTy) (buf : List Nat) (i : Nat) (t : PTy),
    ts[i]? = some t →
      (slices ts buf)[i]? = some ((buf.drop (totalPTy (ts.take i))).take t.size)
  | [], _, i, t, h => by simp at h
  | u :: us, buf, 0, t, h => by
    simp at h
    subst h
    simp [slices, totalPTy]
  | u :: us, buf, i + 1, t, h => by
    simp at h
    simp only [slices, List.getElem?_cons_succ, slices_get us (buf.drop u.size) i t h, List.drop_drop,
      List.take_succ_cons, totalPTy, List.map_cons, List.sum_cons]

private theorem recursiveRead_tight : ∀ (ts : List PTy) (buf : List Nat), (∀ t ∈ ts, Tight t) →
    totalPTy ts < 2 ^ 64 → totalPTy ts ≤ buf.length →
      IoPod.recursiveRead ts buf = .ok (slices ts buf)
  | [], _, _, _, _ => rfl
  | t :: ts, buf, ht, h1, h2 => by
    simp only [totalPTy, List.map_cons, List.sum_cons] at h1 h2
    have hv : valueSizeOf t ((buf.drop 0).take t.size) = t.size :=
      valueSizeOf_tight (ht t (by simp)) (by omega) (by simp; omega)
    rw [IoPod.recursiveRead, uncheckedRead_at (by omega), hv, if_pos (by omega), Outcome.bind_ok]
    simp only [spanFrom]
    rw [if_pos (by omega), Outcome.bind_ok,
      recursiveRead_tight ts _ (fun x hx => ht x (by simp [hx])) (by rw [totalPTy]; omega)
        (by rw [totalPTy]; simp; omega)]
    simp [slices]

/-- C133 for types whose elements make up the whole object: `read` refuses exactly the buffers
that are too short, and otherwise the i-th value is the `sizeof` bytes that start where the
previous value ended. -/
theorem c133_read_partial (ts : List PTy) (ht : ∀ t ∈ ts, Tight t) (hT : totalPTy ts < 2 ^ 64)
    (buf : List Nat) :
    (buf.length < totalPTy ts →
      IoPod.read ts buf = .throw (.outOfRange "Insufficient buffer space for read")) ∧
    (totalPTy ts ≤ buf.length → ∃ vals, IoPod.read ts buf = .ok vals ∧
      vals.length = ts.length ∧
      ∀ i t, ts[i]? = some t →
        vals[i]? = some ((buf.drop (totalPTy (ts.take i))).take t.size)) := by
  rw [IoPod.read, byteCount_eq hT]
  refine ⟨fun h => if_pos h, fun h => ⟨slices ts buf, ?_, slices_length _ _, slices_get _ _⟩⟩
  rw [if_neg (by omega), recursiveRead_tight ts buf ht hT h]

private theorem argOf_good {t : PTy} (ht : Tight t) {o : Obj} (ho : o.length = t.size)
    (hb : ∀ b ∈ o, IsByte b) : GoodVal (argOf t o) := by
  rw [argOf]
  split
  · next s e =>
    obtain ⟨_, h2, h3⟩ := ht s e o ho
    intro x hx
    exact ⟨h3 x hx, fun b hbx => hb b (by rw [← h2]; exact List.mem_flatten.2 ⟨x, hx, hbx⟩)⟩
  · exact hb

private theorem argOf_encode {t : PTy} (ht : Tight t) {o : Obj} (ho : o.length = t.size)
    (host : Endian) : encodeVal host (argOf t o) = o := by
  rw [argOf]
  split
  · next s e => exact (ht s e o ho).2.1
  · rfl

private theorem argOf_size {t : PTy} (ht : Tight t) {o : Obj} (ho : o.length = t.size) :
    sizeOfVal (argOf t o) = t.size := by
  rw [argOf]
  split
  · next s e => rw [sizeOfVal, Shape.elems, List.length_map, List.length_range, (ht s e o ho).1]
  · exact ho

/-- C133 for types whose elements make up the whole object: what is written is read back, the
rest of the buffer stays as it was, and `from_bytes` undoes `to_bytes`. -/
theorem c133_round_trip_partial (host : Endian) (t : PTy) (ht : Tight t) (hs : t.size < 2 ^ 64)
    (o : Obj) (ho : o.length = t.size) (hb : ∀ b ∈ o, IsByte b) (buf : List Nat)
    (hfit : t.size ≤ buf.length) :
    ((write host [argOf t o]).run buf = (.ok t.size, o ++ buf.drop t.size)) ∧
    IoPod.read [t] (o ++ buf.drop t.size) = .ok [o] ∧
    IoPod.tryRead t (o ++ buf.drop t.size) = .ok (.value o) ∧
    IoPod.toBytes host t o = .ok o ∧ IoPod.fromBytes t o = .ok [o] := by
  have hw : ∀ b : List Nat, t.size ≤ b.length →
      (write host [argOf t o]).run b = (.ok t.size, o ++ b.drop t.size) := by
    intro b hfb
    have hg : ∀ v ∈ [argOf t o], GoodVal v := by
      intro v hv
      rw [List.mem_singleton.1 hv]
      exact argOf_good ht ho hb
    have hz : totalSize [argOf t o] = t.size := by simp [totalSize, argOf_size ht ho]
    have he : encodeAll host [argOf t o] = o := by simp [encodeAll, argOf_encode ht ho]
    rw [write_eq hg (by omega), hz, if_neg (by omega), he, overwrite, ← ho]
    simp
  have hr : ∀ r : List Nat, IoPod.read [t] (o ++ r) = .ok [o] := by
    intro r
    have h := (c133_read_partial [t] (by simpa using ht) (by simpa [totalPTy] using hs) (o ++ r)).2
      (by simp [totalPTy]; omega)
    obtain ⟨vals, h1, h2, h3⟩ := h
    have h4 := h3 0 t rfl
    rw [h1]
    match vals, h2 with
    | [v], _ =>
      simp [totalPTy] at h4
      rw [h4, ← ho, List.take_left]
  refine ⟨hw buf hfit, hr _, ?_, ?_, ?_⟩
  · have hv : valueSizeOf t (((o ++ buf.drop t.size).drop 0).take t.size) = t.size :=
      valueSizeOf_tight ht hs (by simp; omega)
    rw [IoPod.tryRead, if_neg (by simp; omega), uncheckedRead_at (by simp; omega), hv,
      if_pos (by simp; omega)]
    simp only [Outcome.bind_ok, List.drop_zero]
    rw [← ho, List.take_left]
    rfl
  · rw [IoPod.toBytes, hw _ (by simp)]
    simp
  · rw [IoPod.fromBytes]; simpa using hr []

/-- C133 is false when `size()` depends on what is read: if the object at the start of the
buffer says that it has more bytes of elements than the buffer is long, both `read` and
`try_read` move an iterator past the end of the buffer. -/
theorem c133_refuted_next (t : PTy) (s : Shape) (hs : t.shape = some s) (hz : t.size < 2 ^ 64)
    (buf : List Nat) (hfit : t.size ≤ buf.length)
    (hc : s.count (buf.take t.size) * s.elemSize < 2 ^ 64)
    (hbig : buf.length < s.count (buf.take t.size) * s.elemSize) :
    IoPod.read [t] buf = .ub ∧ IoPod.tryRead t buf = .ub := by
  have hv : valueSizeOf t ((buf.drop 0).take t.size) = s.count (buf.take t.size) * s.elemSize := by
    rw [valueSizeOf, hs]
    exact Nat.mod_eq_of_lt (by rw [sizeMod]; exact hc)
  have hu : IoPod.uncheckedRead t buf 0 = .ub := by
    rw [uncheckedRead_at (by omega), hv, if_neg (by omega)]
  constructor
  · rw [IoPod.read, byteCount_eq (by simpa [totalPTy] using hz), if_neg (by simp [totalPTy]; omega),
      IoPod.recursiveRead, hu]
    rfl
  · rw [IoPod.tryRead, if_neg (by omega), hu]; rfl

private theorem ok_value {α β : Type} (v : α) : (Result.value v : Result α β).ok = true := rfl

/-- C133 is false when the elements are smaller than the object: `read` takes the following
value from behind the elements, which is inside the first value, while `try_read` takes it
from behind the object. -/
theorem c133_refuted_overlap (t u : PTy) (s : Shape) (hs : t.shape = some s) (hu : u.shape = none)
    (hz : t.size + u.size < 2 ^ 64) (buf : List Nat) (hfit : t.size + u.size ≤ buf.length)
    (hless : s.count (buf.take t.size) * s.elemSize < t.size) :
    IoPod.read [t, u] buf = .ok [buf.take t.size,
      (buf.drop (s.count (buf.take t.size) * s.elemSize)).take u.size] ∧
    IoPod.recursiveTryRead [t, u] buf = .ok [.value (buf.take t.size),
      .value ((buf.drop t.size).take u.size)] := by
  have hv : valueSizeOf t ((buf.drop 0).take t.size) = s.count (buf.take t.size) * s.elemSize := by
    rw [valueSizeOf, hs]
    exact Nat.mod_eq_of_lt (by rw [sizeMod, List.drop_zero]; omega)
  have hvu : ∀ o, valueSizeOf u o = u.size := fun o => by rw [valueSizeOf, hu]
  constructor
  · rw [IoPod.read, byteCount_eq (by simp [totalPTy]; omega), if_neg (by simp [totalPTy]; omega),
      IoPod.recursiveRead, uncheckedRead_at (by omega), hv, if_pos (by omega), Outcome.bind_ok]
    simp only [spanFrom]
    rw [if_pos (by omega), Outcome.bind_ok, IoPod.recursiveRead,
      uncheckedRead_at (by simp; omega), hvu, if_pos (by simp; omega)]
    simp only [Outcome.bind_ok, spanFrom]
    rw [if_pos (by simp; omega), Outcome.bind_ok]
    simp [IoPod.recursiveRead, pure]
  · rw [IoPod.recursiveTryRead, IoPod.tryRead, if_neg (by omega), uncheckedRead_at (by omega), hv,
      if_pos (by omega)]
    simp only [Outcome.bind_ok, Outcome.pure_eq, ok_value, if_true, spanFrom]
    rw [if_pos (by omega), Outcome.bind_ok, IoPod.recursiveTryRead, IoPod.tryRead,
      if_neg (by simp; omega), uncheckedRead_at (by simp; omega), hvu, if_pos (by simp; omega)]
    simp only [Outcome.bind_ok, Outcome.pure_eq, ok_value, if_true, spanFrom]
    rw [if_pos (by simp; omega), Outcome.bind_ok]
    simp [IoPod.recursiveTryRead]

/-- C133 is false when the elements are smaller than the object: a buffer that is just large
enough to write the value is too small to read it. -/
theorem c133_refuted_round_trip (host : Endian) (t : PTy) (s : Shape) (hs : t.shape = some s)
    (hz : t.size < 2 ^ 64) (o : Obj) (hless : s.count o * s.elemSize < t.size)
    (he : ∀ e ∈ s.elems o, e.length = s.elemSize ∧ ∀ b ∈ e, IsByte b)
    (buf : List Nat) (hl : buf.length = s.count o * s.elemSize) :
    (write host [argOf t o]).run buf = (.ok buf.length, (s.elems o).flatten) ∧
    IoPod.read [t] (s.elems o).flatten
      = .throw (.outOfRange "Insufficient buffer space for read") := by
  have ha : argOf t o = .range s.elemSize (s.elems o) := by rw [argOf, hs]
  have hg : ∀ v ∈ [argOf t o], GoodVal v := by
    intro v hv
    rw [List.mem_singleton.1 hv, ha]
    exact he
  have hz2 : totalSize [argOf t o] = s.count o * s.elemSize := by
    simp [totalSize, ha, sizeOfVal, Shape.elems]
  have hen : encodeAll host [argOf t o] = (s.elems o).flatten := by simp [encodeAll, ha, encodeVal]
  have hfl : (s.elems o).flatten.length = s.count o * s.elemSize := by
    rw [← hen, encodeAll_length hg, hz2]
  constructor
  · rw [write_eq hg (by omega), hz2, if_neg (by omega), hen, overwrite, hl]
    rw [List.drop_of_length_le (by omega)]
    simp
  · rw [IoPod.read, byteCount_eq (by simpa [totalPTy] using hz), if_pos (by simp only [totalPTy, List.map_cons, List.map_nil, List.sum_cons, List.sum_nil]; omega)]

/-- C133 is false for `to_bytes`: it stores the elements from the start of the array and
leaves the rest zero, or throws when the elements are larger than the object. -/
theorem c133_refuted_to_bytes (host : Endian) (t : PTy) (s : Shape) (hs : t.shape = some s)
    (o : Obj) (hc : s.count o * s.elemSize < 2 ^ 64)
    (he : ∀ e ∈ s.elems o, e.length = s.elemSize ∧ ∀ b ∈ e, IsByte b) :
    IoPod.toBytes host t o =
      if t.size < s.count o * s.elemSize then
        .throw (.outOfRange "Insufficient buffer space for write")
      else .ok ((s.elems o).flatten ++ List.replicate (t.size - s.count o * s.elemSize) 0) := by
  have ha : argOf t o = .range s.elemSize (s.elems o) := by rw [argOf, hs]
  have hg : ∀ v ∈ [argOf t o], GoodVal v := by
    intro v hv
    rw [List.mem_singleton.1 hv, ha]
    exact he
  have hz2 : totalSize [argOf t o] = s.count o * s.elemSize := by
    simp [totalSize, ha, sizeOfVal, Shape.elems]
  have hen : encodeAll host [argOf t o] = (s.elems o).flatten := by simp [encodeAll, ha, encodeVal]
  have hfl : (s.elems o).flatten.length = s.count o * s.elemSize := by
    rw [← hen, encodeAll_length hg, hz2]
  rw [IoPod.toBytes, write_eq hg (by omega), hz2, List.length_replicate]
  by_cases h : t.size < s.count o * s.elemSize
  · rw [if_pos h, if_pos h]
  · rw [if_neg h, if_neg h, hen, overwrite, hfl]
    simp

/-- C133 is false for `from_bytes` after `to_bytes`: a vector with room for `cap` bytes that
holds the one element `b`, with `b` larger than the vector type, does not survive. -/
theorem c133_refuted_from_to_bytes (host : Endian) (cap b : Nat) (hcap : 0 < cap)
    (hb : cap + 1 < b) (hbyte : IsByte b) :
    ∃ bs, IoPod.toBytes host (smallVec cap) (1 :: b :: List.replicate (cap - 1) 0) = .ok bs ∧
      IoPod.fromBytes (smallVec cap) bs = .ub := by
  rw [IsByte] at hbyte
  refine ⟨b :: List.replicate cap 0, ?_, ?_⟩
  · rw [c133_refuted_to_bytes host (smallVec cap) _ rfl _ (by simp)
      (by simp [Shape.elems, IsByte]; omega)]
    rw [if_neg (by simp [smallVec]), smallVec]
    simp [Shape.elems]
  · rw [IoPod.fromBytes]
    refine (c133_refuted_next (smallVec cap) _ rfl (by simp [smallVec]; omega) _
      (by simp [smallVec]) ?_ ?_).1
    all_goals
      simp [smallVec]
      omega

/-! `std::array<uint16_t, 2>`, then a vector with room for three bytes. -/

example : IoPod.read [arrayTy 2 2, ⟨1, none⟩] [1, 2, 3, 4, 5, 6] = .ok [[1, 2, 3, 4], [5]] := by
  decide
example : (write .little [argOf (arrayTy 2 2) [1, 2, 3, 4]]).run [0, 0, 0, 0, 0]
    = (.ok 4, [1, 2, 3, 4, 0]) := by decide
example : Tight (arrayTy 3 4) := array_tight 3 4
example : (write .little [argOf (smallVec 3) [2, 5, 6, 0]]).run [0, 0, 0, 0, 0]
    = (.ok 2, [5, 6, 0, 0, 0]) := by decide
example : IoPod.read [smallVec 3, ⟨1, none⟩] [2, 5, 6, 0, 9] = .ok [[2, 5, 6, 0], [6]] := by decide
example : IoPod.recursiveTryRead [smallVec 3, ⟨1, none⟩] [2, 5, 6, 0, 9]
    = .ok [.value [2, 5, 6, 0], .value [9]] := by decide
example : IoPod.tryRead (smallVec 3) [200, 5, 6, 0] = .ub := by decide
example : IoPod.toBytes .little (smallVec 3) [1, 200, 0, 0] = .ok [200, 0, 0, 0] := by decide

/-- `std::array<T, 0>`, an object of one byte without elements: the value behind it is read
from the same byte. -/
example : IoPod.read [⟨1, some ⟨4, fun _ => 0, fun _ _ => []⟩⟩, ⟨1, none⟩] [7, 8]
    = .ok [[7], [7]] := by decide

end Wite.Props
