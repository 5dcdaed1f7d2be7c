import Verif.Lemmas.Io
import Verif.Model.IoWide

/-!
# Lemmas about reads from buffers of elements of any width
-/

namespace Wite.IoWide

open Wite.Io Wite.Spec

/-- Elements of `width` bytes. -/
def Elems (width : Nat) (es : List Elem) : Prop := ∀ e ∈ es, e.length = width

theorem Elems.drop {width : Nat} {es : List Elem} (h : Elems width es) (n : Nat) :
    Elems width (es.drop n) := fun e he => h e (List.mem_of_mem_drop he)

theorem Elems.take {width : Nat} {es : List Elem} (h : Elems width es) (n : Nat) :
    Elems width (es.take n) := fun e he => h e (List.mem_of_mem_take he)

/-! ## Elements wider than a byte -/

theorem storeElem_ok {o : Obj} {off : Nat} {e : Elem} (h : off + e.length ≤ o.length) :
    ∃ o', storeElem o off e = .ok o' ∧ o'.length = o.length := by
  refine ⟨_, if_pos h, ?_⟩
  simp
  omega

theorem copyUp_ub {width : Nat} (hw : 0 < width) :
    ∀ (es : List Elem) (k : Nat) (o : Obj), Elems width es → es ≠ [] →
      o.length < (k + es.length) * width → copyUp width es k o = .ub
  | [], _, _, _, h, _ => absurd rfl h
  | e :: es, k, o, he, _, hl => by
    have hel : e.length = width := he e (by simp)
    rw [copyUp]
    by_cases hs : k * width + e.length ≤ o.length
    · obtain ⟨o', h1, h2⟩ := storeElem_ok hs
      rw [h1, Outcome.bind_ok]
      refine copyUp_ub hw es (k + 1) o' (fun x hx => he x (by simp [hx])) ?_ ?_
      · rintro rfl
        simp only [List.length_cons, List.length_nil, Nat.add_mul] at hl
        omega
      · rw [h2]
        simp only [List.length_cons] at hl
        rw [show k + 1 + es.length = k + (es.length + 1) by omega]
        exact hl
    · rw [storeElem, if_neg hs]; rfl

theorem copyIn_ub {host : Endian} {width : Nat} (hw : 1 < width) {enc : Enc} {es : List Elem}
    {o : Obj} (he : Elems width es) (hl : es.length = o.length) (ho : 0 < o.length) :
    copyIn host width enc es o = .ub := by
  have hlt : o.length < o.length * width := by
    calc o.length = o.length * 1 := by omega
      _ < o.length * width := Nat.mul_lt_mul_of_pos_left hw ho
  have h1 : copyUp width es 0 o = .ub :=
    copyUp_ub (by omega) es 0 o he (by rintro rfl; simp at hl; omega) (by rw [Nat.zero_add, hl]; exact hlt)
  have h2 : nextInto width o.length o = .ub := by rw [nextInto, if_neg (by omega)]
  cases enc <;> cases host <;> simp only [copyIn, h1, h2] <;> rfl

theorem uncheckedRead_ub {host : Endian} {width : Nat} (hw : 1 < width) {t : Ty}
    (ht : 0 < t.size) {buf : List Elem} (hb : Elems width buf) (pos : Nat) :
    uncheckedRead host width t buf pos = .ub := by
  rw [uncheckedRead, readElems]
  by_cases h : pos + t.size ≤ buf.length
  · rw [if_pos h, Outcome.bind_ok,
      copyIn_ub hw ((hb.drop pos).take t.size) (by simp; omega) (by simpa using ht)]
    rfl
  · rw [if_neg h]; rfl

theorem recursiveRead_ub {host : Endian} {width : Nat} (hw : 1 < width) {t : Ty}
    (ht : 0 < t.size) {ts : List Ty} {buf : List Elem} (hb : Elems width buf) :
    recursiveRead host width (t :: ts) buf = .ub := by
  rw [recursiveRead, uncheckedRead_ub hw ht hb]; rfl

theorem generateRead_ub {host : Endian} {width : Nat} (hw : 1 < width) {t : Ty}
    (ht : 0 < t.size) {buf : List Elem} (hb : Elems width buf) {n : Nat} (hn : 0 < n) (pos : Nat) :
    generateRead host width t buf n pos = .ub := by
  obtain ⟨m, rfl⟩ : ∃ m, n = m + 1 := ⟨n - 1, by omega⟩
  rw [generateRead, uncheckedRead_ub hw ht hb]; rfl

/-! ## Elements of one byte -/

/-- A buffer of bytes as a buffer of one-byte elements. -/
def single (bs : List Nat) : List Elem := bs.map fun b => [b]

@[simp] theorem single_length (bs : List Nat) : (single bs).length = bs.length := by simp [single]

@[simp] theorem single_drop (bs : List Nat) (n : Nat) : (single bs).drop n = single (bs.drop n) := by
  simp [single]

@[simp] theorem single_take (bs : List Nat) (n : Nat) : (single bs).take n = single (bs.take n) := by
  simp [single]

theorem copyUp_one : ∀ (bs : List Nat) (k : Nat) (o : Obj), k + bs.length ≤ o.length →
    copyUp 1 (single bs) k o = .ok (o.take k ++ bs ++ o.drop (k + bs.length))
  | [], k, o, _ => by simp [single, copyUp]
  | b :: bs, k, o, h => by
    simp only [List.length_cons] at h
    have hs : storeElem o (k * 1) [b] = .ok (o.take k ++ [b] ++ o.drop (k + 1)) := by
      rw [storeElem, if_pos (by simp; omega)]
      simp
    rw [show single (b :: bs) = [b] :: single bs from rfl, copyUp, hs, Outcome.bind_ok,
      copyUp_one bs (k + 1) _ (by simp; omega)]
    congr 1
    have h1 : (o.take k ++ [b] ++ o.drop (k + 1)).take (k + 1) = o.take k ++ [b] := by
      rw [List.take_append_of_le_length (by simp; omega), List.take_of_length_le (by simp)]
    have h2 : (o.take k ++ [b] ++ o.drop (k + 1)).drop (k + 1 + bs.length)
        = o.drop (k + (b :: bs).length) := by
      rw [List.drop_append, List.drop_of_length_le (by simp; omega)]
      simp only [List.nil_append, List.drop_drop]
      congr 1
      simp
      omega
    rw [h1, h2]
    simp

theorem copyDown_one : ∀ (bs : List Nat) (left : Nat) (o : Obj), bs.length ≤ left → left ≤ o.length →
    copyDown 1 (single bs) left o
      = .ok (o.take (left - bs.length) ++ bs.reverse ++ o.drop left)
  | [], left, o, _, _ => by simp [single, copyDown]
  | b :: bs, left, o, h, hl => by
    simp only [List.length_cons] at h
    obtain ⟨m, rfl⟩ : ∃ m, left = m + 1 := ⟨left - 1, by omega⟩
    have hs : storeElem o (m * 1) [b] = .ok (o.take m ++ [b] ++ o.drop (m + 1)) := by
      rw [storeElem, if_pos (by simp; omega)]
      simp
    rw [show single (b :: bs) = [b] :: single bs from rfl, copyDown, hs, Outcome.bind_ok,
      copyDown_one bs m _ (by omega) (by simp; omega)]
    congr 1
    have h1 : (o.take m ++ [b] ++ o.drop (m + 1)).take (m - bs.length) = o.take (m - bs.length) := by
      rw [List.append_assoc, List.take_append_of_le_length (by simp; omega), List.take_take]
      congr 1
      omega
    have h2 : (o.take m ++ [b] ++ o.drop (m + 1)).drop m = [b] ++ o.drop (m + 1) := by
      rw [List.append_assoc, List.drop_append_of_le_length (by simp; omega),
        List.drop_of_length_le (by simp)]
      rfl
    rw [h1, h2]
    simp

theorem copyIn_one (host : Endian) (enc : Enc) (bs : List Nat) :
    copyIn host 1 enc (single bs) (List.replicate bs.length 0) = .ok (bytesOf host enc bs) := by
  have hu : copyUp 1 (single bs) 0 (List.replicate bs.length 0) = .ok bs := by
    rw [copyUp_one bs 0 _ (by simp)]; simp
  have hd : copyDown 1 (single bs) bs.length (List.replicate bs.length 0) = .ok bs.reverse := by
    rw [copyDown_one bs bs.length _ (by omega) (by simp)]; simp
  have hn : nextInto 1 bs.length (List.replicate bs.length 0) = .ok () := by
    rw [nextInto, if_pos (by simp)]
  cases enc <;> cases host <;>
    simp only [copyIn, hu, List.length_replicate, hn, Outcome.bind_ok, hd] <;> rfl

theorem uncheckedRead_one (host : Endian) (t : Ty) (bs : List Nat) (pos : Nat) :
    uncheckedRead host 1 t (single bs) pos = Io.uncheckedRead host t bs pos := by
  rw [uncheckedRead, Io.uncheckedRead, readElems, readMem, single_length]
  by_cases h : pos + t.size ≤ bs.length
  · rw [if_pos h, if_pos h, Outcome.bind_ok, Outcome.bind_ok, single_drop, single_take]
    have hl : ((bs.drop pos).take t.size).length = t.size := by simp; omega
    have := copyIn_one host t.enc ((bs.drop pos).take t.size)
    rw [hl] at this
    rw [this, Outcome.bind_ok]
  · rw [if_neg h, if_neg h]; rfl

theorem spanFrom_one (bs : List Nat) (pos : Nat) :
    spanFrom (single bs) pos = (Io.spanFrom bs pos >>= fun r => Outcome.ok (single r)) := by
  rw [spanFrom, Io.spanFrom, single_length]
  by_cases h : pos ≤ bs.length
  · rw [if_pos h, if_pos h, Outcome.bind_ok, single_drop]
  · rw [if_neg h, if_neg h]; rfl

theorem recursiveRead_one (host : Endian) : ∀ (ts : List Ty) (bs : List Nat),
    recursiveRead host 1 ts (single bs) = Io.recursiveRead host ts bs
  | [], _ => rfl
  | t :: ts, bs => by
    rw [recursiveRead, Io.recursiveRead, uncheckedRead_one]
    cases h : Io.uncheckedRead host t bs 0 with
    | ok p =>
      obtain ⟨v, next⟩ := p
      simp only [Outcome.bind_ok, spanFrom_one]
      cases h2 : Io.spanFrom bs next with
      | ok r => simp only [Outcome.bind_ok, recursiveRead_one host ts r]
      | _ => rfl
    | _ => rfl

theorem generateRead_one (host : Endian) (t : Ty) (bs : List Nat) : ∀ (n pos : Nat),
    generateRead host 1 t (single bs) n pos = Io.generateRead host t bs n pos
  | 0, _ => rfl
  | n + 1, pos => by
    rw [generateRead, Io.generateRead, uncheckedRead_one]
    cases h : Io.uncheckedRead host t bs pos with
    | ok p => simp only [Outcome.bind_ok, generateRead_one host t bs n]
    | _ => rfl

theorem read_one (host : Endian) (ts : List Ty) (bs : List Nat) :
    read host 1 ts (single bs) = Io.read host ts bs := by
  rw [read, Io.read, single_length, recursiveRead_one]

theorem readRange_one (host : Endian) (t : Ty) (n : Nat) (bs : List Nat) :
    readRange host 1 t n (single bs) = Io.readRange host t n bs := by
  rw [readRange, Io.readRange, single_length, generateRead_one]

theorem tryRead_one (host : Endian) (t : Ty) (bs : List Nat) :
    tryRead host 1 t (single bs) = Io.tryRead host t bs := by
  rw [tryRead, Io.tryRead, single_length, uncheckedRead_one]

theorem tryReadRange_one (host : Endian) (t : Ty) (n : Nat) (bs : List Nat) :
    tryReadRange host 1 t n (single bs) = Io.tryReadRange host t n bs := by
  rw [tryReadRange, Io.tryReadRange, single_length, generateRead_one]

theorem readAt_one (host : Endian) (ts : List Ty) (pos : Nat) (bs : List Nat) :
    readAt host 1 ts pos (single bs) = Io.readAt host ts pos bs := by
  rw [readAt, Io.readAt, single_length, spanFrom_one]
  cases h : Io.spanFrom bs pos with
  | ok r => simp only [Outcome.bind_ok, read_one]
  | _ => rfl

theorem readRangeAt_one (host : Endian) (t : Ty) (n pos : Nat) (bs : List Nat) :
    readRangeAt host 1 t n pos (single bs) = Io.readRangeAt host t n pos bs := by
  rw [readRangeAt, Io.readRangeAt, single_length, spanFrom_one]
  cases h : Io.spanFrom bs pos with
  | ok r => simp only [Outcome.bind_ok, readRange_one]
  | _ => rfl

theorem tryReadAt_one (host : Endian) (t : Ty) (pos : Nat) (bs : List Nat) :
    tryReadAt host 1 t pos (single bs) = Io.tryReadAt host t pos bs := by
  rw [tryReadAt, Io.tryReadAt, single_length, spanFrom_one]
  cases h : Io.spanFrom bs pos with
  | ok r => simp only [Outcome.bind_ok, tryRead_one]
  | _ => rfl

theorem tryReadRangeAt_one (host : Endian) (t : Ty) (n pos : Nat) (bs : List Nat) :
    tryReadRangeAt host 1 t n pos (single bs) = Io.tryReadRangeAt host t n pos bs := by
  rw [tryReadRangeAt, Io.tryReadRangeAt, single_length, spanFrom_one]
  cases h : Io.spanFrom bs pos with
  | ok r => simp only [Outcome.bind_ok, tryReadRange_one]
  | _ => rfl

end Wite.IoWide
