import Verif.Model.IoCalls
import Mathlib.Tactic.Tauto

/-!
# Which calls of the `io` functions compile

C158: throwing functions and their `try_` twins.  C159: the types of values.  C160: the types of buffers.
-/

namespace Wite.Props

open Wite.IoCalls

/-- A type that is stored as it is in memory and is no range: a number, an enumeration, a struct. -/
inductive Simple : VTy → Prop
  | int (w : Bool) : Simple (.int w)
  | pod : Simple .pod

/-- What can be read from a buffer as one value: simple and wrapped types, and `std::array`s of anything trivial. -/
inductive ReadableTy : VTy → Prop
  | simple {t} : Simple t → ReadableTy t
  | wrapped : ReadableTy .wrapped
  | array {t} : ReadableTy t → ReadableTy (.array t)
  | arrayOfPointers : ReadableTy (.array .ptr)
  | arrayOfArrays {t} : ReadableTy (.array t) → ReadableTy (.array (.carray t))

/-- What can be written to a buffer: simple and wrapped types, and arrays and containers of simple types. -/
inductive WritableTy : VTy → Prop
  | simple {t} : Simple t → WritableTy t
  | wrapped : WritableTy .wrapped
  | array {t} : Simple t → WritableTy (.array t)
  | vector {t} : Simple t → WritableTy (.vector t)

/-- A buffer in contiguous memory. -/
def Contiguous (b : Buf) : Prop := b.kind = .owner ∨ b.kind = .span

/-- A buffer in contiguous memory, of bytes that can be written. -/
def WritableBytes (b : Buf) : Prop := Contiguous b ∧ b.isConst = false ∧ b.width = 1

/-! ## Lemmas -/

private theorem plain_pod {t : VTy} (h : t.plain = true) : t.podLike = true := by
  cases t <;> simp_all [VTy.plain, VTy.podLike, VTy.encoded]

private theorem simple_iff (t : VTy) : (t.plain = true ∧ writeSingleValue t = true) ↔ Simple t := by
  constructor
  · rintro ⟨h1, h2⟩
    cases t with
    | int w => exact .int w
    | pod => exact .pod
    | _ => simp_all [VTy.plain, VTy.podLike, VTy.encoded, writeSingleValue, VTy.elem]
  · intro h; cases h <;> exact ⟨rfl, rfl⟩

private theorem simple_size {t : VTy} (h : Simple t) : valueSize t = true := by cases h <;> rfl

private theorem readable_pod {u : VTy} (h : ReadableTy u) : u.podLike = true := by
  induction h with
  | simple h => cases h <;> rfl
  | wrapped => rfl
  | array _ ih => exact ih
  | arrayOfPointers => rfl
  | arrayOfArrays _ ih => exact ih

private theorem array_pod (t : VTy) : ReadableTy (.array t) ↔ t.podLike = true := by
  constructor
  · intro h; have := readable_pod h; exact this
  · intro h
    induction t with
    | int w => exact .array (.simple (.int w))
    | pod => exact .array (.simple .pod)
    | wrapped => exact .array .wrapped
    | array t ih => exact .array (ih h)
    | carray t ih => exact .arrayOfArrays (ih h)
    | ptr => exact .arrayOfPointers
    | vector t _ => cases h
    | unsized t _ => cases h
    | klass => cases h

private theorem readable_iff (t : VTy) : t.plain = true ↔ ReadableTy t := by
  cases t with
  | int w => exact ⟨fun _ => .simple (.int w), fun _ => rfl⟩
  | pod => exact ⟨fun _ => .simple .pod, fun _ => rfl⟩
  | wrapped => exact ⟨fun _ => .wrapped, fun _ => rfl⟩
  | array t => rw [array_pod]; simp [VTy.plain, VTy.podLike, VTy.encoded]
  | vector t => exact ⟨fun h => (by cases h), fun h => (by cases h with | simple h => cases h)⟩
  | unsized t => exact ⟨fun h => (by cases h), fun h => (by cases h with | simple h => cases h)⟩
  | carray t => exact ⟨fun h => (by cases h), fun h => (by cases h with | simple h => cases h)⟩
  | ptr => exact ⟨fun h => (by cases h), fun h => (by cases h with | simple h => cases h)⟩
  | klass => exact ⟨fun h => (by cases h), fun h => (by cases h with | simple h => cases h)⟩

/-- What `unchecked_write` and `byte_count` together make of a value. -/
private theorem write_one_iff (b : Buf) (a : Arg) :
    (byteCount [a] = true ∧ uncheckedWrite b a = true) ↔
      b.isConst = false ∧ b.width = 1 ∧ WritableTy a.ty := by
  obtain ⟨kind, c, w⟩ := b
  obtain ⟨t, k, l⟩ := a
  have hr : ∀ t, WritableTy (.array t) ↔ Simple t := by
    intro t
    exact ⟨fun h => by cases h with
      | simple h => cases h
      | array h => exact h, .array⟩
  have hv : ∀ t, WritableTy (.vector t) ↔ Simple t := by
    intro t
    exact ⟨fun h => by cases h with
      | simple h => cases h
      | vector h => exact h, .vector⟩
  cases t with
  | int w' => simp [byteCount, uncheckedWrite, VTy.decay, valueSize, VTy.elem, VTy.plain, VTy.podLike, VTy.encoded, writeSingleValue, WritableTy.simple (.int w')]
  | pod => simp [byteCount, uncheckedWrite, VTy.decay, valueSize, VTy.elem, VTy.plain, VTy.podLike, VTy.encoded, writeSingleValue, WritableTy.simple .pod]
  | wrapped => simp [byteCount, uncheckedWrite, VTy.decay, valueSize, VTy.elem, VTy.plain, VTy.podLike, VTy.encoded, WritableTy.wrapped]
  | array t =>
    rw [hr, ← simple_iff]
    have := @simple_size t
    rw [← simple_iff] at this
    simp only [byteCount, uncheckedWrite, VTy.decay, valueSize, VTy.elem, VTy.encoded]
    simp
    tauto
  | vector t =>
    rw [hv, ← simple_iff]
    have := @simple_size t
    rw [← simple_iff] at this
    simp only [byteCount, uncheckedWrite, VTy.decay, valueSize, VTy.elem, VTy.encoded]
    simp
    tauto
  | unsized t =>
    have : ¬ WritableTy (.unsized t) := by intro h; cases h with | simple h => cases h
    simp [byteCount, VTy.decay, valueSize, VTy.elem, VTy.plain, VTy.podLike, VTy.encoded, this]
  | carray t =>
    have : ¬ WritableTy (.carray t) := by intro h; cases h with | simple h => cases h
    simp [byteCount, VTy.decay, valueSize, this]
  | ptr =>
    have : ¬ WritableTy .ptr := by intro h; cases h with | simple h => cases h
    simp [byteCount, VTy.decay, valueSize, this]
  | klass =>
    have : ¬ WritableTy .klass := by intro h; cases h with | simple h => cases h
    simp [byteCount, VTy.decay, valueSize, VTy.elem, VTy.plain, VTy.podLike, VTy.encoded, this]

private theorem byteCount_cons (a : Arg) (as : List Arg) :
    byteCount (a :: as) = true ↔ byteCount [a] = true ∧ (as = [] ∨ byteCount as = true) := by
  cases as <;> simp [byteCount]

private theorem unsafe_iff (b : Buf) (as : List Arg) :
    (byteCount as = true ∧ recursiveUnsafeWrite b as = true) ↔
      as ≠ [] ∧ b.jumps = true ∧ b.isConst = false ∧ b.width = 1 ∧ ∀ a ∈ as, WritableTy a.ty := by
  induction as with
  | nil => simp [byteCount]
  | cons a as ih =>
    have h1 := write_one_iff b a
    cases as with
    | nil =>
      simp only [recursiveUnsafeWrite, Bool.and_eq_true, List.mem_singleton, forall_eq, ne_eq, List.cons_ne_nil,
        not_false_eq_true, true_and]
      tauto
    | cons a' as =>
      rw [byteCount_cons]
      simp only [recursiveUnsafeWrite, Bool.and_eq_true, List.mem_cons, forall_eq_or_imp, ne_eq, List.cons_ne_nil,
        not_false_eq_true, true_and, false_or] at ih ⊢
      tauto

private theorem tys_iff (ts : List VTy) : byteCountTys ts = true ↔ ts ≠ [] ∧ ∀ t ∈ ts, t.plain = true := by
  induction ts with
  | nil => simp [byteCountTys]
  | cons t ts ih =>
    cases ts with
    | nil => simp [byteCountTys]
    | cons u us =>
      simp only [byteCountTys, Bool.and_eq_true, List.mem_cons, forall_eq_or_imp, ne_eq, List.cons_ne_nil,
        not_false_eq_true, true_and] at ih ⊢
      rw [ih]

private theorem jumps_range {b : Buf} (h : b.jumps = true) : b.rangeLike = true := by
  obtain ⟨k, c, w⟩ := b
  cases k <;> simp_all [Buf.jumps, Buf.rangeLike]

private theorem spans_jumps {b : Buf} (h : b.spans = true) : b.jumps = true := by
  obtain ⟨k, c, w⟩ := b
  cases k <;> simp_all [Buf.jumps, Buf.spans]

private theorem spans_iff (b : Buf) : b.spans = true ↔ Contiguous b := by
  obtain ⟨k, c, w⟩ := b
  cases k <;> simp [Buf.spans, Contiguous]

private theorem recRead_iff (ts : List VTy) (b : Buf) :
    recursiveRead ts b = true ↔ ts ≠ [] ∧ (∀ t ∈ ts, t.plain = true) ∧ b.jumps = true ∧
      (1 < ts.length → b.spans = true) := by
  induction ts generalizing b with
  | nil => simp [recursiveRead]
  | cons t ts ih =>
    have hj := @jumps_range b
    cases ts with
    | nil =>
      simp only [recursiveRead, uncheckedRead, Bool.and_eq_true, List.mem_singleton, forall_eq, ne_eq,
        List.cons_ne_nil, not_false_eq_true, true_and, List.length_singleton, Nat.lt_irrefl, false_imp_iff, and_true]
      tauto
    | cons u us =>
      simp only [recursiveRead, uncheckedRead, Bool.and_eq_true]
      rw [ih b.asSpan]
      have h1 : b.asSpan.jumps = true := rfl
      have h2 : b.asSpan.spans = true := rfl
      have h3 : 1 < (t :: u :: us).length := by simp
      simp only [h1, h2, h3, List.mem_cons, forall_eq_or_imp, ne_eq, List.cons_ne_nil, not_false_eq_true, true_and,
        implies_true, and_true, forall_const]
      tauto

private theorem read_iff (ts : List VTy) (b : Buf) :
    read ts b = true ↔ ts ≠ [] ∧ (∀ t ∈ ts, t.plain = true) ∧ b.jumps = true ∧ (1 < ts.length → b.spans = true) := by
  rw [IoCalls.read, Bool.and_eq_true, Bool.and_eq_true, tys_iff, recRead_iff]
  have hj := @jumps_range b
  tauto

private theorem recTry_iff (ts : List VTy) (b : Buf) :
    recursiveTryRead ts b = true ↔ ts ≠ [] ∧ (∀ t ∈ ts, t.plain = true) ∧ b.jumps = true ∧
      (1 < ts.length → b.spans = true) := by
  induction ts generalizing b with
  | nil => simp [recursiveTryRead]
  | cons t ts ih =>
    have hj := @jumps_range b
    cases ts with
    | nil =>
      simp only [recursiveTryRead, tryReadOne, uncheckedRead, Bool.and_eq_true, List.mem_singleton, forall_eq, ne_eq,
        List.cons_ne_nil, not_false_eq_true, true_and, List.length_singleton, Nat.lt_irrefl, false_imp_iff, and_true]
      tauto
    | cons u us =>
      simp only [recursiveTryRead, tryReadOne, uncheckedRead, Bool.and_eq_true]
      rw [ih b.asSpan]
      have h1 : b.asSpan.jumps = true := rfl
      have h2 : b.asSpan.spans = true := rfl
      have h3 : 1 < (t :: u :: us).length := by simp
      simp only [h1, h2, h3, List.mem_cons, forall_eq_or_imp, ne_eq, List.cons_ne_nil, not_false_eq_true, true_and,
        implies_true, and_true, forall_const]
      tauto

private theorem tryRead_iff (ts : List VTy) (b : Buf) :
    tryRead ts b = true ↔ ts ≠ [] ∧ (∀ t ∈ ts, t.plain = true) ∧ b.jumps = true ∧ (1 < ts.length → b.spans = true) := by
  rw [← recTry_iff]
  match ts with
  | [] => simp [tryRead, recursiveTryRead]
  | [t] => rfl
  | t :: u :: us =>
    have hj := @jumps_range b
    have := recTry_iff (t :: u :: us) b
    simp only [tryRead, Bool.and_eq_true]
    tauto

private theorem recTryAt_iff (ts : List VTy) (b : Buf) :
    recursiveTryReadAt ts b = true ↔ ts ≠ [] ∧ (∀ t ∈ ts, t.plain = true) ∧ b.spans = true := by
  have hs : b.spans = true → b.rangeLike = true := fun h => jumps_range (spans_jumps h)
  have h1 : ∀ t, tryReadAtOne t b = true ↔ t.plain = true ∧ b.spans = true := by
    intro t
    have h2 : tryReadOne t b.asSpan = true ↔ t.plain = true := by
      simp [tryReadOne, uncheckedRead, Buf.asSpan, Buf.rangeLike, Buf.jumps]
    simp only [tryReadAtOne, Bool.and_eq_true, h2]
    tauto
  induction ts with
  | nil => simp [recursiveTryReadAt]
  | cons t ts ih =>
    cases ts with
    | nil => simp [recursiveTryReadAt, h1]
    | cons u us =>
      simp only [recursiveTryReadAt, Bool.and_eq_true, ih, h1, List.mem_cons, forall_eq_or_imp, ne_eq, List.cons_ne_nil,
        not_false_eq_true, true_and]
      tauto

private theorem tryReadAt_iff (ts : List VTy) (b : Buf) :
    tryReadAt ts b = true ↔ ts ≠ [] ∧ (∀ t ∈ ts, t.plain = true) ∧ b.spans = true := by
  rw [← recTryAt_iff]
  match ts with
  | [] => simp [tryReadAt, recursiveTryReadAt]
  | [t] => rfl
  | t :: u :: us =>
    have hs : b.spans = true → b.rangeLike = true := fun h => jumps_range (spans_jumps h)
    have := recTryAt_iff (t :: u :: us) b
    simp only [tryReadAt, Bool.and_eq_true]
    tauto

private theorem readAt_iff (ts : List VTy) (b : Buf) :
    readAt ts b = true ↔ ts ≠ [] ∧ (∀ t ∈ ts, t.plain = true) ∧ b.spans = true := by
  have hs : b.spans = true → b.rangeLike = true := fun h => jumps_range (spans_jumps h)
  have h1 : b.asSpan.jumps = true := rfl
  have h2 : b.asSpan.spans = true := rfl
  simp only [readAt, Bool.and_eq_true, tys_iff, read_iff, h1, h2]
  tauto

private theorem readRange_iff (r : Arg) (b : Buf) :
    readRange r b = true ↔ (∃ t, r.ty.elem = some t ∧ t.plain = true) ∧ r.isConst = false ∧ b.jumps = true := by
  have hj := @jumps_range b
  obtain ⟨t, k, l⟩ := r
  cases t <;> simp [readRange, VTy.elem, uncheckedRead, byteCount, valueSize, VTy.decay]
  all_goals tauto

private theorem tryReadRange_iff (r : Arg) (b : Buf) :
    tryReadRange r b = true ↔ (∃ t, r.ty.elem = some t ∧ t.plain = true) ∧ r.isConst = false ∧ r.lvalue = false ∧
      b.jumps = true := by
  have hj := @jumps_range b
  obtain ⟨t, k, l⟩ := r
  cases t <;> simp [tryReadRange, VTy.elem, uncheckedRead, byteCountTys]
  all_goals tauto

private theorem readRangeAt_iff (r : Arg) (b : Buf) :
    readRangeAt r b = true ↔ (∃ t, r.ty.elem = some t ∧ t.plain = true) ∧ r.isConst = false ∧ b.spans = true := by
  have hs : b.spans = true → b.rangeLike = true := fun h => jumps_range (spans_jumps h)
  have h1 : b.asSpan.jumps = true := rfl
  simp only [readRangeAt, Bool.and_eq_true, readRange_iff, h1]
  obtain ⟨t, k, l⟩ := r
  cases t <;> simp [VTy.elem, byteCount, valueSize, VTy.decay]
  all_goals tauto

private theorem tryReadRangeAt_iff (r : Arg) (b : Buf) :
    tryReadRangeAt r b = true ↔ (∃ t, r.ty.elem = some t ∧ t.plain = true) ∧ r.isConst = false ∧ r.lvalue = false ∧
      b.spans = true := by
  have hs : b.spans = true → b.rangeLike = true := fun h => jumps_range (spans_jumps h)
  have h1 : b.asSpan.jumps = true := rfl
  simp only [tryReadRangeAt, Bool.and_eq_true, tryReadRange_iff, h1]
  obtain ⟨t, k, l⟩ := r
  cases t <;> simp [VTy.elem, byteCount, valueSize, VTy.decay]
  all_goals tauto

private theorem write_iff (b : Buf) (as : List Arg) :
    write b as = true ↔ as ≠ [] ∧ b.jumps = true ∧ b.isConst = false ∧ b.width = 1 ∧ ∀ a ∈ as, WritableTy a.ty := by
  have hj := @jumps_range b
  have := unsafe_iff b as
  simp only [write, Bool.and_eq_true]
  tauto

private theorem writeIter_iff (b : Buf) (as : List Arg) :
    writeIter b as = true ↔ as ≠ [] ∧ WritableBytes b ∧ ∀ a ∈ as, WritableTy a.ty := by
  have hs := @spans_jumps b
  have h1 : b.asSpan.jumps = true := rfl
  have h2 : b.asSpan.isConst = b.isConst := rfl
  have h3 : b.asSpan.width = b.width := rfl
  simp only [writeIter, Buf.mutableSpan, Bool.and_eq_true, write_iff, h1, h2, h3, WritableBytes, ← spans_iff,
    Bool.not_eq_true']
  tauto

private theorem tryOne_iff (b : Buf) (a : Arg) :
    tryWriteOne b a = true ↔ b.rangeLike = true ∧ b.isConst = false ∧ b.width = 1 ∧ WritableTy a.ty := by
  have := write_one_iff b a
  simp only [tryWriteOne, Bool.and_eq_true]
  tauto

private theorem copied_writable (a : Arg) : WritableTy a.copied.ty ↔ WritableTy a.ty := by
  obtain ⟨t, k, l⟩ := a
  cases t with
  | carray t =>
    constructor
    · intro h; cases h with | simple h => cases h
    · intro h; cases h with | simple h => cases h
  | _ => rfl

private theorem tryIterOne_iff (b : Buf) (a : Arg) :
    tryWriteIterOne b a = true ↔ WritableBytes b ∧ WritableTy a.ty := by
  have hs := @spans_jumps b
  have h1 : b.asSpan.rangeLike = true := rfl
  have h2 : b.asSpan.isConst = b.isConst := rfl
  have h3 : b.asSpan.width = b.width := rfl
  simp only [tryWriteIterOne, Buf.mutableSpan, Bool.and_eq_true, tryOne_iff, h1, h2, h3, WritableBytes, ← spans_iff,
    Bool.not_eq_true']
  tauto

private theorem wb_jumps {b : Buf} (h : WritableBytes b) : b.jumps = true := spans_jumps ((spans_iff b).2 h.1)

private theorem size_of_writable (a : Arg) (h : WritableTy a.ty) : byteCount [a] = true :=
  ((write_one_iff ⟨.owner, false, 1⟩ a).2 ⟨rfl, rfl, h⟩).1

private theorem recTryIter_iff (b : Buf) (as : List Arg) :
    recursiveTryWriteIter b as = true ↔ as ≠ [] ∧ WritableBytes b ∧ ∀ a ∈ as, WritableTy a.ty := by
  have hw := @wb_jumps b
  induction as with
  | nil => simp [recursiveTryWriteIter]
  | cons a as ih =>
    have hc := copied_writable a
    have hs := size_of_writable a.copied
    cases as with
    | nil =>
      simp only [recursiveTryWriteIter, Bool.and_eq_true, tryIterOne_iff, List.mem_singleton, forall_eq, ne_eq,
        List.cons_ne_nil, not_false_eq_true, true_and]
      tauto
    | cons a' as =>
      simp only [recursiveTryWriteIter, Bool.and_eq_true, tryIterOne_iff, List.mem_cons, forall_eq_or_imp, ne_eq,
        List.cons_ne_nil, not_false_eq_true, true_and] at ih ⊢
      tauto

private theorem tryWriteIter_iff (b : Buf) (as : List Arg) :
    tryWriteIter b as = true ↔ as ≠ [] ∧ WritableBytes b ∧ ∀ a ∈ as, WritableTy a.ty := by
  have hw := @wb_jumps b
  match as with
  | [] => simp [tryWriteIter]
  | [a] => simp [tryWriteIter, tryIterOne_iff]
  | a :: a' :: as =>
    have := recTryIter_iff b (a :: a' :: as)
    simp only [tryWriteIter, Bool.and_eq_true]
    tauto

private theorem tryWrite_iff (b : Buf) (as : List Arg) :
    tryWrite b as = true ↔ as ≠ [] ∧ b.rangeLike = true ∧ b.isConst = false ∧ b.width = 1 ∧
      (1 < as.length → b.spans = true) ∧ ∀ a ∈ as, WritableTy a.ty := by
  match as with
  | [] => simp [tryWrite]
  | [a] => simp [tryWrite, tryOne_iff]
  | a :: a' :: as =>
    have h1 := recTryIter_iff b (a' :: as)
    have hc := copied_writable a
    have hs := size_of_writable a.copied
    have hj : b.spans = true → b.rangeLike = true := fun h => jumps_range (spans_jumps h)
    have h3 : 1 < (a :: a' :: as).length := by simp
    have h4 := spans_iff b
    simp only [WritableBytes, List.mem_cons, forall_eq_or_imp, ne_eq, List.cons_ne_nil, not_false_eq_true,
      true_and] at h1
    simp only [tryWrite, recursiveTryWrite, Bool.and_eq_true, tryOne_iff, List.mem_cons, forall_eq_or_imp, ne_eq,
      List.cons_ne_nil, not_false_eq_true, true_and, h3, forall_const]
    tauto

private theorem decay_decay (t : VTy) : t.decay.decay = t.decay := by cases t <;> rfl

private theorem tryAtOne_iff (b : Buf) (a : Arg) :
    tryWriteAtOne b a = true ↔ WritableBytes b ∧ WritableTy a.ty ∧ a.ty.plain = true := by
  have hj := fun h => jumps_range (@wb_jumps b h)
  have hc := copied_writable a
  have hs := size_of_writable a.copied
  have hd : WritableTy a.ty → a.ty.decay = a.ty := by
    intro h
    obtain ⟨t, k, l⟩ := a
    cases t with
    | carray t => cases h with | simple h => cases h
    | _ => rfl
  simp only [tryWriteAtOne, Bool.and_eq_true, tryIterOne_iff]
  constructor
  · rintro ⟨⟨⟨h1, h2⟩, h3⟩, h4, h5⟩
    have := hc.1 h5
    rw [hd this] at h2
    exact ⟨h4, this, h2⟩
  · rintro ⟨h1, h2, h3⟩
    refine ⟨⟨⟨hj h1, ?_⟩, hs (hc.2 h2)⟩, h1, hc.2 h2⟩
    rw [hd h2]; exact h3

private theorem copied_plain (a : Arg) : a.copied.ty.plain = true ↔ a.ty.plain = true := by
  obtain ⟨t, k, l⟩ := a
  cases t <;> rfl

private theorem tryAt_iff (b : Buf) (as : List Arg) :
    tryWriteAt b as = true ↔ as ≠ [] ∧ WritableBytes b ∧ ∀ a ∈ as, WritableTy a.ty ∧ a.ty.plain = true := by
  have hj := fun h => jumps_range (@wb_jumps b h)
  have key : recursiveTryWriteAt b as = true ↔ as ≠ [] ∧ WritableBytes b ∧ ∀ a ∈ as, WritableTy a.ty ∧ a.ty.plain = true := by
    induction as with
    | nil => simp [recursiveTryWriteAt]
    | cons a as ih =>
      have hc := copied_writable a
      have hp := copied_plain a
      cases as with
      | nil =>
        simp only [recursiveTryWriteAt, tryAtOne_iff, hc, hp]
        simp
      | cons a' as =>
        simp only [recursiveTryWriteAt, Bool.and_eq_true, tryAtOne_iff, hc, hp, List.mem_cons, forall_eq_or_imp, ne_eq,
          List.cons_ne_nil, not_false_eq_true, true_and] at ih ⊢
        tauto
  match as, key with
  | [], _ => simp [tryWriteAt]
  | [a], _ => simp [tryWriteAt, tryAtOne_iff]
  | a :: a' :: as, key =>
    simp only [tryWriteAt, Bool.and_eq_true]
    tauto

private theorem bool_eq {a b : Bool} {p : Prop} (h1 : a = true ↔ p) (h2 : b = true ↔ p) : a = b := by
  have : a = true ↔ b = true := h1.trans h2.symm
  cases a <;> cases b <;> simp_all

private theorem false_of {a : Bool} {p : Prop} (h : a = true ↔ p) (hn : ¬ p) : a = false := by
  cases a
  · rfl
  · exact absurd (h.1 rfl) hn

/-! ## C158: a function and its `try_` twin -/

/-- C158 (what holds): `read` and `try_read`, `read_at` and `try_read_at`, `from_bytes` and `try_from_bytes` take the same
types from the same buffers, whatever these are. -/
theorem c158_reads_partial (ts : List VTy) (t : VTy) (b : Buf) :
    tryRead ts b = read ts b ∧ tryReadAt ts b = readAt ts b ∧ tryFromBytes t b = fromBytes t b := by
  refine ⟨bool_eq (tryRead_iff ts b) (read_iff ts b), bool_eq (tryReadAt_iff ts b) (readAt_iff ts b), ?_⟩
  rw [tryFromBytes, fromBytes, bool_eq (tryRead_iff [t] b) (read_iff [t] b)]

example : tryRead [.int true, .pod] ⟨.owner, true, 1⟩ = true ∧ read [.int true, .pod] ⟨.owner, true, 1⟩ = true ∧
    tryRead [.vector .pod] ⟨.owner, true, 1⟩ = false := by decide

/-- C158 (what holds): in contiguous buffers `write` and `try_write` take the same values; so do the forms that take two
iterators, for any buffer, and the views. -/
theorem c158_writes_partial (b : Buf) (as : List Arg) :
    (Contiguous b → tryWrite b as = write b as) ∧ tryWriteIter b as = writeIter b as ∧
    viewTryWrite b as = viewWrite b as := by
  have h : tryWriteIter b as = writeIter b as := bool_eq (tryWriteIter_iff b as) (writeIter_iff b as)
  refine ⟨fun hc => ?_, h, by rw [viewTryWrite, viewWrite, h]⟩
  have hs := (spans_iff b).2 hc
  have hj := spans_jumps hs
  have hr := jumps_range hj
  refine bool_eq ((tryWrite_iff b as).trans ?_) (write_iff b as)
  tauto

example : tryWrite ⟨.span, false, 1⟩ [⟨.vector .pod, true, true⟩, ⟨.wrapped, false, false⟩] = true ∧
    tryWrite ⟨.span, false, 1⟩ [⟨.carray .pod, true, true⟩] = false := by decide

/-- C158 (refuted): `try_read_range` and `try_read_range_at` take no range that is a variable, whatever range and buffer;
`read_range` and `read_range_at` do.  For temporaries the twins agree. -/
theorem c158_refuted_try_read_range (b : Buf) (t : VTy) (k : Bool) :
    (tryReadRange ⟨t, k, true⟩ b = false ∧ tryReadRangeAt ⟨t, k, true⟩ b = false ∧
      viewTryReadRange ⟨t, k, true⟩ b = false) ∧
    (Contiguous b → ∀ e, t.elem = some e → ReadableTy e →
      readRange ⟨t, false, true⟩ b = true ∧ readRangeAt ⟨t, false, true⟩ b = true) ∧
    (tryReadRange ⟨t, k, false⟩ b = readRange ⟨t, k, false⟩ b ∧
      tryReadRangeAt ⟨t, k, false⟩ b = readRangeAt ⟨t, k, false⟩ b) := by
  refine ⟨⟨?_, ?_, ?_⟩, ?_, ?_, ?_⟩
  · exact false_of (tryReadRange_iff _ b) (by simp)
  · exact false_of (tryReadRangeAt_iff _ b) (by simp)
  · rw [viewTryReadRange, false_of (tryReadRange_iff ⟨t, k, true⟩ ⟨.span, true, b.width⟩) (by simp), Bool.and_false]
  · intro hc e he hr
    have hs := (spans_iff b).2 hc
    exact ⟨(readRange_iff _ b).2 ⟨⟨e, he, (readable_iff e).2 hr⟩, rfl, spans_jumps hs⟩,
      (readRangeAt_iff _ b).2 ⟨⟨e, he, (readable_iff e).2 hr⟩, rfl, hs⟩⟩
  · exact bool_eq ((tryReadRange_iff ⟨t, k, false⟩ b).trans (by simp)) (readRange_iff ⟨t, k, false⟩ b)
  · exact bool_eq ((tryReadRangeAt_iff ⟨t, k, false⟩ b).trans (by simp)) (readRangeAt_iff ⟨t, k, false⟩ b)

-- `std::vector<int> v(3); try_read_range(buffer, v);` does not compile; `try_read_range(buffer, std::move(v))` does
example : tryReadRange ⟨.vector (.int true), false, true⟩ ⟨.owner, false, 1⟩ = false ∧
    tryReadRange ⟨.vector (.int true), false, false⟩ ⟨.owner, false, 1⟩ = true := by decide

/-- C158 (refuted): the same of the views: `view.read_range` takes ranges that are variables, `view.try_read_range` takes
none; for temporaries the two agree, and neither is there for the view of a `std::span`. -/
theorem c158_refuted_view_try_read_range (b : Buf) (t : VTy) (k : Bool) (c : Bool) (w : Nat) (a : Arg) :
    viewTryReadRange ⟨t, k, true⟩ b = false ∧
    (b.kind = .owner → ∀ e, t.elem = some e → ReadableTy e → viewReadRange ⟨t, false, true⟩ b = true) ∧
    viewTryReadRange ⟨t, k, false⟩ b = viewReadRange ⟨t, k, false⟩ b ∧
    viewReadRange a ⟨.span, c, w⟩ = false ∧ viewTryReadRange a ⟨.span, c, w⟩ = false := by
  refine ⟨(c158_refuted_try_read_range b t k).1.2.2, fun hb e he hr => ?_, ?_, rfl, rfl⟩
  · have h := ((c158_refuted_try_read_range ⟨.span, true, b.width⟩ t k).2.1 (Or.inr rfl) e he hr).1
    obtain ⟨kd, bc, bw⟩ := b
    simp only at hb
    subst hb
    rw [viewReadRange, h]
    rfl
  · rw [viewTryReadRange, viewReadRange, (c158_refuted_try_read_range ⟨.span, true, b.width⟩ t k).2.2.1]

example : viewReadRange ⟨.vector (.int true), false, true⟩ ⟨.owner, true, 1⟩ = true ∧
    viewTryReadRange ⟨.vector (.int true), false, true⟩ ⟨.owner, true, 1⟩ = false ∧
    viewReadRange ⟨.vector (.int true), true, true⟩ ⟨.owner, true, 1⟩ = false := by decide

/-- C158 (refuted): `try_write_at` takes no container such as `std::vector` among its values, which `write_at` takes;
apart from that, and in buffers of writable contiguous bytes, the two agree. -/
theorem c158_refuted_try_write_at (b : Buf) (as : List Arg) :
    (∀ a ∈ as, ∀ t, a.ty = .vector t → tryWriteAt b as = false) ∧
    (WritableBytes b → ∀ t k l, Simple t → writeAt b [⟨.vector t, k, l⟩] = true) ∧
    (WritableBytes b → (∀ a ∈ as, ∀ t, a.ty ≠ .vector t) → tryWriteAt b as = writeAt b as) := by
  have hwa : ∀ as, writeAt b as = write b as := fun _ => rfl
  refine ⟨?_, ?_, ?_⟩
  · intro a ha t ht
    refine false_of (tryAt_iff b as) ?_
    rintro ⟨_, _, h⟩
    have := (h a ha).2
    rw [ht] at this
    cases this
  · intro hb t k l ht
    rw [hwa]
    refine (write_iff b _).2 ⟨by simp, wb_jumps hb, hb.2.1, hb.2.2, ?_⟩
    simp only [List.mem_singleton, forall_eq]
    exact .vector ht
  · intro hb hn
    rw [hwa]
    refine bool_eq (tryAt_iff b as) ((write_iff b as).trans ?_)
    have hj := wb_jumps hb
    obtain ⟨h1, h2, h3⟩ := hb
    have key : (∀ a ∈ as, WritableTy a.ty) ↔ ∀ a ∈ as, WritableTy a.ty ∧ a.ty.plain = true := by
      refine ⟨fun h a ha => ⟨h a ha, ?_⟩, fun h a ha => (h a ha).1⟩
      have hw := h a ha
      have hv := hn a ha
      obtain ⟨t, k, l⟩ := a
      simp only at hw hv ⊢
      cases hw with
      | simple h => exact ((simple_iff _).2 h).1
      | wrapped => rfl
      | array h =>
        have := plain_pod ((simple_iff _).2 h).1
        simp [VTy.plain, VTy.podLike, this]
      | vector h => exact absurd rfl (hv _)
    rw [key]
    simp only [WritableBytes, hj, h1, h2, h3]
    tauto

-- `write_at(pos, buffer, vector)` compiles, `try_write_at(pos, buffer, vector)` does not, `try_write_at(pos, buffer, array)` does
example : writeAt ⟨.owner, false, 1⟩ [⟨.vector .pod, true, true⟩] = true ∧
    tryWriteAt ⟨.owner, false, 1⟩ [⟨.vector .pod, true, true⟩] = false ∧
    tryWriteAt ⟨.owner, false, 1⟩ [⟨.array .pod, true, true⟩] = true := by decide

private theorem toBytes_iff (a : Arg) : toBytes a = true ↔ WritableTy a.ty ∧ a.ty.plain = true := by
  have hd : WritableTy a.ty → a.ty.decay = a.ty := by
    intro h
    obtain ⟨t, k, l⟩ := a
    cases t with
    | carray t => cases h with | simple h => cases h
    | _ => rfl
  simp only [toBytes, Bool.and_eq_true, write_iff, List.mem_singleton, forall_eq]
  constructor
  · rintro ⟨h1, _, _, _, _, h2⟩
    rw [hd h2] at h1
    exact ⟨h2, h1⟩
  · rintro ⟨h1, h2⟩
    rw [hd h1]
    exact ⟨h2, by simp, rfl, rfl, rfl, h1⟩

/-- C158 (refuted): `try_to_bytes` takes no variable; `to_bytes` makes no difference between variables and temporaries,
and for temporaries the two agree. -/
theorem c158_refuted_try_to_bytes (t : VTy) (k k' l : Bool) :
    tryToBytes ⟨t, k, true⟩ = false ∧ toBytes ⟨t, k, true⟩ = toBytes ⟨t, k', l⟩ ∧
    tryToBytes ⟨t, k, false⟩ = toBytes ⟨t, k, false⟩ := by
  refine ⟨rfl, bool_eq (toBytes_iff ⟨t, k, true⟩) (toBytes_iff ⟨t, k', l⟩), ?_⟩
  refine bool_eq ?_ (toBytes_iff ⟨t, k, false⟩)
  have h1 : staticBuffer.rangeLike = true := rfl
  have h2 : staticBuffer.isConst = false := rfl
  have h3 : staticBuffer.width = 1 := rfl
  simp only [tryToBytes, Bool.and_eq_true, tryWrite_iff, List.mem_singleton, forall_eq, h1, h2, h3]
  simp
  tauto

-- `const auto value = 1; try_to_bytes(value);` does not compile
example : tryToBytes ⟨.int true, true, true⟩ = false ∧ toBytes ⟨.int true, true, true⟩ = true ∧
    tryToBytes ⟨.int true, false, false⟩ = true := by decide

/-- C158 (refuted): in a `std::list` of bytes one value can be written with `try_write` but not with `write`; in a
`std::deque` several values can be written with `write` but not with `try_write`. -/
theorem c158_refuted_try_write (as : List Arg) (a : Arg) (hw : ∀ x ∈ a :: as, WritableTy x.ty) :
    (tryWrite ⟨.list, false, 1⟩ [a] = true ∧ write ⟨.list, false, 1⟩ [a] = false) ∧
    (as ≠ [] → tryWrite ⟨.deque, false, 1⟩ (a :: as) = false ∧ write ⟨.deque, false, 1⟩ (a :: as) = true) := by
  refine ⟨⟨?_, ?_⟩, fun hne => ⟨?_, ?_⟩⟩
  · refine (tryWrite_iff _ _).2 ⟨by simp, rfl, rfl, rfl, by simp, fun x hx => hw x ?_⟩
    simp only [List.mem_singleton] at hx
    simp [hx]
  · exact false_of (write_iff _ _) (by rintro ⟨_, h, _⟩; cases h)
  · refine false_of (tryWrite_iff _ _) ?_
    rintro ⟨_, _, _, _, h, _⟩
    have h2 : 1 < (a :: as).length := by
      cases as with
      | nil => exact absurd rfl hne
      | cons => simp
    exact absurd (h h2) (by decide)
  · exact (write_iff _ _).2 ⟨by simp, rfl, rfl, rfl, hw⟩

example : tryWrite ⟨.list, false, 1⟩ [⟨.pod, false, false⟩] = true ∧ write ⟨.list, false, 1⟩ [⟨.pod, false, false⟩] = false ∧
    write ⟨.deque, false, 1⟩ [⟨.pod, false, false⟩, ⟨.pod, false, false⟩] = true ∧
    tryWrite ⟨.deque, false, 1⟩ [⟨.pod, false, false⟩, ⟨.pod, false, false⟩] = false := by decide

/-! ## C159: the types of values -/

/-- C159 (what holds): exactly which types can be read as values, read as elements of a range and written, in contiguous
buffers of writable bytes, for any number of values. -/
theorem c159_types_partial (b : Buf) (hb : WritableBytes b) (ts : List VTy) (as : List Arg) (r : Arg) :
    (read ts b = true ↔ ts ≠ [] ∧ ∀ t ∈ ts, ReadableTy t) ∧
    (readAt ts b = true ↔ ts ≠ [] ∧ ∀ t ∈ ts, ReadableTy t) ∧
    (readRange r b = true ↔ (∃ e, (r.ty = .array e ∨ r.ty = .vector e) ∧ ReadableTy e) ∧ r.isConst = false) ∧
    (write b as = true ↔ as ≠ [] ∧ ∀ a ∈ as, WritableTy a.ty) ∧
    (writeAt b as = true ↔ as ≠ [] ∧ ∀ a ∈ as, WritableTy a.ty) := by
  have hs := (spans_iff b).2 hb.1
  have hj := spans_jumps hs
  have hplain : ∀ ts : List VTy, (∀ t ∈ ts, t.plain = true) ↔ ∀ t ∈ ts, ReadableTy t := fun ts =>
    ⟨fun h t ht => (readable_iff t).1 (h t ht), fun h t ht => (readable_iff t).2 (h t ht)⟩
  have hw : write b as = true ↔ as ≠ [] ∧ ∀ a ∈ as, WritableTy a.ty := by
    rw [write_iff]
    simp only [hj, hb.2.1, hb.2.2]
    tauto
  refine ⟨?_, ?_, ?_, hw, hw⟩
  · rw [read_iff, hplain]
    simp only [hj, hs]
    tauto
  · rw [readAt_iff, hplain]
    simp only [hs]
    tauto
  · rw [readRange_iff]
    simp only [hj, and_true]
    refine and_congr_left' ?_
    obtain ⟨t, k, l⟩ := r
    cases t <;> simp [VTy.elem, readable_iff]

example : ReadableTy (.array (.array .pod)) ∧ WritableTy (.vector (.int false)) ∧ ¬ WritableTy (.vector .wrapped) :=
  ⟨.array (.array (.simple .pod)), .vector (.int false), by intro h; cases h with
    | simple h => cases h
    | vector h => cases h⟩

/-- C159 (refuted): what can be read cannot always be written.  Arrays and containers whose elements are wrapped numbers
or arrays themselves can be read, as values or as ranges, from any contiguous buffer, and can be written to none;
`from_bytes` gives such an array, and `to_bytes` does not take it. -/
theorem c159_refuted_nested (e : VTy) (hr : ReadableTy e) (hn : ¬ Simple e) (b : Buf) (hb : Contiguous b) (k l : Bool) :
    (read [.array e] b = true ∧ fromBytes (.array e) b = true ∧ readRange ⟨.array e, false, l⟩ b = true ∧
      readRange ⟨.vector e, false, l⟩ b = true) ∧
    (∀ b', write b' [⟨.array e, k, l⟩] = false ∧ write b' [⟨.vector e, k, l⟩] = false ∧
      tryWrite b' [⟨.array e, k, l⟩] = false ∧ tryWrite b' [⟨.vector e, k, l⟩] = false) ∧
    toBytes ⟨.array e, k, l⟩ = false ∧ tryToBytes ⟨.array e, k, l⟩ = false := by
  have hs := (spans_iff b).2 hb
  have hj := spans_jumps hs
  have ha : ReadableTy (.array e) := .array hr
  have na : ¬ WritableTy (.array e) := by
    intro h; cases h with
    | simple h => cases h
    | array h => exact hn h
  have nv : ¬ WritableTy (.vector e) := by
    intro h; cases h with
    | simple h => cases h
    | vector h => exact hn h
  have hread : read [.array e] b = true :=
    (read_iff _ b).2 ⟨by simp, by simpa using (readable_iff _).2 ha, hj, by simp⟩
  refine ⟨⟨hread, ?_, ?_, ?_⟩, fun b' => ⟨?_, ?_, ?_, ?_⟩, ?_, ?_⟩
  · rw [fromBytes, hread, (readable_iff _).2 ha, jumps_range hj]; rfl
  · exact (readRange_iff _ b).2 ⟨⟨e, rfl, (readable_iff e).2 hr⟩, rfl, hj⟩
  · exact (readRange_iff _ b).2 ⟨⟨e, rfl, (readable_iff e).2 hr⟩, rfl, hj⟩
  · exact false_of (write_iff b' _) (by simp [na])
  · exact false_of (write_iff b' _) (by simp [nv])
  · exact false_of (tryWrite_iff b' _) (by simp [na])
  · exact false_of (tryWrite_iff b' _) (by simp [nv])
  · exact false_of (toBytes_iff _) (by simp [na])
  · cases l with
    | true => rfl
    | false =>
      rw [(c158_refuted_try_to_bytes (.array e) k k false).2.2]
      exact false_of (toBytes_iff _) (by simp [na])

-- `std::array<std::array<int, 2>, 2>` and `std::vector<io::big_endian<int>>`
example : read [.array (.array (.int true))] ⟨.owner, false, 1⟩ = true ∧
    write ⟨.owner, false, 1⟩ [⟨.array (.array (.int true)), false, true⟩] = false ∧
    readRange ⟨.vector .wrapped, false, true⟩ ⟨.owner, false, 1⟩ = true ∧
    write ⟨.owner, false, 1⟩ [⟨.vector .wrapped, false, true⟩] = false := by decide

/-- C159 (refuted): `read_with_endian` and `write_with_endian` ask for a readable or writable type, and take only integers
wider than a byte: no floating-point numbers, no enumerations, no single bytes. -/
theorem c159_refuted_with_endian (t : VTy) (b : Buf) (a : Arg) (hb : WritableBytes b) :
    (readWithEndian t b = true ↔ t = .int true) ∧ (writeWithEndian b a = true ↔ a.ty = .int true) ∧
    (writeWithEndianIter b a = true ↔ a.ty = .int true) := by
  have hs := (spans_iff b).2 hb.1
  have hj := spans_jumps hs
  have hr := jumps_range hj
  have hw : ∀ t : VTy, t.wraps = true ↔ t = .int true := by
    intro t; cases t <;> simp [VTy.wraps]
  have hd : ∀ t : VTy, t.decay = .int true ↔ t = .int true := by intro t; cases t <;> simp [VTy.decay]
  have hwr : ∀ b', WritableBytes b' → ∀ a : Arg, writeWithEndian b' a = true ↔ a.ty = .int true := by
    intro b' hb' a
    have h1 : write b' [⟨.wrapped, false, false⟩] = true :=
      (write_iff _ _).2 ⟨by simp, wb_jumps hb', hb'.2.1, hb'.2.2, by simpa using WritableTy.wrapped⟩
    simp only [writeWithEndian, Bool.and_eq_true, h1, jumps_range (wb_jumps hb'), hw, hd, true_and, and_true]
    constructor
    · rintro ⟨_, h⟩; exact h
    · intro h; rw [h]; exact ⟨rfl, rfl⟩
  refine ⟨?_, hwr b hb a, ?_⟩
  · have h1 : read [.wrapped] b = true :=
      (read_iff _ b).2 ⟨by simp, by simp [VTy.plain, VTy.podLike], hj, by simp⟩
    simp only [readWithEndian, Bool.and_eq_true, hr, h1, hw, true_and, and_true]
    constructor
    · rintro ⟨_, h⟩; exact h
    · rintro rfl; exact ⟨rfl, rfl⟩
  · have hsp : WritableBytes b.asSpan := ⟨.inr rfl, hb.2.1, hb.2.2⟩
    have h2 : a.copied.ty = .int true ↔ a.ty = .int true := hd a.ty
    simp only [writeWithEndianIter, Buf.mutableSpan, Bool.and_eq_true, hj, hs, hb.2.1, hwr _ hsp, h2, true_and,
      Bool.not_false, and_true]
    constructor
    · rintro ⟨_, h⟩; exact h
    · intro h; rw [h]; exact ⟨rfl, rfl⟩

-- `read_with_endian<float>(buffer, endian::big)` passes the constraint and does not compile
example : VTy.plain .pod = true ∧ readWithEndian .pod ⟨.owner, false, 1⟩ = false ∧
    readWithEndian (.int true) ⟨.owner, false, 1⟩ = true := by decide

/-- C159 (refuted): the stream functions take pointers and `write` to a stream takes C strings and built-in arrays, of
which only the address is stored; the buffer functions refuse them all. -/
theorem c159_refuted_pointers (e : VTy) (k l : Bool) (b : Buf) :
    (streamWrite ⟨.ptr, k, l⟩ = true ∧ streamWrite ⟨.carray e, k, l⟩ = true ∧ streamRead .ptr = true) ∧
    (write b [⟨.ptr, k, l⟩] = false ∧ write b [⟨.carray e, k, l⟩] = false ∧ read [.ptr] b = false ∧
      read [.carray e] b = false) := by
  refine ⟨⟨rfl, rfl, rfl⟩, ?_, ?_, ?_, ?_⟩
  · refine false_of (write_iff b _) ?_
    simp only [List.mem_singleton, forall_eq]
    rintro ⟨_, _, _, _, h⟩
    cases h with | simple h => cases h
  · refine false_of (write_iff b _) ?_
    simp only [List.mem_singleton, forall_eq]
    rintro ⟨_, _, _, _, h⟩
    cases h with | simple h => cases h
  · exact false_of (read_iff _ b) (by simp [VTy.plain])
  · exact false_of (read_iff _ b) (by simp [VTy.plain])

-- `io::write(stream, "text")` compiles
example : streamWrite ⟨.carray (.int false), true, true⟩ = true := by decide

/-- C159 (what holds): everything that can be read from a buffer as one value can be read from and written to a stream. -/
theorem c159_streams_partial (t : VTy) (h : ReadableTy t) (k l : Bool) :
    streamRead t = true ∧ streamWrite ⟨t, k, l⟩ = true := by
  have hp := (readable_iff t).2 h
  have hq := plain_pod hp
  cases t <;> simp_all [streamRead, streamWrite, VTy.decay, VTy.podLike, VTy.plain]

example : streamRead (.array .wrapped) = true := by decide

/-! ## C160: the types of buffers -/

/-- C160 (what holds): every contiguous container of bytes that can be written works with every function and takes the
same values as every other; for reading it need not be writable. -/
theorem c160_contiguous_partial (b b' : Buf) (ts : List VTy) (as : List Arg) (r : Arg) :
    (Contiguous b → Contiguous b' → read ts b = read ts b' ∧ readAt ts b = readAt ts b' ∧ tryRead ts b = tryRead ts b' ∧
      tryReadAt ts b = tryReadAt ts b' ∧ readRange r b = readRange r b' ∧ tryReadRange r b = tryReadRange r b') ∧
    (WritableBytes b → WritableBytes b' → write b as = write b' as ∧ writeAt b as = writeAt b' as ∧
      tryWrite b as = tryWrite b' as ∧ tryWriteAt b as = tryWriteAt b' as ∧ writeIter b as = writeIter b' as) := by
  constructor
  · intro h h'
    have hs := (spans_iff b).2 h
    have hs' := (spans_iff b').2 h'
    have hj := spans_jumps hs
    have hj' := spans_jumps hs'
    refine ⟨?_, ?_, ?_, ?_, ?_, ?_⟩
    · exact bool_eq (read_iff ts b) ((read_iff ts b').trans (by rw [hj, hj', hs, hs']))
    · exact bool_eq (readAt_iff ts b) ((readAt_iff ts b').trans (by rw [hs, hs']))
    · exact bool_eq (tryRead_iff ts b) ((tryRead_iff ts b').trans (by rw [hj, hj', hs, hs']))
    · exact bool_eq (tryReadAt_iff ts b) ((tryReadAt_iff ts b').trans (by rw [hs, hs']))
    · exact bool_eq (readRange_iff r b) ((readRange_iff r b').trans (by rw [hj, hj']))
    · exact bool_eq (tryReadRange_iff r b) ((tryReadRange_iff r b').trans (by rw [hj, hj']))
  · intro h h'
    have hs := (spans_iff b).2 h.1
    have hs' := (spans_iff b').2 h'.1
    have hj := spans_jumps hs
    have hj' := spans_jumps hs'
    have hw : write b as = write b' as :=
      bool_eq (write_iff b as) ((write_iff b' as).trans (by rw [hj, hj', h.2.1, h.2.2, h'.2.1, h'.2.2]))
    refine ⟨hw, hw, ?_, ?_, ?_⟩
    · exact bool_eq (tryWrite_iff b as) ((tryWrite_iff b' as).trans
        (by rw [jumps_range hj, jumps_range hj', hs, hs', h.2.1, h.2.2, h'.2.1, h'.2.2]))
    · exact bool_eq (tryAt_iff b as) ((tryAt_iff b' as).trans (by simp [h, h']))
    · exact bool_eq (writeIter_iff b as) ((writeIter_iff b' as).trans (by simp [h, h']))

example : WritableBytes ⟨.span, false, 1⟩ ∧ write ⟨.span, false, 1⟩ [⟨.pod, true, true⟩] = true :=
  ⟨⟨.inr rfl, rfl, rfl⟩, by decide⟩

/-- C160 (refuted): in a `std::deque` single values can be read and values written, but several values cannot be read, nor
anything read at a position or written through iterators or a view. -/
theorem c160_refuted_deque (c : Bool) (w : Nat) (t u : VTy) (ts : List VTy) (as : List Arg) (ht : ReadableTy t) :
    read [t] ⟨.deque, c, w⟩ = true ∧ read (t :: u :: ts) ⟨.deque, c, w⟩ = false ∧
    readAt (t :: ts) ⟨.deque, c, w⟩ = false ∧ tryReadAt (t :: ts) ⟨.deque, c, w⟩ = false ∧
    writeIter ⟨.deque, c, w⟩ as = false ∧ tryWriteAt ⟨.deque, c, w⟩ as = false ∧
    viewRead (t :: ts) ⟨.deque, c, w⟩ = false ∧ viewWrite ⟨.deque, c, w⟩ as = false := by
  have hn : ¬ WritableBytes ⟨.deque, c, w⟩ := by rintro ⟨h | h, _⟩ <;> cases h
  have hw := false_of (writeIter_iff ⟨.deque, c, w⟩ as) (fun h => hn h.2.1)
  refine ⟨?_, ?_, ?_, ?_, hw, ?_, ?_, ?_⟩
  · exact (read_iff _ _).2 ⟨by simp, by simpa using (readable_iff t).2 ht, rfl, by simp⟩
  · refine false_of (read_iff _ _) ?_
    rintro ⟨_, _, _, h⟩
    exact absurd (h (by simp)) (by simp [Buf.spans])
  · exact false_of (readAt_iff _ _) (by rintro ⟨_, _, h⟩; cases h)
  · exact false_of (tryReadAt_iff _ _) (by rintro ⟨_, _, h⟩; cases h)
  · exact false_of (tryAt_iff _ _) (fun h => hn h.2.1)
  · have : (⟨.deque, c, w⟩ : Buf).spans = false := rfl
    simp [viewRead, this]
  · simp [viewWrite, hw]

example : read [.pod] ⟨.deque, true, 1⟩ = true ∧ read [.pod, .pod] ⟨.deque, true, 1⟩ = false ∧
    readAt [.pod] ⟨.deque, true, 1⟩ = false := by decide

/-- C160 (refuted): built-in arrays, initialiser lists and forward lists are no buffers for any function; a `std::list` is
one for nothing but `try_write` of one value, although it satisfies the constraint. -/
theorem c160_refuted_other (k : Kind) (hk : k = .builtinArray ∨ k = .initialiserList ∨ k = .forwardList) (c : Bool)
    (w : Nat) (ts : List VTy) (as : List Arg) (r : Arg) :
    (read ts ⟨k, c, w⟩ = false ∧ readRange r ⟨k, c, w⟩ = false ∧ readAt ts ⟨k, c, w⟩ = false ∧
      write ⟨k, c, w⟩ as = false ∧ tryWrite ⟨k, c, w⟩ as = false ∧ tryWriteAt ⟨k, c, w⟩ as = false) ∧
    (Buf.rangeLike ⟨.list, c, w⟩ = true ∧ read ts ⟨.list, c, w⟩ = false ∧ readRange r ⟨.list, c, w⟩ = false ∧
      readAt ts ⟨.list, c, w⟩ = false ∧ write ⟨.list, c, w⟩ as = false ∧ tryWriteAt ⟨.list, c, w⟩ as = false ∧
      (tryWrite ⟨.list, c, w⟩ as = true ↔ ∃ a, as = [a] ∧ c = false ∧ w = 1 ∧ WritableTy a.ty)) := by
  have hj : ∀ k, k = Kind.builtinArray ∨ k = .initialiserList ∨ k = .forwardList ∨ k = .list →
      Buf.jumps ⟨k, c, w⟩ = false ∧ Buf.spans ⟨k, c, w⟩ = false := by
    rintro k (rfl | rfl | rfl | rfl) <;> exact ⟨rfl, rfl⟩
  have hr : Buf.rangeLike ⟨k, c, w⟩ = false := by rcases hk with rfl | rfl | rfl <;> rfl
  have h1 : ∀ k, k = Kind.builtinArray ∨ k = .initialiserList ∨ k = .forwardList ∨ k = .list →
      read ts ⟨k, c, w⟩ = false ∧ readRange r ⟨k, c, w⟩ = false ∧ readAt ts ⟨k, c, w⟩ = false ∧
      write ⟨k, c, w⟩ as = false ∧ tryWriteAt ⟨k, c, w⟩ as = false := by
    intro k hk
    obtain ⟨a, b⟩ := hj k hk
    refine ⟨?_, ?_, ?_, ?_, ?_⟩
    · exact false_of (read_iff _ _) (by rintro ⟨_, _, h, _⟩; rw [a] at h; cases h)
    · exact false_of (readRange_iff _ _) (by rintro ⟨_, _, h⟩; rw [a] at h; cases h)
    · exact false_of (readAt_iff _ _) (by rintro ⟨_, _, h⟩; rw [b] at h; cases h)
    · exact false_of (write_iff _ _) (by rintro ⟨_, h, _⟩; rw [a] at h; cases h)
    · exact false_of (tryAt_iff _ _) (by rintro ⟨_, h, _⟩; rw [wb_jumps h] at a; cases a)
  obtain ⟨a1, a2, a3, a4, a5⟩ := h1 k (by tauto)
  obtain ⟨b1, b2, b3, b4, b5⟩ := h1 .list (by tauto)
  refine ⟨⟨a1, a2, a3, a4, ?_, a5⟩, rfl, b1, b2, b3, b4, b5, ?_⟩
  · exact false_of (tryWrite_iff _ _) (by rintro ⟨_, h, _⟩; rw [hr] at h; cases h)
  · rw [tryWrite_iff]
    match as with
    | [] => simp
    | [a] => simp [Buf.rangeLike]
    | a :: a' :: as =>
      constructor
      · rintro ⟨_, _, _, _, h, _⟩
        exact absurd (h (by simp)) (by simp [Buf.spans])
      · rintro ⟨x, h, _⟩
        cases h

example : read [.pod] ⟨.builtinArray, false, 1⟩ = false ∧ write ⟨.list, false, 1⟩ [⟨.pod, false, false⟩] = false := by
  decide

/-- C160 (refuted): that a buffer consists of bytes is not checked when reading: `read` takes buffers of elements of any
size, `write` only of size one. -/
theorem c160_refuted_width (b : Buf) (hb : Contiguous b) (w : Nat) (t : VTy) (ht : ReadableTy t) (a : Arg) :
    read [t] { b with width := w } = true ∧ (w ≠ 1 → write { b with width := w } [a] = false) := by
  have hs : Buf.spans { b with width := w } = true := (spans_iff _).2 hb
  refine ⟨(read_iff _ _).2 ⟨by simp, by simpa using (readable_iff t).2 ht, spans_jumps hs, by simp⟩, fun hw => ?_⟩
  exact false_of (write_iff _ _) (by rintro ⟨_, _, _, h, _⟩; exact hw h)

example : read [.pod] ⟨.owner, true, 4⟩ = true ∧ write ⟨.owner, false, 4⟩ [⟨.pod, true, true⟩] = false := by decide

/-- C160 (refuted): no `byte_read_buffer_view` can be made of a `std::span` in C++20; of any other contiguous container it
can, and it takes the types that `read` takes. -/
theorem c160_refuted_span_view (c : Bool) (w : Nat) (ts : List VTy) :
    viewRead ts ⟨.span, c, w⟩ = false ∧ viewTryRead ts ⟨.span, c, w⟩ = false ∧
    viewRead ts ⟨.owner, c, w⟩ = read ts ⟨.span, c, w⟩ ∧ viewTryRead ts ⟨.owner, c, w⟩ = read ts ⟨.span, c, w⟩ := by
  have h1 : read ts ⟨.span, true, w⟩ = read ts ⟨.span, c, w⟩ := bool_eq (read_iff _ _) (read_iff _ _)
  have h2 : tryRead ts ⟨.span, true, w⟩ = read ts ⟨.span, c, w⟩ := bool_eq (tryRead_iff _ _) (read_iff _ _)
  have h3 : (read ts ⟨.span, c, w⟩ && byteCountTys ts) = read ts ⟨.span, c, w⟩ := by
    refine bool_eq ?_ (read_iff _ _)
    rw [Bool.and_eq_true, read_iff, tys_iff]
    tauto
  have h4 : readView ⟨.owner, c, w⟩ = true := rfl
  have h5 : Buf.spans ⟨.owner, c, w⟩ = true := rfl
  have h6 : readView ⟨.span, c, w⟩ = false := rfl
  refine ⟨by simp [viewRead, h6], by simp [viewTryRead, h6], ?_, ?_⟩
  · rw [viewRead, h4, h5, h1, ← h3]; simp
  · rw [viewTryRead, h4, h5, h2, ← h3]; simp

example : viewRead [.pod] ⟨.span, true, 1⟩ = false ∧ viewRead [.pod] ⟨.owner, true, 1⟩ = true := by decide

end Wite.Props
