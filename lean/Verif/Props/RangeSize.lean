import Verif.Props.ValueRange
import Mathlib.Data.Int.Interval
import Mathlib.Data.Set.Card
import Mathlib.Order.Basic

/-!
# C171: `empty()` and `size()` of a `value_range`
-/

namespace Wite.Props
open Wite Wite.Maths

section Empty
variable {α : Type} [LinearOrder α] {lb hb : Boundary}

/-- C171 for ranges of which one end is open and the other closed: `empty()` says whether no value is contained. -/
theorem c171_half_open_partial (r : ValueRange α lb hb) (h : r.lo ≤ r.hi) (ho : lb ≠ hb) :
    r.empty = true ↔ ∀ x, r.contains x = false := by
  simp only [ValueRange.empty, beq_iff_eq]
  constructor
  · intro e x
    refine c78_empty_open r x e ?_
    cases lb <;> cases hb <;> simp_all
  · intro hc
    by_contra hne
    have hlt := lt_of_le_of_ne h hne
    cases lb <;> cases hb <;> simp at ho
    · have := hc r.lo
      rw [← Bool.not_eq_true, c78_contains] at this
      exact this ⟨⟨le_refl _, by simp⟩, h, fun _ => hne⟩
    · have := hc r.hi
      rw [← Bool.not_eq_true, c78_contains] at this
      exact this ⟨⟨h, fun _ => hne⟩, le_refl _, by simp⟩

/-- C171 for open ranges of a type with values between any two (none of the built-in types is one). -/
theorem c171_dense_partial [DenselyOrdered α] (r : ValueRange α .opened .opened) (h : r.lo ≤ r.hi) :
    r.empty = true ↔ ∀ x, r.contains x = false := by
  simp only [ValueRange.empty, beq_iff_eq]
  constructor
  · exact fun e x => c78_empty_open r x e (Or.inl rfl)
  · intro hc
    by_contra hne
    obtain ⟨x, h1, h2⟩ := exists_between (lt_of_le_of_ne h hne)
    have := hc x
    rw [← Bool.not_eq_true, c78_contains] at this
    exact this ⟨⟨le_of_lt h1, fun _ => ne_of_lt h1⟩, le_of_lt h2, fun _ => ne_of_lt h2⟩

/-- C171 is false for closed ranges: every range that says it is empty contains its one value, and no closed range that
can be made in a debug build contains nothing. -/
theorem c171_refuted_closed (r : ValueRange α .closed .closed) :
    (r.empty = true → r.contains r.lo = true) ∧ (r.lo ≤ r.hi → ∃ x, r.contains x = true) := by
  have key : r.lo ≤ r.hi → r.contains r.lo = true := by
    intro h
    rw [c78_contains]
    exact ⟨⟨le_refl _, by simp⟩, h, by simp⟩
  refine ⟨fun h => key ?_, fun h => ⟨_, key h⟩⟩
  simp only [ValueRange.empty, beq_iff_eq] at h
  exact le_of_eq h

/-- C171 is false in release builds, where a range may have its ends the wrong way round: it contains nothing and says it
is not empty. -/
theorem c171_refuted_inverted (lo hi : α) (h : hi < lo) :
    ∃ r : ValueRange α lb hb, ValueRange.make .release lo hi = .ok r ∧ r.empty = false ∧ ∀ x, r.contains x = false := by
  refine ⟨⟨lo, hi⟩, rfl, ?_, ?_⟩
  · simp only [ValueRange.empty, beq_eq_false_iff_ne]
    exact ne_of_gt h
  · intro x
    rw [← Bool.not_eq_true, c78_contains]
    rintro ⟨⟨h1, _⟩, h2, _⟩
    exact absurd (lt_of_le_of_lt (le_trans h1 h2) h) (lt_irrefl _)

end Empty

variable {lb hb : Boundary}

section Integers

/-- C171 is false for open ranges of integers: one whose ends are neighbours contains nothing and says it is not empty. -/
theorem c171_refuted_open (v : Int) :
    (⟨v, v + 1⟩ : ValueRange Int .opened .opened).empty = false ∧
      ∀ x, (⟨v, v + 1⟩ : ValueRange Int .opened .opened).contains x = false := by
  refine ⟨by simp [ValueRange.empty], fun x => ?_⟩
  rw [← Bool.not_eq_true, c78_contains]
  rintro ⟨⟨h1, h2⟩, h3, h4⟩
  have := h2 rfl
  have := h4 rfl
  simp only at *
  omega

/-- How many ends of a range of two boundaries belong to it. -/
def endsIncluded (lb hb : Boundary) : Int :=
  (if lb = .closed then 1 else 0) + (if hb = .closed then 1 else 0)

/-- C171 for integers, exactly: how many values a range with `min < max` contains. -/
theorem c171_count_partial (r : ValueRange Int lb hb) (h : r.lo < r.hi) :
    ({x | r.contains x = true}.ncard : Int) = r.hi - r.lo - 1 + endsIncluded lb hb := by
  have key : {x | r.contains x = true} =
      ((Finset.Icc (r.lo + (if lb = .closed then 0 else 1)) (r.hi - (if hb = .closed then 0 else 1)) : Finset Int) : Set Int) := by
    ext x
    rw [Set.mem_setOf_eq, c78_contains, Finset.coe_Icc, Set.mem_Icc]
    cases lb <;> cases hb <;> simp <;> omega
  rw [key, Set.ncard_coe_finset, Int.card_Icc]
  cases lb <;> cases hb <;> simp [endsIncluded] <;> omega

/-- C171: `size()` is `max - min` in all builds if the type holds this difference; it is 0 exactly if `empty()`. -/
theorem c171_size_partial (b : Build) (t : IntTy) (ht : 0 < t.bits) (r : ValueRange Int lb hb) (h : r.lo ≤ r.hi)
    (hd : t.holds (r.hi - r.lo)) :
    r.sizeInt t b = .ok (r.hi - r.lo) ∧ (r.sizeInt t b = .ok 0 ↔ r.empty = true) := by
  have ha : debugAssert b (decide (r.lo ≤ r.hi)) "value_range min should be <= max" = .ok () := by
    cases b <;> simp [debugAssert, h]
  have hs : r.sizeInt t b = .ok (r.hi - r.lo) := by
    rw [ValueRange.sizeInt, ha, Outcome.bind_ok, IntTy.sub_ok ht hd, Outcome.bind_ok, IntTy.wrap_of_holds ht hd]; rfl
  refine ⟨hs, ?_⟩
  rw [hs]
  simp only [ValueRange.empty, beq_iff_eq, Outcome.ok.injEq]
  omega

/-- C171 for unsigned types: `size()` is right for every range. -/
theorem c171_unsigned_partial (b : Build) (t : IntTy) (ht : 0 < t.bits) (hu : t.signed = false) (r : ValueRange Int lb hb)
    (h : r.lo ≤ r.hi) (h1 : t.holds r.lo) (h2 : t.holds r.hi) : r.sizeInt t b = .ok (r.hi - r.lo) := by
  refine (c171_size_partial b t ht r h ⟨?_, ?_⟩).1
  · have : t.minValue = 0 := by simp [IntTy.minValue, hu]
    omega
  · have := h1.1
    have h0 : t.minValue = 0 := by simp [IntTy.minValue, hu]
    have := h2.2
    omega

/-- C171 is false for signed types: a range wider than the largest value has no size.  For types of at least 32 bits the
call is undefined, for narrower ones it returns a negative number. -/
theorem c171_refuted_size (b : Build) (t : IntTy) (ht : 0 < t.bits) (hs : t.signed = true) (r : ValueRange Int lb hb)
    (h1 : t.holds r.lo) (h2 : t.holds r.hi) (hw : t.maxValue < r.hi - r.lo) :
    (32 ≤ t.bits → r.sizeInt t b = .ub) ∧ (t.bits < 31 → ∃ s, r.sizeInt t b = .ok s ∧ s < 0) := by
  have hnn := t.maxValue_nonneg
  have ha : debugAssert b (decide (r.lo ≤ r.hi)) "value_range min should be <= max" = .ok () := by
    have : r.lo ≤ r.hi := by omega
    cases b <;> simp [debugAssert, this]
  constructor
  · intro hb32
    rw [ValueRange.sizeInt, ha, Outcome.bind_ok, IntTy.sub, IntTy.promote_wide hb32, IntTy.result_ub hs (fun h => by have := h.2; omega)]
    rfl
  · intro hn
    refine ⟨r.hi - r.lo - 2 ^ t.bits, ?_, ?_⟩
    · have hr := IntTy.range_eq t ht
      have hp : (2 : Int) ^ t.bits ≤ 2 ^ 30 := pow_le_pow_right₀ (by decide) (by omega)
      have hprom : t.promote = IntTy.int := by
        unfold IntTy.promote
        rw [if_pos (by have : IntTy.int.bits = 32 := rfl; omega)]
      have hint : IntTy.int.holds (r.hi - r.lo) := by
        have e1 : IntTy.int.minValue = -(2 ^ 31) := rfl
        have e2 : IntTy.int.maxValue = 2 ^ 31 - 1 := rfl
        have := h1.1
        have := h2.2
        constructor
        · rw [e1]; omega
        · rw [e2]; omega
      have hsub : t.sub r.hi r.lo = .ok (r.hi - r.lo) := by
        rw [IntTy.sub, hprom]
        exact IntTy.result_of_holds (by decide) hint
      rw [ValueRange.sizeInt, ha, Outcome.bind_ok, hsub, Outcome.bind_ok]
      have hwr : t.wrap (r.hi - r.lo) = r.hi - r.lo - 2 ^ t.bits := by
        have hh : t.holds (r.hi - r.lo - 2 ^ t.bits) := by
          have := h1.1
          have := h2.2
          constructor <;> omega
        rw [← IntTy.wrap_of_holds ht hh]
        unfold IntTy.wrap
        rw [show r.hi - r.lo - 2 ^ t.bits - t.minValue = r.hi - r.lo - t.minValue - 2 ^ t.bits by omega,
          Int.sub_emod_right]
      rw [hwr]
      rfl
    · have := h1.1
      have := h2.2
      have := IntTy.range_eq t ht
      omega

end Integers

/-- C171 is false for floating-point numbers: an open range whose ends are neighbours contains no number and says it is
not empty. -/
theorem c171_refuted_flt {F : Fmt} (x : Flt F) (hx : x.finite) (hm : x.value ≠ (Flt.max F).value) :
    (⟨x, nextFlt x⟩ : ValueRange (Flt F) .opened .opened).empty = false ∧
      ∀ z, (⟨x, nextFlt x⟩ : ValueRange (Flt F) .opened .opened).contains z = true → z.isNaN := by
  obtain ⟨hf, hlt, _⟩ := c73_flt_next x hx hm
  have hk := (Flt.value_lt_iff _ _).1 hlt
  constructor
  · have : ¬ (¬ x.isNaN ∧ ¬ (nextFlt x).isNaN ∧ x.key = (nextFlt x).key) := fun h => by have := h.2.2; omega
    exact decide_eq_false this
  · intro z hz
    have hmx : x.key ≠ (Flt.max F).key := fun h => hm ((Flt.value_eq_iff _ _).2 h)
    have hle := Flt.key_le_max hx
    have hkey : (nextFlt x).key = x.key + 1 :=
      (Flt.nextToward_up hx (Flt.max_finite F) (show x.key < (Flt.max F).key by omega)).1
    by_contra hzn
    have hxn := Flt.not_isNaN_of_finite hx
    have hnn := Flt.not_isNaN_of_finite hf
    simp only [ValueRange.contains, ValueRange.belowMin, ValueRange.aboveMax, Bool.not_eq_true', Bool.or_eq_false_iff,
      decide_eq_false_iff_not] at hz
    by_cases hc : z.key ≤ x.key
    · exact hz.1 ⟨hzn, hxn, hc⟩
    · exact hz.2 ⟨hnn, hzn, by omega⟩

/-- C171: every range of floating-point numbers contains NaN, also one that says it is empty. -/
theorem c171_refuted_nan {F : Fmt} (r : ValueRange (Flt F) lb hb) (z : Flt F) (hz : z.isNaN) : r.contains z = true := by
  have h1 : ∀ y : Flt F, ¬ z < y := fun y h => h.1 hz
  have h2 : ∀ y : Flt F, ¬ z ≤ y := fun y h => h.1 hz
  have h3 : ∀ y : Flt F, ¬ y < z := fun y h => h.2.1 hz
  have h4 : ∀ y : Flt F, ¬ y ≤ z := fun y h => h.2.1 hz
  cases lb <;> cases hb <;>
    simp [ValueRange.contains, ValueRange.belowMin, ValueRange.aboveMax, h1, h2, h3, h4]

example : (⟨3, 3⟩ : ValueRange Int .closed .closed).empty = true ∧
    (⟨3, 3⟩ : ValueRange Int .closed .closed).contains 3 = true ∧
    (⟨3, 4⟩ : ValueRange Int .opened .opened).empty = false ∧
    (⟨3, 4⟩ : ValueRange Int .opened .opened).contains 3 = false ∧
    (⟨-100, 100⟩ : ValueRange Int .closed .closed).sizeInt ⟨8, true⟩ .debug = .ok (-56) := by decide

end Wite.Props
