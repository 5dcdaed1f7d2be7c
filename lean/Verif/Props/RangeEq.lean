import Verif.Props.ValueRange
import Verif.Props.FloatMaths
import Verif.Props.RangeFlt

/-!
# C173: when two `value_range`s are equal; `fraction` of the values of a range (C105)
-/

namespace Wite.Props
open Wite Wite.Maths

section Order
variable {α : Type} [LinearOrder α] {lb hb : Boundary}

/-- C173: ranges that are equal contain the same values. -/
theorem c173_same_partial (r s : ValueRange α lb hb) (h : r.eq s = true) (x : α) : r.contains x = s.contains x := by
  simp only [ValueRange.eq, Bool.and_eq_true, beq_iff_eq] at h
  obtain ⟨a, b⟩ := r
  obtain ⟨c, d⟩ := s
  obtain ⟨h1, h2⟩ := h
  simp only at h1 h2
  subst h1 h2
  rfl

private theorem ends_of_same {r s : ValueRange α lb hb} {v : α} (hv : r.contains v = true)
    (h : ∀ x, r.contains x = s.contains x) : ¬ r.lo < s.lo ∧ ¬ s.hi < r.hi := by
  have hw : s.contains v = true := by rw [← h, hv]
  rw [c78_contains] at hv hw
  constructor
  · intro hlt
    cases lb
    · have : r.contains r.lo = true := by
        rw [c78_contains]
        exact ⟨⟨le_refl _, by simp⟩, le_trans hv.1.1 hv.2.1, fun e => ne_of_lt (lt_of_le_of_lt hv.1.1 (lt_of_le_of_ne hv.2.1 (hv.2.2 e)))⟩
      rw [h, c78_contains] at this
      exact absurd this.1.1 (not_le_of_gt hlt)
    · have : r.contains s.lo = true := by
        rw [c78_contains]
        have hl := lt_of_le_of_ne hw.1.1 (hw.1.2 rfl)
        exact ⟨⟨le_of_lt hlt, fun _ => ne_of_lt hlt⟩, le_of_lt (lt_of_lt_of_le hl hv.2.1), fun _ => ne_of_lt (lt_of_lt_of_le hl hv.2.1)⟩
      rw [h, c78_contains] at this
      exact this.1.2 rfl rfl
  · intro hlt
    cases hb
    · have : r.contains r.hi = true := by
        rw [c78_contains]
        exact ⟨⟨le_trans hv.1.1 hv.2.1, fun e => ne_of_lt (lt_of_lt_of_le (lt_of_le_of_ne hv.1.1 (hv.1.2 e)) hv.2.1)⟩, le_refl _, by simp⟩
      rw [h, c78_contains] at this
      exact absurd this.2.1 (not_le_of_gt hlt)
    · have : r.contains s.hi = true := by
        rw [c78_contains]
        have hl := lt_of_le_of_ne hw.2.1 (hw.2.2 rfl)
        exact ⟨⟨le_of_lt (lt_of_le_of_lt hv.1.1 hl), fun _ => ne_of_lt (lt_of_le_of_lt hv.1.1 hl)⟩, le_of_lt hlt, fun _ => ne_of_lt hlt⟩
      rw [h, c78_contains] at this
      exact this.2.2 rfl rfl

/-- C173 for ranges that contain something: they are equal exactly if they contain the same values, whatever kinds of ends
they have. -/
theorem c173_iff_partial (r s : ValueRange α lb hb) (v : α) (hv : r.contains v = true) :
    r.eq s = true ↔ ∀ x, r.contains x = s.contains x := by
  refine ⟨c173_same_partial r s, fun h => ?_⟩
  have h1 := ends_of_same hv h
  have h2 := ends_of_same (r := s) (s := r) (v := v) (by rw [← h, hv]) (fun x => (h x).symm)
  simp only [ValueRange.eq, Bool.and_eq_true, beq_iff_eq]
  exact ⟨le_antisymm (not_lt.1 h2.1) (not_lt.1 h1.1), le_antisymm (not_lt.1 h1.2) (not_lt.1 h2.2)⟩

/-- C173: `!=` is the opposite of `==`; and equality is reflexive, symmetric and transitive. -/
theorem c173_relation_partial (r s u : ValueRange α lb hb) :
    r.ne s = !r.eq s ∧ r.eq r = true ∧ (r.eq s = true → s.eq r = true) ∧ (r.eq s = true → s.eq u = true → r.eq u = true) := by
  simp only [ValueRange.ne, ValueRange.eq, Bool.and_eq_true, beq_iff_eq]
  refine ⟨trivial, ⟨trivial, trivial⟩, fun h => ⟨h.1.symm, h.2.symm⟩, fun h h' => ⟨h.1.trans h'.1, h.2.trans h'.2⟩⟩

/-- C173 is false for ranges without values: any two that consist of one point and have an open end contain the same, and
are equal only if the points are. -/
theorem c173_refuted_nothing (x y : α) (ho : lb = .opened ∨ hb = .opened) (hxy : x ≠ y) :
    (⟨x, x⟩ : ValueRange α lb hb).eq ⟨y, y⟩ = false ∧
      ∀ v, (⟨x, x⟩ : ValueRange α lb hb).contains v = (⟨y, y⟩ : ValueRange α lb hb).contains v := by
  constructor
  · simp [ValueRange.eq, hxy]
  · intro v
    rw [c78_empty_open (⟨x, x⟩ : ValueRange α lb hb) v rfl ho, c78_empty_open (⟨y, y⟩ : ValueRange α lb hb) v rfl ho]

end Order

section Floating
variable {F : Fmt} {lb hb : Boundary}

private theorem beq_def (x y : Flt F) : (x == y) = true ↔ ¬ x.isNaN ∧ ¬ y.isNaN ∧ x.key = y.key := by
  show decide _ = true ↔ _
  rw [decide_eq_true_iff]

private theorem flt_lt (x y : Flt F) : x < y ↔ ¬ x.isNaN ∧ ¬ y.isNaN ∧ x.key < y.key := Iff.rfl
private theorem flt_le (x y : Flt F) : x ≤ y ↔ ¬ x.isNaN ∧ ¬ y.isNaN ∧ x.key ≤ y.key := Iff.rfl

/-- The order of the numbers of a range, as a range of their positions. -/
private def keys (r : ValueRange (Flt F) lb hb) : ValueRange Int lb hb := ⟨r.lo.key, r.hi.key⟩

private theorem contains_keys {r : ValueRange (Flt F) lb hb} (h1 : ¬ r.lo.isNaN) (h2 : ¬ r.hi.isNaN) {x : Flt F}
    (hx : ¬ x.isNaN) : r.contains x = (keys r).contains x.key := by
  rw [Bool.eq_iff_iff, c78_contains]
  cases lb <;> cases hb <;>
    simp [ValueRange.contains, ValueRange.belowMin, ValueRange.aboveMax, keys, flt_lt, flt_le, h1, h2, hx] <;> omega

/-- C173 for floating-point numbers: ranges with numbers for ends and a number in them are equal exactly if they contain
the same values; in particular ranges that differ only in the signs of zeros are equal. -/
theorem c173_flt_partial (r s : ValueRange (Flt F) lb hb) (hr : ¬ r.lo.isNaN ∧ ¬ r.hi.isNaN)
    (hs : ¬ s.lo.isNaN ∧ ¬ s.hi.isNaN) (v : Flt F) (hn : ¬ v.isNaN) (hv : r.contains v = true) :
    r.eq s = true ↔ ∀ x, r.contains x = s.contains x := by
  have he : r.eq s = true ↔ (keys r).eq (keys s) = true := by
    simp only [ValueRange.eq, Bool.and_eq_true, beq_def, beq_iff_eq, keys, hr.1, hr.2, hs.1, hs.2, not_false_eq_true, true_and]
  rw [he]
  constructor
  · intro h x
    by_cases hx : x.isNaN
    · rw [c171_refuted_nan r x hx, c171_refuted_nan s x hx]
    · rw [contains_keys hr.1 hr.2 hx, contains_keys hs.1 hs.2 hx]
      exact c173_same_partial _ _ h _
  · intro h
    have hv' := hv
    rw [contains_keys hr.1 hr.2 hn] at hv'
    have hw : (keys s).contains v.key = true := by rw [← contains_keys hs.1 hs.2 hn, ← h, hv]
    have key : ∀ x : Flt F, ¬ x.isNaN → (keys r).contains x.key = (keys s).contains x.key := by
      intro x hx
      rw [← contains_keys hr.1 hr.2 hx, ← contains_keys hs.1 hs.2 hx, h]
    rw [c78_contains] at hv' hw
    have k1 := key r.lo hr.1
    have k2 := key r.hi hr.2
    have k3 := key s.lo hs.1
    have k4 := key s.hi hs.2
    rw [Bool.eq_iff_iff, c78_contains, c78_contains] at k1 k2 k3 k4
    simp only [ValueRange.eq, Bool.and_eq_true, beq_iff_eq]
    simp only [keys] at *
    cases lb <;> cases hb <;> simp at * <;> omega

/-- C173 is false for NaN: a range with NaN for an end, which a release build makes, is not equal to itself. -/
theorem c173_refuted_nan (lo hi : Flt F) (h : lo.isNaN ∨ hi.isNaN) :
    ∃ r : ValueRange (Flt F) lb hb, ValueRange.make .release lo hi = .ok r ∧ r.eq r = false ∧ r.ne r = true := by
  have : (⟨lo, hi⟩ : ValueRange (Flt F) lb hb).eq ⟨lo, hi⟩ = false := by
    rw [← Bool.not_eq_true]
    simp only [ValueRange.eq, Bool.and_eq_true, beq_def]
    rintro ⟨h1, h2⟩
    exact h.elim h1.1 h2.1
  exact ⟨⟨lo, hi⟩, rfl, this, by rw [ValueRange.ne, this]; rfl⟩

end Floating

example : (⟨1, 5⟩ : ValueRange Int .opened .opened).eq ⟨1, 5⟩ = true ∧
    (⟨1, 5⟩ : ValueRange Int .opened .opened).ne ⟨1, 6⟩ = true ∧
    (⟨1, 5⟩ : ValueRange Int .opened .opened).contains 5 = false ∧
    (⟨1, 6⟩ : ValueRange Int .opened .opened).contains 5 = true ∧
    (⟨2, 2⟩ : ValueRange Int .opened .closed).eq ⟨3, 3⟩ = false := by decide

example : (⟨Flt.mk (F := Fmt.single) false 0, Flt.mk false 7⟩ : ValueRange (Flt Fmt.single) .closed .closed).eq
    ⟨Flt.mk true 0, Flt.mk false 7⟩ = true := by decide +kernel

section Fraction
variable {F : Fmt} {lb hb : Boundary}

/-- C105 for a range of floating-point numbers: the fraction of a number in it lies between 0 and 1, and does not fall
when the number grows; the ends have the fractions 0 and 1. -/
theorem c105_range_flt (hF : Flt.Wider F Fmt.double) (r : ValueRange (Flt F) lb hb) (h1 : r.lo.finite) (h2 : r.hi.finite)
    (hlt : r.lo < r.hi) (hd : (r.hi.sub r.lo).finite) :
    (∀ x, x.finite → r.contains x = true →
      (r.fractionF x).finite ∧ 0 ≤ (r.fractionF x).value ∧ (r.fractionF x).value ≤ 1) ∧
    (∀ x y, x.finite → y.finite → r.contains x = true → r.contains y = true → x ≤ y → r.fractionF x ≤ r.fractionF y) ∧
    (r.fractionF r.lo).value = 0 ∧ (r.fractionF r.hi).value = 1 := by
  have hle : r.lo ≤ r.hi := ⟨hlt.1, hlt.2.1, le_of_lt hlt.2.2⟩
  have hin : ∀ x, x.finite → r.contains x = true → r.lo ≤ x ∧ x ≤ r.hi := by
    intro x hx hc
    rw [c172_contains_partial r hle x (Flt.not_isNaN_of_finite hx)] at hc
    exact ⟨hc.1.1, hc.2.1⟩
  refine ⟨fun x hx hc => ?_, fun x y hx hy hc hc' hxy => ?_, c105_float_ends hF r.lo r.hi h1 h2 hlt hd⟩
  · exact c105_float hF r.lo x r.hi h1 hx h2 hlt (hin x hx hc).1 (hin x hx hc).2 hd
  · exact c105_float_mono hF r.lo x y r.hi h1 hx hy h2 hlt (hin x hx hc).1 hxy (hin y hy hc').2 hd

/-- C105 for a range of integers whose size the type holds. -/
theorem c105_range_int (t : IntTy) (ht : 0 < t.bits) (h128 : t.bits ≤ 128) (r : ValueRange Int lb hb) (hlt : r.lo < r.hi)
    (hd : t.holds (r.hi - r.lo)) :
    ∃ φ : Int → Double, (∀ x, r.contains x = true → r.fractionI t x = .ok (φ x) ∧ (φ x).finite ∧ 0 ≤ (φ x).value ∧ (φ x).value ≤ 1) ∧
      r.fractionI t r.lo = .ok (φ r.lo) ∧ (φ r.lo).value = 0 ∧ r.fractionI t r.hi = .ok (φ r.hi) ∧ (φ r.hi).value = 1 ∧
      ∀ x y, r.contains x = true → r.contains y = true → x ≤ y → φ x ≤ φ y := by
  obtain ⟨φ, p1, p2, p3, p4⟩ := c105_int t ht h128 r.lo r.hi hlt hd
  have hin : ∀ x, r.contains x = true → r.lo ≤ x ∧ x ≤ r.hi := by
    intro x hc
    rw [c78_contains] at hc
    exact ⟨hc.1.1, hc.2.1⟩
  exact ⟨φ, fun x hc => p1 x (hin x hc).1 (hin x hc).2, (p1 _ (le_refl _) (le_of_lt hlt)).1, p2,
    (p1 _ (le_of_lt hlt) (le_refl _)).1, p3, fun x y hc hc' hxy => p4 x y (hin x hc).1 hxy (hin y hc').2⟩

example : ((⟨-4, 4⟩ : ValueRange Int .closed .opened).fractionI .int 0) = .ok ⟨false, 1022 * 2 ^ 52⟩ := by decide +kernel

end Fraction

end Wite.Props
