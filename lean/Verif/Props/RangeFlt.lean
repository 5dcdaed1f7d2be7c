import Verif.Props.ValueRange
import Verif.Props.NumericRef
import Verif.Props.RangeSize

/-!
# C172: ranges of floating-point numbers
-/

namespace Wite.Props
open Wite Wite.Maths

variable {F : Fmt} {lb hb : Boundary}

private theorem lt_def (x y : Flt F) : x < y ↔ ¬ x.isNaN ∧ ¬ y.isNaN ∧ x.key < y.key := Iff.rfl
private theorem le_def (x y : Flt F) : x ≤ y ↔ ¬ x.isNaN ∧ ¬ y.isNaN ∧ x.key ≤ y.key := Iff.rfl

/-- C172: a number (not NaN) is contained exactly if it lies within the bounds, open and closed ends respected. -/
theorem c172_contains_partial (r : ValueRange (Flt F) lb hb) (hr : r.lo ≤ r.hi) (x : Flt F) (hx : ¬ x.isNaN) :
    r.contains x = true ↔ (r.lo ≤ x ∧ (lb = .opened → r.lo < x)) ∧ (x ≤ r.hi ∧ (hb = .opened → x < r.hi)) := by
  obtain ⟨h1, h2, _⟩ := hr
  cases lb <;> cases hb <;>
    simp [ValueRange.contains, ValueRange.belowMin, ValueRange.aboveMax, lt_def, le_def, h1, h2, hx] <;> omega

/-- C172 is false for NaN, which every range contains though it is not above the minimum of any (`c171_refuted_nan`), and for
ranges made in release builds with NaN for both ends, which contain everything. -/
theorem c172_refuted_contains (n : Flt F) (hn : n.isNaN) :
    (∀ r : ValueRange (Flt F) lb hb, r.contains n = true ∧ ¬ r.lo ≤ n) ∧
    ∃ r : ValueRange (Flt F) lb hb, ValueRange.make .release n n = .ok r ∧ ∀ x, r.contains x = true := by
  refine ⟨fun r => ⟨c171_refuted_nan r n hn, fun h => h.2.1 hn⟩, ⟨n, n⟩, rfl, fun x => ?_⟩
  cases lb <;> cases hb <;>
    simp [ValueRange.contains, ValueRange.belowMin, ValueRange.aboveMax, lt_def, le_def, hn]

/-- C172: the overlap of two ranges with `min <= max` never fails; if it is a range, it contains exactly what both contain,
and if there is none, no number is in both. -/
theorem c172_overlap_partial (b : Build) (r s : ValueRange (Flt F) lb hb) (hr : r.lo ≤ r.hi) (hs : s.lo ≤ s.hi) :
    ∃ o, r.overlap b s = .ok o ∧
      (∀ u, o = some u → u.lo ≤ u.hi ∧ ∀ x, u.contains x = true ↔ r.contains x = true ∧ s.contains x = true) ∧
      (o = none → ∀ x, ¬ x.isNaN → ¬ (r.contains x = true ∧ s.contains x = true)) := by
  obtain ⟨a1, a2, a3⟩ := hr
  obtain ⟨b1, b2, b3⟩ := hs
  have ha : ∀ {x y : Flt F}, x ≤ y → debugAssert b (decide (x ≤ y)) "value_range min should be <= max" = .ok () := by
    intro x y h
    cases b <;> simp [debugAssert, h]
  rw [ValueRange.overlap, ha ⟨a1, a2, a3⟩, Outcome.bind_ok, ha ⟨b1, b2, b3⟩, Outcome.bind_ok]
  by_cases hd : r.lo > s.hi ∨ r.hi < s.lo
  · refine ⟨none, by rw [if_pos hd]; rfl, by simp, ?_⟩
    intro _ x hx hc
    rw [c172_contains_partial r ⟨a1, a2, a3⟩ x hx, c172_contains_partial s ⟨b1, b2, b3⟩ x hx] at hc
    have k1 := hc.1.1.1.2.2
    have k2 := hc.1.2.1.2.2
    have k3 := hc.2.1.1.2.2
    have k4 := hc.2.2.1.2.2
    rcases hd with hd | hd
    · have := hd.2.2; omega
    · have := hd.2.2; omega
  · have n1 : r.lo.key ≤ s.hi.key := by
      by_contra h
      exact hd (Or.inl ⟨b2, a1, by omega⟩)
    have n2 : s.lo.key ≤ r.hi.key := by
      by_contra h
      exact hd (Or.inr ⟨a2, b1, by omega⟩)
    have m1 : ¬ (stdMax r.lo s.lo).isNaN ∧ (stdMax r.lo s.lo).key = max r.lo.key s.lo.key := by
      unfold stdMax
      by_cases h : r.lo < s.lo
      · rw [if_pos h]; exact ⟨b1, by have := h.2.2; omega⟩
      · rw [if_neg h]
        refine ⟨a1, ?_⟩
        have : ¬ r.lo.key < s.lo.key := fun h' => h ⟨a1, b1, h'⟩
        omega
    have m2 : ¬ (stdMin r.hi s.hi).isNaN ∧ (stdMin r.hi s.hi).key = min r.hi.key s.hi.key := by
      unfold stdMin
      by_cases h : s.hi < r.hi
      · rw [if_pos h]; exact ⟨b2, by have := h.2.2; omega⟩
      · rw [if_neg h]
        refine ⟨a2, ?_⟩
        have : ¬ s.hi.key < r.hi.key := fun h' => h ⟨b2, a2, h'⟩
        omega
    have hle : stdMax r.lo s.lo ≤ stdMin r.hi s.hi := ⟨m1.1, m2.1, by rw [m1.2, m2.2]; omega⟩
    refine ⟨some ⟨stdMax r.lo s.lo, stdMin r.hi s.hi⟩, ?_, ?_, by simp⟩
    · rw [if_neg hd, ValueRange.make, ha hle]; rfl
    · intro u hu
      cases hu
      refine ⟨hle, fun x => ?_⟩
      by_cases hx : x.isNaN
      · simp [c171_refuted_nan _ x hx]
      · rw [c172_contains_partial _ hle x hx, c172_contains_partial r ⟨a1, a2, a3⟩ x hx,
          c172_contains_partial s ⟨b1, b2, b3⟩ x hx]
        simp only [lt_def, le_def, m1, m2, a1, a2, b1, b2, hx, not_false_eq_true, true_and]
        cases lb <;> cases hb <;> simp <;> omega

/-- C172 is false for NaN: ranges without an overlap both contain it. -/
theorem c172_refuted_overlap (b : Build) (r s : ValueRange (Flt F) lb hb) (_ : r.overlap b s = .ok none) (n : Flt F)
    (hn : n.isNaN) : r.contains n = true ∧ s.contains n = true :=
  ⟨c171_refuted_nan r n hn, c171_refuted_nan s n hn⟩

/-- C172: clamping a number gives a number between the bounds, the nearest one. -/
theorem c172_clamp_partial (r : ValueRange (Flt F) lb hb) (hr : r.lo ≤ r.hi) (x : Flt F) (hx : ¬ x.isNaN) :
    ∃ y, r.clamp x = .ok y ∧ r.lo ≤ y ∧ y ≤ r.hi ∧ (r.lo ≤ x → x ≤ r.hi → y = x) ∧
      (x < r.lo → y = r.lo) ∧ (r.hi < x → y = r.hi) := by
  obtain ⟨a1, a2, a3⟩ := hr
  have h0 : ¬ r.hi < r.lo := fun h => by have := h.2.2; omega
  rw [ValueRange.clamp, ValueRange.stdClamp, if_neg h0]
  simp only [lt_def, le_def, a1, a2, hx, not_false_eq_true, true_and]
  by_cases h1 : x.key < r.lo.key
  · refine ⟨r.lo, by rw [if_pos h1], ⟨a1, le_refl _⟩, ⟨a1, a3⟩, fun h => absurd h1 (by omega), fun _ => rfl, fun h => ?_⟩
    omega
  · by_cases h2 : r.hi.key < x.key
    · exact ⟨r.hi, by rw [if_neg h1, if_pos h2], ⟨a2, a3⟩, ⟨a2, le_refl _⟩, fun _ h => absurd h2 (by omega),
        fun h => absurd h h1, fun _ => rfl⟩
    · exact ⟨x, by rw [if_neg h1, if_neg h2], ⟨hx, by omega⟩, ⟨hx, by omega⟩, fun _ _ => rfl,
        fun h => absurd h h1, fun h => absurd h h2⟩

/-- C172 is false for NaN: clamping it gives NaN, which is between no bounds. -/
theorem c172_refuted_clamp (r : ValueRange (Flt F) lb hb) (hr : r.lo ≤ r.hi) (n : Flt F) (hn : n.isNaN) :
    r.clamp n = .ok n ∧ ¬ r.lo ≤ n ∧ ¬ n ≤ r.hi := by
  refine ⟨?_, fun h => h.2.1 hn, fun h => h.1 hn⟩
  have h : ¬ r.hi < r.lo := fun h => by have := h.2.2; have := hr.2.2; omega
  rw [ValueRange.clamp, ValueRange.stdClamp, if_neg h, if_neg (fun h => h.1 hn), if_neg (fun h => h.2.1 hn)]

/-- C172: the envelope of numbers never fails, contains them all, and lies in every closed range that does. -/
theorem c172_envelope_partial (b : Build) (x y : Flt F) (rest : List (Flt F)) (h : ∀ v ∈ x :: y :: rest, ¬ v.isNaN) :
    ∃ r, ValueRange.envelopeV b x y rest = .ok r ∧ r.lo ≤ r.hi ∧ (∀ v ∈ x :: y :: rest, r.contains v = true) ∧
      ∀ s : ValueRange (Flt F) .closed .closed, (∀ v ∈ x :: y :: rest, s.contains v = true) →
        ∀ v, r.contains v = true → s.contains v = true := by
  obtain ⟨⟨h1, h2, h3⟩, _, _⟩ := c142_partial x y rest h
  simp only [vminmax] at h1 h2 h3
  have hle : vmin x y rest ≤ vmax x y rest := (h3 _ h2).1
  have hm : ValueRange.envelopeV b x y rest = .ok ⟨vmin x y rest, vmax x y rest⟩ := by
    cases b <;> simp [ValueRange.envelopeV, vminmax, ValueRange.make, debugAssert, noexcept, hle]
  refine ⟨_, hm, hle, ?_, ?_⟩
  · intro v hv
    rw [c172_contains_partial _ hle v (h v hv)]
    exact ⟨⟨(h3 v hv).1, by simp⟩, (h3 v hv).2, by simp⟩
  · intro s hs v hv
    by_cases hvn : v.isNaN
    · exact c171_refuted_nan s v hvn
    · rw [c172_contains_partial _ hle v hvn] at hv
      have k1 := hv.1.1.2.2
      have k2 := hv.2.1.2.2
      have e1 := hs _ h1
      have e2 := hs _ h2
      have n1 := h _ h1
      have n2 := h _ h2
      simp only [ValueRange.contains, ValueRange.belowMin, ValueRange.aboveMax, Bool.not_eq_true', Bool.or_eq_false_iff,
        decide_eq_false_iff_not, gt_iff_lt, lt_def, n1, n2, hvn, not_false_eq_true, true_and, not_and] at e1 e2 k1 k2 ⊢
      constructor
      · intro h
        have := e1.1 h
        omega
      · intro h
        have := e2.2 h
        omega

/-- C172 is false for NaN: if it is the first argument, debug builds end the program and release builds make a range that
contains everything; if it is the second, the envelope is that of the first argument alone. -/
theorem c172_refuted_envelope (n x : Flt F) (rest : List (Flt F)) (hn : n.isNaN) (hx : ¬ x.isNaN) :
    ValueRange.envelopeV .debug n x rest = .terminate ∧ ValueRange.envelopeV .aborting n x rest = .terminate ∧
    (∃ r, ValueRange.envelopeV .release n x rest = .ok r ∧ ∀ v, r.contains v = true) ∧
    ∀ b, ValueRange.envelopeV b x n rest = .ok ⟨x, x⟩ := by
  obtain ⟨_, _, i1, i2, i3, i4⟩ := c142_refuted_ignored n hn x x [] rest
  have hnn : ¬ n ≤ n := fun h => h.1 hn
  have hxx : x ≤ x := ⟨hx, hx, le_refl _⟩
  refine ⟨?_, ?_, ⟨⟨n, n⟩, ?_, ?_⟩, fun b => ?_⟩
  · simp [ValueRange.envelopeV, vminmax, i3, i4, ValueRange.make, debugAssert, noexcept, hnn]
  · simp [ValueRange.envelopeV, vminmax, i3, i4, ValueRange.make, debugAssert, noexcept, hnn]
  · simp [ValueRange.envelopeV, vminmax, i3, i4, ValueRange.make, debugAssert, noexcept]
  · intro v
    simp [ValueRange.contains, ValueRange.belowMin, ValueRange.aboveMax, lt_def, hn]
  · cases b <;> simp [ValueRange.envelopeV, vminmax, i1, i2, ValueRange.make, debugAssert, noexcept, hxx]

example : (⟨Flt.ofInt Fmt.tiny 1, Flt.ofInt Fmt.tiny 3⟩ : ValueRange (Flt Fmt.tiny) .opened .closed).contains
      (Flt.ofInt Fmt.tiny 2) = true ∧
    (⟨Flt.ofInt Fmt.tiny 1, Flt.ofInt Fmt.tiny 3⟩ : ValueRange (Flt Fmt.tiny) .opened .closed).contains (Flt.qNaN _) = true ∧
    ValueRange.envelopeV .aborting (Flt.qNaN Fmt.tiny) (Flt.ofInt _ 1) [] = .terminate := by
  refine ⟨by decide +kernel, by decide +kernel, by decide +kernel⟩

end Wite.Props
