import Verif.Lemmas.FloatArith

/-!
How far rounding moves a number: no further than to any other number of the format, and for a difference of two numbers by
at most half a unit in the last place, also where the difference is subnormal (it is exact there).
-/

namespace Wite.Maths.Flt

open Wite.Maths

variable {F : Fmt}

/-- Rounding to a finite number finds none that is further away than another one. -/
theorem ofRat_nearest {s : Bool} {q : ℚ} (h : (ofRat F s q).finite) (x : Flt F) :
    |q - (ofRat F s q).value| ≤ |q - x.value| := by
  by_cases h0 : q = 0
  · subst h0
    unfold ofRat; rw [if_pos rfl, zero_value]; simp
  unfold ofRat at h ⊢
  rw [if_neg h0] at h ⊢
  have e : ∀ x y : Nat, Nat.min x y < y → Nat.min x y = x := by
    intro x y h
    have e1 : Nat.min x y = x ⊓ y := rfl
    rw [e1] at h ⊢; omega
  have hm := e _ _ h
  rw [hm]
  have near := roundMag_nearest (F := F) |q| (abs_nonneg q) x.mag
  have h2 : |(|q| - |x.value|)| ≤ |q - x.value| := abs_abs_sub_abs_le_abs_sub q x.value
  rw [abs_value] at h2
  refine le_trans (le_of_eq ?_) (le_trans near h2)
  unfold value
  by_cases hq : q < 0
  · simp only [hq, decide_true, if_true]
    rw [abs_of_neg hq, sub_neg_eq_add, abs_sub_comm]
    congr 1; ring
  · simp only [hq, decide_false, Bool.false_eq_true, if_false]
    rw [abs_of_nonneg (not_lt.1 hq)]

/-- Numbers from the smallest normal one on are rounded by at most `2^-(m+1)` of themselves. -/
theorem round_error {s : Bool} {q : ℚ} (h : magValue F (2 ^ F.m) ≤ q) (hd : (ofRat F s q).finite) :
    2 * |q - (ofRat F s q).value| ≤ q / 2 ^ F.m := by
  have q0 : 0 ≤ q := le_trans (magValue_nonneg _ _) h
  obtain ⟨s1, s2⟩ := floorMag_spec F q q0
  have n1 := ofRat_nearest hd (⟨false, floorMag F q⟩ : Flt F)
  have n2 := ofRat_nearest hd (⟨false, floorMag F q + 1⟩ : Flt F)
  have v : ∀ n, (⟨false, n⟩ : Flt F).value = magValue F n := fun n => by simp [value]
  rw [v] at n1 n2
  rw [abs_of_nonneg (by linarith : 0 ≤ q - magValue F (floorMag F q))] at n1
  rw [abs_sub_comm q (magValue F (floorMag F q + 1)), abs_of_nonneg (by linarith : 0 ≤ magValue F (floorMag F q + 1) - q)] at n2
  have hlow : 2 ^ F.m ≤ floorMag F q := by
    have := (magValue_strictMono F).lt_iff_lt.1 (lt_of_le_of_lt h s2)
    omega
  generalize floorMag F q = g at *
  have hp : 0 < 2 ^ F.m := Nat.two_pow_pos _
  have h2 : 2 ^ (F.m + 1) = 2 * 2 ^ F.m := by rw [Nat.pow_succ]; omega
  have hpq : (0 : ℚ) < 2 ^ F.m := by positivity
  have hlt := Nat.mod_lt g hp
  have hn := Nat.div_add_mod g (2 ^ F.m)
  obtain ⟨k, j, e, h3, h4⟩ : ∃ k j, g = k * 2 ^ F.m + j ∧ 2 ^ F.m ≤ j ∧ j + 1 ≤ 2 ^ (F.m + 1) := by
    have h0 : 0 < g / 2 ^ F.m := Nat.div_pos (by omega) hp
    refine ⟨g / 2 ^ F.m - 1, 2 ^ F.m + g % 2 ^ F.m, ?_, by omega, by omega⟩
    obtain ⟨q, hq⟩ : ∃ q, g / 2 ^ F.m = q + 1 := ⟨g / 2 ^ F.m - 1, by omega⟩
    rw [hq] at hn ⊢
    have : 2 ^ F.m * (q + 1) = q * 2 ^ F.m + 2 ^ F.m := by ring
    simp only [Nat.add_sub_cancel]; omega
  have e1 : scaled F g = j * 2 ^ k := by rw [e]; exact scaled_at F k j (Or.inr h3) (by omega)
  have e2 : scaled F (g + 1) = (j + 1) * 2 ^ k := by
    rw [e, Nat.add_assoc]; exact scaled_at F k (j + 1) (by omega) h4
  have m1 : magValue F g = (j : ℚ) * (2 ^ k * tiniest F) := by rw [magValue_eq, e1]; push_cast; ring
  have m2 : magValue F (g + 1) = magValue F g + 2 ^ k * tiniest F := by rw [m1, magValue_eq, e2]; push_cast; ring
  have hu : 0 < 2 ^ k * tiniest F := mul_pos (by positivity) (tiniest_pos F)
  have hj : (2 : ℚ) ^ F.m ≤ j := by exact_mod_cast h3
  have : 2 ^ k * tiniest F ≤ q / 2 ^ F.m := by
    rw [le_div_iff₀ hpq]
    refine le_trans ?_ s1
    rw [m1, mul_comm]
    exact mul_le_mul_of_nonneg_right hj (le_of_lt hu)
  linarith

/-- The difference of two numbers is rounded by at most `2^-(m+1)` of itself. -/
theorem sub_error {a b : Flt F} (ha : a.finite) (hb : b.finite) (hab : a.value ≤ b.value) (hd : (b.sub a).finite) :
    2 * |(b.value - a.value) - (b.sub a).value| ≤ (b.value - a.value) / 2 ^ F.m := by
  obtain ⟨k, hk⟩ := value_mul_tiniest a
  obtain ⟨l, hl⟩ := value_mul_tiniest b
  have ht := tiniest_pos F
  rw [sub_finite hb ha] at hd ⊢
  obtain ⟨q, hq⟩ : ∃ q, q = b.value - a.value := ⟨_, rfl⟩
  rw [← hq] at hd ⊢
  have q0 : 0 ≤ q := by rw [hq]; linarith
  obtain ⟨s1, s2⟩ := floorMag_spec F q q0
  have n1 := ofRat_nearest hd (⟨false, floorMag F q⟩ : Flt F)
  have n2 := ofRat_nearest hd (⟨false, floorMag F q + 1⟩ : Flt F)
  have v : ∀ n, (⟨false, n⟩ : Flt F).value = magValue F n := fun n => by simp [value]
  rw [v] at n1 n2
  rw [abs_of_nonneg (by linarith : 0 ≤ q - magValue F (floorMag F q))] at n1
  rw [abs_sub_comm q (magValue F (floorMag F q + 1)), abs_of_nonneg (by linarith : 0 ≤ magValue F (floorMag F q + 1) - q)] at n2
  generalize hg : floorMag F q = g at *
  have hp : 0 < 2 ^ F.m := Nat.two_pow_pos _
  have h2 : 2 ^ (F.m + 1) = 2 * 2 ^ F.m := by rw [Nat.pow_succ]; omega
  have hpq : (0 : ℚ) < 2 ^ F.m := by positivity
  by_cases hlow : g < 2 ^ F.m
  · have e1 : scaled F g = g := by have := scaled_at F 0 g (Or.inl rfl) (by omega); simpa using this
    have e2 : scaled F (g + 1) = g + 1 := by have := scaled_at F 0 (g + 1) (Or.inl rfl) (by omega); simpa using this
    rw [magValue_eq, e1] at s1
    rw [magValue_eq, e2] at s2
    have hqt : q = ((l - k : Int) : ℚ) * tiniest F := by rw [hq, hk, hl]; push_cast; ring
    rw [hqt] at s1 s2
    have c1 : ((g : Int) : ℚ) ≤ ((l - k : Int) : ℚ) := by
      have := le_of_mul_le_mul_right s1 ht; push_cast at this ⊢; exact this
    have c2 : ((l - k : Int) : ℚ) < ((g + 1 : Int) : ℚ) := by
      have := lt_of_mul_lt_mul_right s2 (le_of_lt ht); push_cast at this ⊢; exact this
    have c1 : (g : Int) ≤ l - k := by exact_mod_cast c1
    have c2 : l - k < (g + 1 : Int) := by exact_mod_cast c2
    have c3 : l - k = g := by omega
    have : q - magValue F g = 0 := by rw [magValue_eq, e1, hqt, c3]; push_cast; ring
    have h0 : 0 ≤ q / 2 ^ F.m := by positivity
    linarith
  · exact round_error (le_trans ((magValue_strictMono F).monotone (not_lt.1 hlow)) s1) hd

/-- A lower end and at most the rounded difference of the ends: the sum is at most `2^-m` of the difference beyond the upper
end, and no further than that from it if the whole difference is added. -/
theorem add_near {a b y : Flt F} (ha : a.finite) (hb : b.finite) (hv : a.value ≤ b.value) (hd : (b.sub a).finite)
    (hy : y.finite) (hle : y.value ≤ (b.sub a).value) (hr : (a.add y).finite) :
    (a.add y).value ≤ b.value + (b.value - a.value) / 2 ^ F.m ∧
    (y.value = (b.sub a).value → |(a.add y).value - b.value| ≤ (b.value - a.value) / 2 ^ F.m) := by
  have err := sub_error ha hb hv hd
  rw [add_finite ha hy] at hr ⊢
  have near := ofRat_nearest hr b
  have e1 := abs_le.1 near
  have e2 := abs_le.1 (le_refl |(b.value - a.value) - (b.sub a).value|)
  refine ⟨?_, fun h => ?_⟩
  · by_cases hle : a.value + y.value ≤ b.value
    · have := (value_le_iff _ _).2 (ofRat_le hb hle (a.neg && y.neg))
      have : 0 ≤ (b.value - a.value) / 2 ^ F.m := by
        have : 0 ≤ b.value - a.value := by linarith
        positivity
      linarith
    · rw [abs_of_pos (by linarith : 0 < a.value + y.value - b.value)] at e1
      linarith
  · rw [h] at e1 ⊢
    have : |a.value + (b.sub a).value - b.value| = |(b.value - a.value) - (b.sub a).value| := by
      rw [← abs_neg]; congr 1; ring
    rw [this] at e1
    rw [abs_le]
    constructor <;> linarith

end Wite.Maths.Flt
