import Verif.Model.Float
import Mathlib.Tactic.Ring
import Mathlib.Tactic.Linarith
import Mathlib.Tactic.Positivity
import Mathlib.Algebra.Order.Field.Power
import Mathlib.Order.Monotone.Basic

/-!
# Lemmas: the line of floating-point numbers
-/

namespace Wite.Maths.Flt

open Wite.Maths

/-- The magnitude as a multiple of the smallest subnormal number. -/
def scaled (F : Fmt) (mag : Nat) : Nat :=
  if mag / 2 ^ F.m = 0 then mag % 2 ^ F.m
  else (2 ^ F.m + mag % 2 ^ F.m) * 2 ^ (mag / 2 ^ F.m - 1)

/-- The smallest subnormal number. -/
def tiniest (F : Fmt) : ℚ := 2 ^ (1 - bias F - F.m)

theorem tiniest_pos (F : Fmt) : 0 < tiniest F := by unfold tiniest; positivity

theorem magValue_eq (F : Fmt) (mag : Nat) : magValue F mag = scaled F mag * tiniest F := by
  unfold magValue scaled tiniest
  by_cases h : mag / 2 ^ F.m = 0
  · simp only [h, if_true]
  · simp only [h, if_false]
    have h1 : ((mag / 2 ^ F.m : Nat) : Int) - bias F - F.m = ((mag / 2 ^ F.m - 1 : Nat) : Int) + (1 - bias F - F.m) := by
      have : 1 ≤ mag / 2 ^ F.m := Nat.one_le_iff_ne_zero.2 h
      push_cast [Nat.cast_sub this]; ring
    rw [h1, zpow_add₀ (by norm_num), zpow_natCast]
    push_cast; ring

theorem scaled_strictMono (F : Fmt) : StrictMono (scaled F) := by
  apply strictMono_nat_of_lt_succ
  intro n
  have hp : 0 < 2 ^ F.m := Nat.two_pow_pos _
  have hdm := Nat.div_add_mod n (2 ^ F.m)
  have hlt := Nat.mod_lt n hp
  by_cases h : n % 2 ^ F.m + 1 < 2 ^ F.m
  · have e1 : (n + 1) / 2 ^ F.m = n / 2 ^ F.m := by
      rw [Nat.succ_div_of_not_dvd]
      intro hd
      have : (n + 1) % 2 ^ F.m = 0 := Nat.mod_eq_zero_of_dvd hd
      rw [Nat.add_mod, Nat.mod_eq_of_lt (a := 1) (by omega), Nat.mod_eq_of_lt h] at this
      omega
    have e2 : (n + 1) % 2 ^ F.m = n % 2 ^ F.m + 1 := by
      rw [Nat.add_mod, Nat.mod_eq_of_lt (a := 1) (by omega), Nat.mod_eq_of_lt h]
    unfold scaled
    rw [e1, e2]
    split
    · omega
    · exact Nat.mul_lt_mul_of_pos_right (by omega) (Nat.two_pow_pos _)
  · have hf : n % 2 ^ F.m + 1 = 2 ^ F.m := by omega
    have hn : n + 1 = (n / 2 ^ F.m + 1) * 2 ^ F.m := by
      rw [Nat.add_mul, Nat.one_mul, Nat.mul_comm]; revert hdm; generalize 2 ^ F.m * (n / 2 ^ F.m) = q; omega
    have e1 : (n + 1) / 2 ^ F.m = n / 2 ^ F.m + 1 := by rw [hn]; exact Nat.mul_div_cancel _ hp
    have e2 : (n + 1) % 2 ^ F.m = 0 := by rw [hn]; exact Nat.mul_mod_left _ _
    unfold scaled
    rw [e1, e2, if_neg (show ¬ (n / 2 ^ F.m + 1 = 0) by generalize n / 2 ^ F.m = q; omega)]
    simp only [Nat.add_zero, Nat.add_sub_cancel]
    split
    · rename_i h0
      rw [h0]; simp only [Nat.pow_zero]; omega
    · rename_i h0
      have h2 : 2 ^ (n / 2 ^ F.m) = 2 * 2 ^ (n / 2 ^ F.m - 1) := by
        rw [← Nat.pow_succ']; congr 1; revert h0; generalize n / 2 ^ F.m = q; omega
      rw [h2, ← Nat.mul_assoc]
      exact Nat.mul_lt_mul_of_pos_right (by omega) (Nat.two_pow_pos _)

theorem magValue_strictMono (F : Fmt) : StrictMono (magValue F) := by
  intro a b h
  rw [magValue_eq, magValue_eq]
  exact mul_lt_mul_of_pos_right (by exact_mod_cast scaled_strictMono F h) (tiniest_pos F)

@[simp] theorem magValue_zero (F : Fmt) : magValue F 0 = 0 := by
  simp [magValue_eq, scaled]

theorem magValue_nonneg (F : Fmt) (n : Nat) : 0 ≤ magValue F n := by
  rw [magValue_eq]; have := tiniest_pos F; positivity

theorem magValue_pos {F : Fmt} {n : Nat} (h : 0 < n) : 0 < magValue F n := by
  have := magValue_strictMono F h; simpa using this

variable {F : Fmt}

/-- Values are ordered as positions on the line. -/
theorem value_lt_iff (x y : Flt F) : x.value < y.value ↔ x.key < y.key := by
  have hm := magValue_strictMono F
  unfold value key
  have hx := magValue_nonneg F x.mag
  have hy := magValue_nonneg F y.mag
  rcases hxn : x.neg <;> rcases hyn : y.neg <;> simp only [Bool.false_eq_true, if_false, if_true]
  · rw [hm.lt_iff_lt]; omega
  · constructor
    · intro h; linarith
    · intro h; omega
  · constructor
    · intro h
      by_contra hc
      have h1 : x.mag = 0 := by omega
      have h2 : y.mag = 0 := by omega
      rw [h1, h2] at h; simp at h
    · intro h
      rcases Nat.eq_zero_or_pos x.mag with h0 | h0
      · have := magValue_pos (F := F) (n := y.mag) (by omega)
        rw [h0]; simpa using this
      · have := magValue_pos (F := F) h0
        linarith
  · rw [neg_lt_neg_iff, hm.lt_iff_lt]; omega

theorem value_le_iff (x y : Flt F) : x.value ≤ y.value ↔ x.key ≤ y.key := by
  rw [← not_lt, ← not_lt, not_iff_not]; exact value_lt_iff y x

theorem value_eq_iff (x y : Flt F) : x.value = y.value ↔ x.key = y.key := by
  rw [le_antisymm_iff, le_antisymm_iff, value_le_iff, value_le_iff]

theorem not_isNaN_of_finite {x : Flt F} (h : x.finite) : ¬ x.isNaN := by
  unfold finite isNaN at *; omega

theorem infMag_ge (F : Fmt) : 3 * 2 ^ F.m ≤ infMag F := by
  unfold infMag
  refine Nat.mul_le_mul_right _ ?_
  have : 2 ^ 2 ≤ 2 ^ F.e := Nat.pow_le_pow_right (by omega) F.he
  omega

theorem max_finite (F : Fmt) : (Flt.max F).finite := by
  have := infMag_ge F
  have hp : 0 < 2 ^ F.m := Nat.two_pow_pos _
  unfold finite Flt.max; simp only; omega

theorem min_finite (F : Fmt) : (Flt.min F).finite := by
  have := infMag_ge F
  have hp : 0 < 2 ^ F.m := Nat.two_pow_pos _
  unfold finite Flt.min; simp only; omega

theorem key_le_max {x : Flt F} (h : x.finite) : x.key ≤ (Flt.max F).key := by
  unfold finite at h
  unfold key Flt.max
  simp only; split <;> simp only [Bool.false_eq_true, if_false] <;> omega

theorem lt_iff_value {x y : Flt F} (hx : x.finite) (hy : y.finite) : x < y ↔ x.value < y.value := by
  rw [value_lt_iff]
  exact ⟨fun h => h.2.2, fun h => ⟨not_isNaN_of_finite hx, not_isNaN_of_finite hy, h⟩⟩

theorem le_iff_value {x y : Flt F} (hx : x.finite) (hy : y.finite) : x ≤ y ↔ x.value ≤ y.value := by
  rw [value_le_iff]
  exact ⟨fun h => h.2.2, fun h => ⟨not_isNaN_of_finite hx, not_isNaN_of_finite hy, h⟩⟩

theorem beq_iff_value {x y : Flt F} (hx : x.finite) (hy : y.finite) : (x == y) = true ↔ x.value = y.value := by
  rw [value_eq_iff]
  show decide (¬ x.isNaN ∧ ¬ y.isNaN ∧ x.key = y.key) = true ↔ _
  simp [not_isNaN_of_finite hx, not_isNaN_of_finite hy]

theorem natAbs_key (x : Flt F) : x.key.natAbs = x.mag := by
  unfold key; split <;> omega

theorem finite_iff_key (x : Flt F) : x.finite ↔ -(infMag F : Int) < x.key ∧ x.key < infMag F := by
  have := natAbs_key x
  unfold finite; omega

/-- A step up the line. -/
theorem nextToward_up {x y : Flt F} (hx : x.finite) (hy : y.finite) (h : x.key < y.key) :
    (x.nextToward y).key = x.key + 1 ∧ (x.nextToward y).finite := by
  have hk : (x.nextToward y).key = x.key + 1 := by
    unfold nextToward
    rw [if_neg (fun h => h.elim (not_isNaN_of_finite hx) (not_isNaN_of_finite hy)), if_neg (by omega)]
    by_cases h0 : x.mag = 0
    · have hx0 : x.key = 0 := by have := natAbs_key x; omega
      have : ¬ y.key < 0 := by omega
      rw [if_pos h0, hx0]
      simp only [this, decide_true, decide_false]; rfl
    · rw [if_neg h0, if_pos h]
      rcases hn : x.neg <;> simp only [key, hn, Bool.false_eq_true, if_false, if_true] <;> omega
  refine ⟨hk, (finite_iff_key _).2 ?_⟩
  have h1 := (finite_iff_key x).1 hx
  have h2 := (finite_iff_key y).1 hy
  omega

/-- A step down the line. -/
theorem nextToward_down {x y : Flt F} (hx : x.finite) (hy : y.finite) (h : y.key < x.key) :
    (x.nextToward y).key = x.key - 1 ∧ (x.nextToward y).finite := by
  have hk : (x.nextToward y).key = x.key - 1 := by
    unfold nextToward
    rw [if_neg (fun h => h.elim (not_isNaN_of_finite hx) (not_isNaN_of_finite hy)), if_neg (by omega)]
    by_cases h0 : x.mag = 0
    · have hx0 : x.key = 0 := by have := natAbs_key x; omega
      have : y.key < 0 := by omega
      rw [if_pos h0, hx0]
      simp only [this, decide_true, decide_false]; rfl
    · rw [if_neg h0, if_neg (by omega)]
      rcases hn : x.neg <;> simp only [key, hn, Bool.false_eq_true, if_false, if_true] <;> omega
  refine ⟨hk, (finite_iff_key _).2 ?_⟩
  have h1 := (finite_iff_key x).1 hx
  have h2 := (finite_iff_key y).1 hy
  omega

theorem nextToward_eq {x y : Flt F} (hx : x.finite) (hy : y.finite) (h : x.key = y.key) : x.nextToward y = y := by
  unfold nextToward
  rw [if_neg (fun h => h.elim (not_isNaN_of_finite hx) (not_isNaN_of_finite hy)), if_pos h]

end Wite.Maths.Flt
