import Verif.Model.IntTy
import Mathlib.Tactic.Linarith
import Mathlib.Tactic.Ring

/-!
# Lemmas: integer types
-/

namespace Wite.Maths.IntTy

open Wite Wite.Maths

theorem range_eq (t : IntTy) (h : 0 < t.bits) : t.maxValue - t.minValue = 2 ^ t.bits - 1 := by
  unfold maxValue minValue
  split
  · obtain ⟨k, hk⟩ : ∃ k, t.bits = k + 1 := ⟨t.bits - 1, by omega⟩
    rw [hk, Nat.add_sub_cancel, pow_succ]; ring
  · ring

theorem wrap_of_holds {t : IntTy} (h : 0 < t.bits) {v : Int} (hv : t.holds v) : t.wrap v = v := by
  have := range_eq t h
  obtain ⟨h1, h2⟩ := hv
  unfold wrap
  rw [Int.emod_eq_of_lt (by omega) (by omega)]; omega

theorem holds_wrap {t : IntTy} (h : 0 < t.bits) (v : Int) : t.holds (t.wrap v) := by
  have := range_eq t h
  have hp : (0 : Int) < 2 ^ t.bits := Int.pow_pos (by omega)
  have h1 := Int.emod_nonneg (v - t.minValue) (by omega : (2 : Int) ^ t.bits ≠ 0)
  have h2 := Int.emod_lt_of_pos (v - t.minValue) hp
  unfold holds wrap
  omega

theorem promote_pos {t : IntTy} (h : 0 < t.bits) : 0 < t.promote.bits := by
  unfold promote; split
  · decide
  · exact h

theorem minValue_nonpos (t : IntTy) : t.minValue ≤ 0 := by
  unfold minValue; split
  · have : (0 : Int) < 2 ^ (t.bits - 1) := Int.pow_pos (by omega)
    omega
  · exact Int.le_refl _

theorem maxValue_nonneg (t : IntTy) : 0 ≤ t.maxValue := by
  unfold maxValue; split
  · have : (0 : Int) < 2 ^ (t.bits - 1) := Int.pow_pos (by omega)
    omega
  · have : (0 : Int) < 2 ^ t.bits := Int.pow_pos (by omega)
    omega

theorem holds_zero (t : IntTy) : t.holds 0 := ⟨t.minValue_nonpos, t.maxValue_nonneg⟩

/-- What a type holds, the promoted type holds. -/
theorem promote_holds {t : IntTy} {v : Int} (hv : t.holds v) : t.promote.holds v := by
  unfold promote
  split
  · rename_i h
    have hb : t.bits ≤ 31 := by have : int.bits = 32 := rfl; omega
    have h1 : (2 : Int) ^ (t.bits - 1) ≤ 2 ^ 31 := by
      have := Nat.pow_le_pow_right (n := 2) (by omega) (show t.bits - 1 ≤ 31 by omega)
      exact_mod_cast this
    have h2 : (2 : Int) ^ t.bits ≤ 2 ^ 31 := by
      have := Nat.pow_le_pow_right (n := 2) (by omega) hb
      exact_mod_cast this
    obtain ⟨a, b⟩ := hv
    have e1 : int.minValue = -2 ^ 31 := rfl
    have e2 : int.maxValue = 2 ^ 31 - 1 := rfl
    unfold holds
    rw [e1, e2]
    unfold minValue at a
    unfold maxValue at b
    split at a <;> rename_i hs <;> simp only [hs, if_true, if_false, Bool.false_eq_true] at b
    · omega
    · omega
  · exact hv

theorem result_of_holds {t : IntTy} (h : 0 < t.bits) {v : Int} (hv : t.holds v) : t.result v = .ok v := by
  rw [result, if_pos hv, wrap_of_holds h hv, ite_self]

/-- Arithmetic whose exact result fits the type is exact. -/
theorem add_ok {t : IntTy} (h : 0 < t.bits) {a b : Int} (hv : t.holds (a + b)) : t.add a b = .ok (a + b) :=
  result_of_holds (promote_pos h) (promote_holds hv)

theorem sub_ok {t : IntTy} (h : 0 < t.bits) {a b : Int} (hv : t.holds (a - b)) : t.sub a b = .ok (a - b) :=
  result_of_holds (promote_pos h) (promote_holds hv)

theorem promote_wide {t : IntTy} (hb : 32 ≤ t.bits) : t.promote = t := by
  unfold promote; rw [if_neg]; have : int.bits = 32 := rfl; omega

theorem result_ub {t : IntTy} (hs : t.signed = true) {v : Int} (hv : ¬ t.holds v) : t.result v = .ub := by
  unfold result; rw [if_pos hs, if_neg hv]

/-- A difference of values of a type that is unsigned or narrower than `int`, converted back to the type. -/
theorem sub_wrap {t : IntTy} (h : 0 < t.bits) (hs : t.signed = false ∨ t.bits < 32) {a b : Int} (ha : t.holds a)
    (hb : t.holds b) : (do let r ← t.sub a b; pure (t.wrap r)) = (.ok (t.wrap (a - b)) : Outcome Int) := by
  by_cases hw : 32 ≤ t.bits
  · have hu : t.signed = false := by rcases hs with h | h; exact h; omega
    rw [sub, promote_wide hw, result, hu, if_neg (by decide), Outcome.bind_ok, wrap_of_holds h (holds_wrap h _)]; rfl
  · have hp : t.promote = int := by
      unfold promote; rw [if_pos]; have : int.bits = 32 := rfl; omega
    have hr := range_eq t h
    have h31 : (2 : Int) ^ t.bits ≤ 2 ^ 31 := by
      have := Nat.pow_le_pow_right (n := 2) (by omega) (show t.bits ≤ 31 by omega)
      exact_mod_cast this
    have hh : int.holds (a - b) := by
      have e1 : int.minValue = -2 ^ 31 := rfl
      have e2 : int.maxValue = 2 ^ 31 - 1 := rfl
      obtain ⟨a1, a2⟩ := ha
      obtain ⟨b1, b2⟩ := hb
      unfold holds; rw [e1, e2]; omega
    rw [sub, hp, result_of_holds (by decide) hh, Outcome.bind_ok]; rfl

end Wite.Maths.IntTy
