import Verif.Model.NumTy
import Verif.Lemmas.IntTy
import Verif.Lemmas.FloatArith

/-!
# Lemmas: conversions between number types
-/

namespace Wite.Maths.NumTy

open Wite Wite.Maths

/-- Some object of the type stands for the number. -/
def Holds (t : NumTy) (q : ℚ) : Prop := ∃ v : t.Val, t.ok v ∧ t.num v = some q

theorem num_int {t : IntTy} {v : Int} {q : ℚ} : num (.int t) v = some q ↔ (v : ℚ) = q := by
  show some (v : ℚ) = some q ↔ _
  exact Option.some_inj

theorem holds_int {t : IntTy} {q : ℚ} : Holds (.int t) q ↔ ∃ v : Int, 0 < t.bits ∧ t.holds v ∧ (v : ℚ) = q := by
  constructor
  · rintro ⟨v, h1, h2⟩
    exact ⟨v, h1.1, h1.2, num_int.1 h2⟩
  · rintro ⟨v, h1, h2, h3⟩
    exact ⟨v, ⟨h1, h2⟩, num_int.2 h3⟩

theorem num_flt {F : Fmt} {x : Flt F} {q : ℚ} : num (.flt F) x = some q ↔ x.finite ∧ x.value = q := by
  show (if x.mag < Flt.infMag F then some x.value else none) = some q ↔ _
  unfold Flt.finite
  by_cases h : x.mag < Flt.infMag F
  · rw [if_pos h]; simp [h]
  · rw [if_neg h]; simp [h]

theorem holds_flt {F : Fmt} {q : ℚ} : Holds (.flt F) q ↔ ∃ x : Flt F, x.finite ∧ x.value = q := by
  constructor
  · rintro ⟨v, _, h2⟩
    exact ⟨v, num_flt.1 h2⟩
  · rintro ⟨v, h⟩
    exact ⟨v, trivial, num_flt.2 h⟩

private theorem trunc_int (t : IntTy) {v : Int} (h : t.holds v) : truncTo t (v : ℚ) = .ok v := by
  unfold truncTo
  simp [h]

private theorem int_int (t : IntTy) (x : Int) (q : ℚ) (hx : (x : ℚ) = q) (h : Holds (.int t) q) :
    ∃ y : Int, t.wrap x = y ∧ (y : ℚ) = q ∧ 0 < t.bits ∧ t.holds y := by
  obtain ⟨v, h1, h2, h3⟩ := holds_int.1 h
  have hv : x = v := by exact_mod_cast hx.trans h3.symm
  exact ⟨v, by rw [hv, IntTy.wrap_of_holds h1 h2], h3, h1, h2⟩

/-- A conversion keeps a number the target type has. -/
theorem convert_num (s t : NumTy) (x : s.Val) (q : ℚ) (hx : s.num x = some q) (h : t.Holds q) :
    ∃ y, s.convert t x = .ok y ∧ t.num y = some q ∧ t.ok y := by
  cases s with
  | int s =>
    have hx' := num_int.1 hx
    cases t with
    | int t =>
      obtain ⟨y, h1, h2, h3⟩ := int_int t x q hx' h
      exact ⟨y, congrArg Outcome.ok h1, num_int.2 h2, h3⟩
    | flt F =>
      obtain ⟨y, h1, h2⟩ := holds_flt.1 h
      obtain ⟨h3, h4⟩ := Flt.ofRat_exact h1 h2 false
      refine ⟨Flt.ofRat F false q, congrArg Outcome.ok ?_, num_flt.2 ⟨h3, h4⟩, trivial⟩
      rw [← hx']; rfl
  | flt F =>
    obtain ⟨hf, hv⟩ := num_flt.1 hx
    cases t with
    | int t =>
      obtain ⟨v, h1, h2, h3⟩ := holds_int.1 h
      refine ⟨v, ?_, num_int.2 h3, h1, h2⟩
      show truncFlt (F := F) t x = Outcome.ok v
      unfold truncFlt
      rw [if_pos hf, hv, ← h3, trunc_int t h2]
    | flt G =>
      obtain ⟨y, h1, h2⟩ := holds_flt.1 h
      obtain ⟨h3, h4⟩ := Flt.ofRat_exact h1 h2 (Flt.neg (F := F) x)
      refine ⟨Flt.ofRat G (Flt.neg (F := F) x) q, congrArg Outcome.ok ?_, num_flt.2 ⟨h3, h4⟩, trivial⟩
      rw [← hv]
      exact Flt.convert_finite hf

private theorem same_int (a b : Int) : sameInt a b = true ↔ (a : ℚ) = b := by
  unfold sameInt
  rw [decide_eq_true_iff]
  exact Int.cast_inj.symm

/-- `==` compares the numbers. -/
theorem eqv_num (t : NumTy) (a b : t.Val) (p q : ℚ) (ha : t.num a = some p) (hb : t.num b = some q) :
    t.eqv a b = true ↔ p = q := by
  cases t with
  | int t =>
    rw [← num_int.1 ha, ← num_int.1 hb]
    exact same_int a b
  | flt F =>
    obtain ⟨h1, h2⟩ := num_flt.1 ha
    obtain ⟨h3, h4⟩ := num_flt.1 hb
    rw [← h2, ← h4]
    exact Flt.beq_iff_value h1 h3

end Wite.Maths.NumTy
