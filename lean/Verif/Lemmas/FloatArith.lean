import Verif.Model.FloatArith
import Verif.Lemmas.Float
import Mathlib.Data.Nat.Log
import Mathlib.Tactic.FieldSimp
import Mathlib.Algebra.Order.Floor.Ring
import Mathlib.Tactic.NormNum

/-!
# Lemmas: rounding and floating-point arithmetic
-/

namespace Wite.Maths.Flt

open Wite.Maths

theorem scaled_at (F : Fmt) (k j : Nat) (h : k = 0 ∨ 2 ^ F.m ≤ j) (hj : j ≤ 2 ^ (F.m + 1)) :
    scaled F (k * 2 ^ F.m + j) = j * 2 ^ k := by
  have hp : 0 < 2 ^ F.m := Nat.two_pow_pos _
  have h2 : 2 ^ (F.m + 1) = 2 * 2 ^ F.m := by rw [Nat.pow_succ]; omega
  by_cases hlt : j < 2 ^ F.m
  · have hk : k = 0 := h.elim id (fun h => absurd hlt (by omega))
    subst hk
    unfold scaled
    simp [Nat.div_eq_of_lt hlt, Nat.mod_eq_of_lt hlt]
  · obtain ⟨i, rfl⟩ : ∃ i, j = 2 ^ F.m + i := ⟨j - 2 ^ F.m, by omega⟩
    have e : k * 2 ^ F.m + (2 ^ F.m + i) = i + (k + 1) * 2 ^ F.m := by rw [Nat.add_mul]; omega
    unfold scaled
    rw [e, Nat.add_mul_div_right _ _ hp, Nat.add_mul_mod_self_right]
    by_cases hi : i < 2 ^ F.m
    · rw [Nat.div_eq_of_lt hi, Nat.mod_eq_of_lt hi, if_neg (by omega)]
      simp
    · have hi' : i = 2 ^ F.m := by omega
      subst hi'
      rw [Nat.div_self hp, Nat.mod_self, if_neg (by omega)]
      have e3 : 1 + (k + 1) - 1 = k + 1 := by omega
      rw [e3, Nat.pow_succ, Nat.add_zero]
      ring

/-- The numbers just below and just above `r`. -/
theorem floorMag_spec (F : Fmt) (r : ℚ) (hr : 0 ≤ r) :
    magValue F (floorMag F r) ≤ r ∧ r < magValue F (floorMag F r + 1) := by
  have ht := tiniest_pos F
  have hs0 : 0 ≤ r / tiniest F := div_nonneg hr (le_of_lt ht)
  obtain ⟨n, hn⟩ : ∃ n : Nat, ⌊r / tiniest F⌋.toNat = n := ⟨_, rfl⟩
  have hfl : (n : ℤ) = ⌊r / tiniest F⌋ := by
    rw [← hn]; exact Int.toNat_of_nonneg (Int.floor_nonneg.2 hs0)
  have h1 : (n : ℚ) ≤ r / tiniest F := by
    have := Int.floor_le (r / tiniest F); rw [← hfl] at this; exact_mod_cast this
  have h2 : r / tiniest F < (n : ℚ) + 1 := by
    have := Int.lt_floor_add_one (r / tiniest F); rw [← hfl] at this; exact_mod_cast this
  have hdef : floorMag F r = (Nat.log2 n - F.m) * 2 ^ F.m + n / 2 ^ (Nat.log2 n - F.m) := by
    unfold floorMag; change ⌊r / 2 ^ (1 - bias F - F.m)⌋.toNat = n at hn
    simp only [hn]
  obtain ⟨k, hk⟩ : ∃ k, Nat.log2 n - F.m = k := ⟨_, rfl⟩
  obtain ⟨j, hj⟩ : ∃ j, n / 2 ^ k = j := ⟨_, rfl⟩
  rw [hk, hj] at hdef
  have hpk : 0 < 2 ^ k := Nat.two_pow_pos _
  have hj1 : j * 2 ^ k ≤ n := by rw [← hj]; exact Nat.div_mul_le_self n (2 ^ k)
  have hj2 : n < (j + 1) * 2 ^ k := by
    rw [← hj]
    have := Nat.lt_mul_div_succ n hpk
    rw [Nat.mul_comm]; exact this
  have hlt : n < 2 ^ (Nat.log2 n + 1) := Nat.lt_log2_self
  have hjle : j + 1 ≤ 2 ^ (F.m + 1) := by
    have hexp : 2 ^ (Nat.log2 n + 1) ≤ 2 ^ (F.m + 1) * 2 ^ k := by
      rw [← Nat.pow_add]; exact Nat.pow_le_pow_right (by omega) (by omega)
    have : j * 2 ^ k < 2 ^ (F.m + 1) * 2 ^ k := by omega
    exact Nat.lt_of_mul_lt_mul_right this
  have hcond : k = 0 ∨ 2 ^ F.m ≤ j := by
    by_cases h0 : k = 0
    · left; exact h0
    · right
      have hn0 : n ≠ 0 := by
        intro h; subst h; simp at hk; omega
      have hle : 2 ^ Nat.log2 n ≤ n := Nat.log2_self_le hn0
      rw [← hj, Nat.le_div_iff_mul_le hpk, ← Nat.pow_add]
      have : F.m + k = Nat.log2 n := by omega
      rw [this]; exact hle
  have e1 : scaled F (k * 2 ^ F.m + j) = j * 2 ^ k := scaled_at F k j hcond (by omega)
  have e2 : scaled F (k * 2 ^ F.m + (j + 1)) = (j + 1) * 2 ^ k :=
    scaled_at F k (j + 1) (hcond.imp id (by omega)) hjle
  rw [hdef, magValue_eq, Nat.add_assoc, magValue_eq, e1, e2]
  constructor
  · rw [← le_div_iff₀ ht]
    refine le_trans ?_ h1
    exact_mod_cast hj1
  · rw [← div_lt_iff₀ ht]
    refine lt_of_lt_of_le h2 ?_
    exact_mod_cast hj2

/-- `g` is the magnitude below `r`. -/
theorem floorMag_unique {F : Fmt} {r : ℚ} (hr : 0 ≤ r) {g : Nat} (h1 : magValue F g ≤ r) (h2 : r < magValue F (g + 1)) :
    floorMag F r = g := by
  obtain ⟨h3, h4⟩ := floorMag_spec F r hr
  have a := (magValue_strictMono F).lt_iff_lt.1 (lt_of_le_of_lt h1 h4)
  have b := (magValue_strictMono F).lt_iff_lt.1 (lt_of_le_of_lt h3 h2)
  omega

theorem floorMag_mono {F : Fmt} {r s : ℚ} (hr : 0 ≤ r) (h : r ≤ s) : floorMag F r ≤ floorMag F s := by
  obtain ⟨h1, _⟩ := floorMag_spec F r hr
  obtain ⟨_, h4⟩ := floorMag_spec F s (le_trans hr h)
  have := (magValue_strictMono F).lt_iff_lt.1 (lt_of_le_of_lt h1 (lt_of_le_of_lt h h4))
  omega

theorem roundMag_near {F : Fmt} (r : ℚ) : roundMag F r = floorMag F r ∨ roundMag F r = floorMag F r + 1 := by
  unfold roundMag
  simp only
  split
  · left; rfl
  · split
    · right; rfl
    · split
      · left; rfl
      · right; rfl

theorem roundMag_mono {F : Fmt} {r s : ℚ} (hr : 0 ≤ r) (h : r ≤ s) : roundMag F r ≤ roundMag F s := by
  have hf := floorMag_mono (F := F) hr h
  rcases Nat.lt_or_eq_of_le hf with hlt | heq
  · have := roundMag_near (F := F) r
    have := roundMag_near (F := F) s
    omega
  · unfold roundMag
    simp only [heq]
    generalize (magValue F (floorMag F s) + magValue F (floorMag F s + 1)) / 2 = mid
    rcases lt_trichotomy r mid with h1 | h1 | h1
    · rw [if_pos h1]; split_ifs <;> omega
    · subst h1
      rw [if_neg (lt_irrefl _), if_neg (lt_irrefl _), if_neg (not_lt.2 h)]
      split_ifs <;> omega
    · rw [if_neg (not_lt_of_gt h1), if_pos h1, if_neg (not_lt_of_gt (lt_of_lt_of_le h1 h)), if_pos (lt_of_lt_of_le h1 h)]

theorem roundMag_exact (F : Fmt) (n : Nat) : roundMag F (magValue F n) = n := by
  have hm := magValue_strictMono F (Nat.lt_succ_self n)
  have e : floorMag F (magValue F n) = n := floorMag_unique (magValue_nonneg F n) (le_refl _) hm
  unfold roundMag
  simp only [e]
  rw [if_pos]
  have : magValue F n < magValue F (n + 1) := hm
  linarith

theorem roundMag_le {F : Fmt} {r : ℚ} (hr : 0 ≤ r) {n : Nat} (h : r ≤ magValue F n) : roundMag F r ≤ n := by
  have := roundMag_mono (F := F) hr h
  rwa [roundMag_exact] at this

theorem le_roundMag {F : Fmt} {r : ℚ} {n : Nat} (h : magValue F n ≤ r) : n ≤ roundMag F r := by
  have := roundMag_mono (F := F) (magValue_nonneg F n) h
  rwa [roundMag_exact] at this

/-- No representable number is nearer than the rounded one. -/
theorem roundMag_nearest {F : Fmt} (r : ℚ) (hr : 0 ≤ r) (n : Nat) :
    |r - magValue F (roundMag F r)| ≤ |r - magValue F n| := by
  obtain ⟨h1, h2⟩ := floorMag_spec F r hr
  have hm := (magValue_strictMono F).monotone
  rcases Nat.lt_or_ge (floorMag F r) n with hn | hn
  · have h3 : magValue F (floorMag F r + 1) ≤ magValue F n := hm hn
    rw [abs_sub_comm r (magValue F n), abs_of_nonneg (by linarith : 0 ≤ magValue F n - r)]
    unfold roundMag; simp only
    split
    · rw [abs_of_nonneg (by linarith)]; linarith
    · split
      · rw [abs_sub_comm, abs_of_nonneg (by linarith)]; linarith
      · split
        · rw [abs_of_nonneg (by linarith)]; linarith
        · rw [abs_sub_comm, abs_of_nonneg (by linarith)]; linarith
  · have h3 : magValue F n ≤ magValue F (floorMag F r) := hm hn
    rw [abs_of_nonneg (by linarith : 0 ≤ r - magValue F n)]
    unfold roundMag; simp only
    split
    · rw [abs_of_nonneg (by linarith)]; linarith
    · split
      · rw [abs_sub_comm, abs_of_nonneg (by linarith)]; linarith
      · split
        · rw [abs_of_nonneg (by linarith)]; linarith
        · rw [abs_sub_comm, abs_of_nonneg (by linarith)]; linarith

@[simp] theorem roundMag_zero (F : Fmt) : roundMag F 0 = 0 := by
  have := roundMag_exact F 0; simpa using this

variable {F G : Fmt}

/-! ## Rounding of signed numbers -/

theorem cap_mono {a b : Nat} (c : Nat) (h : a ≤ b) : Nat.min a c ≤ Nat.min b c := by
  have e1 : Nat.min a c = a ⊓ c := rfl
  have e2 : Nat.min b c = b ⊓ c := rfl
  rw [e1, e2]; omega

theorem key_ofRat (s : Bool) (q : ℚ) :
    (ofRat F s q).key = if q < 0 then -((Nat.min (roundMag F |q|) (infMag F) : Nat) : Int) else ((Nat.min (roundMag F |q|) (infMag F) : Nat) : Int) := by
  unfold ofRat key
  by_cases h0 : q = 0
  · subst h0; simp
  · rw [if_neg h0]
    by_cases h : q < 0
    · simp only [h, decide_true, if_true]
    · simp only [h, decide_false, Bool.false_eq_true, if_false]

theorem ofRat_not_nan (s : Bool) (q : ℚ) : ¬ (ofRat F s q).isNaN := by
  unfold ofRat isNaN
  split
  · simp
  · simp only [not_lt]; exact Nat.min_le_right _ _

/-- Rounding is monotone, also where it overflows. -/
theorem ofRat_mono {q r : ℚ} (h : q ≤ r) (s t : Bool) : (ofRat F s q).key ≤ (ofRat F t r).key := by
  rw [key_ofRat, key_ofRat]
  split
  · rename_i hq
    split
    · rename_i hr
      have : roundMag F |r| ≤ roundMag F |q| :=
        roundMag_mono (abs_nonneg _) (by rw [abs_of_neg hq, abs_of_neg hr]; linarith)
      have := cap_mono (infMag F) this
      omega
    · omega
  · rename_i hq
    have hq' := not_lt.1 hq
    rw [if_neg (not_lt.2 (le_trans hq' h))]
    have : roundMag F |q| ≤ roundMag F |r| :=
      roundMag_mono (abs_nonneg _) (by rw [abs_of_nonneg hq', abs_of_nonneg (le_trans hq' h)]; exact h)
    have := cap_mono (infMag F) this
    omega

theorem abs_value (x : Flt F) : |x.value| = magValue F x.mag := by
  unfold value
  split
  · rw [abs_neg, abs_of_nonneg (magValue_nonneg _ _)]
  · rw [abs_of_nonneg (magValue_nonneg _ _)]

/-- Representable numbers are rounded to themselves. -/
theorem ofRat_value {x : Flt F} (hx : x.finite) (s : Bool) : (ofRat F s x.value).key = x.key := by
  rw [key_ofRat, abs_value, roundMag_exact]
  have hmin : Nat.min x.mag (infMag F) = x.mag := Nat.min_eq_left (Nat.le_of_lt hx)
  rw [hmin]
  unfold key value
  rcases hn : x.neg
  · simp only [Bool.false_eq_true, if_false]
    rw [if_neg (not_lt.2 (magValue_nonneg _ _))]
  · simp only [if_true]
    rcases Nat.eq_zero_or_pos x.mag with h0 | h0
    · simp [h0]
    · rw [if_pos (by have := magValue_pos (F := F) h0; linarith)]

/-- A rounded number is below a representable one if the exact number is. -/
theorem ofRat_le {q : ℚ} {x : Flt F} (hx : x.finite) (h : q ≤ x.value) (s : Bool) : (ofRat F s q).key ≤ x.key := by
  have := ofRat_mono h s s (F := F)
  rwa [ofRat_value hx] at this

theorem le_ofRat {q : ℚ} {x : Flt F} (hx : x.finite) (h : x.value ≤ q) (s : Bool) : x.key ≤ (ofRat F s q).key := by
  have := ofRat_mono h s s (F := F)
  rwa [ofRat_value hx] at this

/-- What lies between finite numbers is rounded to a finite number. -/
theorem ofRat_finite {q : ℚ} {x y : Flt F} (hx : x.finite) (hy : y.finite) (h1 : x.value ≤ q) (h2 : q ≤ y.value) (s : Bool) :
    (ofRat F s q).finite := by
  have a := le_ofRat hx h1 s
  have b := ofRat_le hy h2 s
  rw [finite_iff_key] at *
  omega

theorem le_def {x y : Flt F} : x ≤ y ↔ ¬ x.isNaN ∧ ¬ y.isNaN ∧ x.key ≤ y.key := Iff.rfl

theorem beq_def {x y : Flt F} : (x == y) = true ↔ ¬ x.isNaN ∧ ¬ y.isNaN ∧ x.key = y.key := by
  show decide _ = true ↔ _
  simp only [decide_eq_true_eq]

/-! ## Operations on finite numbers -/

theorem negate_finite {x : Flt F} (h : x.finite) : x.negate.finite := h

theorem negate_key (x : Flt F) : x.negate.key = -x.key := by
  unfold negate key; cases x.neg <;> simp

theorem negate_value (x : Flt F) : x.negate.value = -x.value := by
  unfold negate value; cases x.neg <;> simp

theorem add_finite {x y : Flt F} (hx : x.finite) (hy : y.finite) :
    x.add y = ofRat F (x.neg && y.neg) (x.value + y.value) := by
  unfold add
  rw [if_neg (by rintro (h | h); exact not_isNaN_of_finite hx h; exact not_isNaN_of_finite hy h),
    if_neg (by simpa using hx), if_neg (by simpa using hy)]

theorem sub_finite {x y : Flt F} (hx : x.finite) (hy : y.finite) :
    x.sub y = ofRat F (x.neg && !y.neg) (x.value - y.value) := by
  unfold sub
  rw [add_finite hx (negate_finite hy), negate_value, sub_eq_add_neg]; rfl

theorem mul_finite {x y : Flt F} (hx : x.finite) (hy : y.finite) :
    x.mul y = ofRat F (x.neg != y.neg) (x.value * y.value) := by
  unfold mul
  rw [if_neg (by rintro (h | h); exact not_isNaN_of_finite hx h; exact not_isNaN_of_finite hy h),
    if_neg (by simp [hx, hy])]

theorem mag_zero_iff {x : Flt F} : x.mag = 0 ↔ x.value = 0 := by
  rw [← abs_eq_zero, abs_value]
  constructor
  · intro h; rw [h]; simp
  · intro h
    by_contra hc
    have := magValue_pos (F := F) (Nat.pos_of_ne_zero hc)
    linarith

theorem div_finite {x y : Flt F} (hx : x.finite) (hy : y.finite) (h0 : y.value ≠ 0) :
    x.div y = ofRat F (x.neg != y.neg) (x.value / y.value) := by
  unfold div
  rw [if_neg (by rintro (h | h); exact not_isNaN_of_finite hx h; exact not_isNaN_of_finite hy h),
    if_neg (by simpa using hx), if_neg (by simpa using hy), if_neg (fun h => h0 (mag_zero_iff.1 h))]

theorem convert_finite {x : Flt F} (hx : x.finite) : x.convert G = ofRat G x.neg x.value := by
  unfold convert
  rw [if_neg (not_isNaN_of_finite hx), if_neg (by simpa using hx)]

/-! ## Monotonicity of the operations -/

theorem inf_key {x : Flt F} (hn : ¬ x.isNaN) (hf : ¬ x.finite) : x.key = if x.neg then -(infMag F : Int) else infMag F := by
  unfold isNaN at hn
  unfold finite at hf
  have : x.mag = infMag F := by omega
  unfold key; rw [this]

theorem key_bounds {x : Flt F} (hn : ¬ x.isNaN) : -(infMag F : Int) ≤ x.key ∧ x.key ≤ infMag F := by
  have := natAbs_key x
  unfold isNaN at hn; omega

/-- Converting is monotone. -/
theorem convert_mono {x y : Flt F} (h : x ≤ y) : x.convert G ≤ y.convert G := by
  obtain ⟨hx, hy, hk⟩ := h
  have hpos : 0 < infMag F := by have := infMag_ge F; have : 0 < 2 ^ F.m := Nat.two_pow_pos _; omega
  by_cases fx : x.finite
  · by_cases fy : y.finite
    · rw [convert_finite fx, convert_finite fy]
      exact ⟨ofRat_not_nan _ _, ofRat_not_nan _ _, ofRat_mono ((value_le_iff _ _).2 hk) _ _⟩
    · have hyk := inf_key hy fy
      have hyn : y.neg = false := by
        by_contra hc
        rw [if_pos (by simpa using hc)] at hyk
        have := (finite_iff_key x).1 fx; omega
      have e : y.convert G = ⟨false, infMag G⟩ := by unfold convert; rw [if_neg hy, if_pos fy, hyn]
      rw [convert_finite fx, e]
      refine ⟨ofRat_not_nan _ _, by simp [isNaN], ?_⟩
      exact (key_bounds (ofRat_not_nan _ _)).2
  · have hxk := inf_key hx fx
    have e : x.convert G = ⟨x.neg, infMag G⟩ := by unfold convert; rw [if_neg hx, if_pos fx]
    rcases hxn : x.neg
    · rw [hxn] at hxk
      simp only [Bool.false_eq_true, if_false] at hxk
      have fy : ¬ y.finite := by
        intro fy; have := (finite_iff_key y).1 fy; omega
      have hyk := inf_key hy fy
      have hyn : y.neg = false := by
        by_contra hc
        rw [if_pos (by simpa using hc)] at hyk
        omega
      have e' : y.convert G = ⟨false, infMag G⟩ := by unfold convert; rw [if_neg hy, if_pos fy, hyn]
      rw [e, e', hxn]
      exact ⟨by simp [isNaN], by simp [isNaN], Int.le_refl _⟩
    · rw [e, hxn]
      have hy' : ¬ (y.convert G).isNaN := by
        unfold convert
        rw [if_neg hy]
        split
        · simp [isNaN]
        · exact ofRat_not_nan _ _
      refine ⟨by simp [isNaN], hy', ?_⟩
      have := (key_bounds hy').1
      simp only [key, if_true]; exact this

/-- Adding a finite number is monotone. -/
theorem add_mono {x y z : Flt F} (hx : x.finite) (h : y ≤ z) : x.add y ≤ x.add z := by
  obtain ⟨hy, hz, hk⟩ := h
  have hxn := not_isNaN_of_finite hx
  have hadd : ∀ w : Flt F, ¬ w.isNaN → x.add w = if w.finite then ofRat F (x.neg && w.neg) (x.value + w.value) else w := by
    intro w hw
    by_cases fw : w.finite
    · rw [add_finite hx fw, if_pos fw]
    · unfold add
      rw [if_neg (by rintro (h | h); exact hxn h; exact hw h), if_neg (by simpa using hx), if_pos fw, if_neg fw]
  rw [hadd y hy, hadd z hz]
  by_cases fy : y.finite
  · rw [if_pos fy]
    by_cases fz : z.finite
    · rw [if_pos fz]
      refine ⟨ofRat_not_nan _ _, ofRat_not_nan _ _, ofRat_mono ?_ _ _⟩
      have := (value_le_iff y z).2 hk; linarith
    · rw [if_neg fz]
      refine ⟨ofRat_not_nan _ _, hz, ?_⟩
      have hzk := inf_key hz fz
      have := (finite_iff_key y).1 fy
      have hb := (key_bounds (ofRat_not_nan (F := F) (x.neg && y.neg) (x.value + y.value))).2
      split at hzk <;> omega
  · rw [if_neg fy]
    by_cases fz : z.finite
    · rw [if_pos fz]
      refine ⟨hy, ofRat_not_nan _ _, ?_⟩
      have hyk := inf_key hy fy
      have := (finite_iff_key z).1 fz
      have hb := (key_bounds (ofRat_not_nan (F := F) (x.neg && z.neg) (x.value + z.value))).1
      split at hyk <;> omega
    · rw [if_neg fz]; exact ⟨hy, hz, hk⟩

/-- Multiplying by a finite number that is not negative is monotone. -/
theorem mul_mono {x y d : Flt F} (hx : x.finite) (hy : y.finite) (hd : d.finite) (h0 : 0 ≤ d.value) (h : x ≤ y) :
    x.mul d ≤ y.mul d := by
  rw [mul_finite hx hd, mul_finite hy hd]
  exact ⟨ofRat_not_nan _ _, ofRat_not_nan _ _,
    ofRat_mono (mul_le_mul_of_nonneg_right ((le_iff_value hx hy).1 h) h0) _ _⟩

/-! ## What is representable -/

/-- Numbers `j * 2^z` with a short significand are representable if the exponent is not too small. -/
theorem representable (F : Fmt) (j : Nat) (z : Int) (hj : j ≤ 2 ^ (F.m + 1)) (hz : 1 - bias F - F.m ≤ z) :
    ∃ n, magValue F n = j * 2 ^ z := by
  obtain ⟨d, hd⟩ : ∃ d : Nat, z = (1 - bias F - F.m) + d := ⟨(z - (1 - bias F - F.m)).toNat, by omega⟩
  clear hz
  have key : ∀ (k j : Nat), (k = 0 ∨ 2 ^ F.m ≤ j) → j ≤ 2 ^ (F.m + 1) →
      magValue F (k * 2 ^ F.m + j) = j * 2 ^ ((1 - bias F - F.m) + (k : Int)) := by
    intro k j h1 h2
    rw [magValue_eq, scaled_at F k j h1 h2, zpow_add₀ (by norm_num), zpow_natCast]
    unfold tiniest; push_cast; ring
  induction d generalizing j z with
  | zero => exact ⟨_, by rw [key 0 j (Or.inl rfl) hj, hd]⟩
  | succ d ih =>
    by_cases h : 2 ^ F.m ≤ j
    · exact ⟨_, by rw [key (d + 1) j (Or.inr h) hj, hd]⟩
    · obtain ⟨n, hn⟩ := ih (2 * j) (z - 1) (by rw [Nat.pow_succ]; omega) (by push_cast at hd ⊢; omega)
      refine ⟨n, ?_⟩
      rw [hn, zpow_sub₀ (by norm_num)]
      push_cast; field_simp

/-- Every magnitude is a short significand times a power of two. -/
theorem magValue_form (F : Fmt) (n : Nat) : ∃ (j k : Nat), j ≤ 2 ^ (F.m + 1) ∧ k ≤ n / 2 ^ F.m ∧
    magValue F n = j * 2 ^ ((1 - bias F - F.m) + (k : Int)) := by
  have hp : 0 < 2 ^ F.m := Nat.two_pow_pos _
  have hlt := Nat.mod_lt n hp
  by_cases h : n / 2 ^ F.m = 0
  · refine ⟨n % 2 ^ F.m, 0, by rw [Nat.pow_succ]; omega, Nat.zero_le _, ?_⟩
    unfold magValue; simp [h]
  · refine ⟨2 ^ F.m + n % 2 ^ F.m, n / 2 ^ F.m - 1, by rw [Nat.pow_succ]; omega, Nat.sub_le _ _, ?_⟩
    unfold magValue
    simp only [h, if_false]
    push_cast [Nat.cast_sub (Nat.one_le_iff_ne_zero.2 h)]
    congr 2; ring

/-- Integers up to `2^(m+1)` are representable. -/
theorem natCast_representable (F : Fmt) (j : Nat) (hj : j ≤ 2 ^ (F.m + 1)) : ∃ n, magValue F n = j := by
  have hb : 0 ≤ bias F := by
    unfold bias
    have : (1 : Int) ≤ 2 ^ (F.e - 1) := by exact_mod_cast Nat.one_le_two_pow
    omega
  have hm := F.hm
  obtain ⟨n, hn⟩ := representable F j 0 hj (by omega)
  exact ⟨n, by rw [hn]; simp⟩

/-- Infinity's place on the line of values with unbounded exponent. -/
theorem magValue_inf (F : Fmt) : magValue F (infMag F) = 2 ^ (2 ^ (F.e - 1)) := by
  have hp : 0 < 2 ^ F.m := Nat.two_pow_pos _
  have he : 2 ^ F.e = 2 * 2 ^ (F.e - 1) := by
    rw [← Nat.pow_succ']; congr 1; have := F.he; omega
  have h1 : 1 ≤ 2 ^ (F.e - 1) := Nat.one_le_two_pow
  unfold magValue infMag
  rw [Nat.mul_div_cancel _ hp, Nat.mul_mod_left]
  simp only
  rw [if_neg (by omega)]
  have e2 : (((2 ^ F.e - 1 : Nat) : Int) - bias F - F.m) = ((2 ^ (F.e - 1) : Nat) : Int) + (-(F.m : Int)) := by
    unfold bias
    rw [he]
    push_cast [Nat.cast_sub (show 1 ≤ 2 * 2 ^ (F.e - 1) by omega)]
    ring
  rw [e2, zpow_add₀ (by norm_num), zpow_natCast, zpow_neg, zpow_natCast]
  push_cast; field_simp; simp

/-- Numbers below `2^(2^(e-1))` are finite. -/
theorem finite_of_value_lt {n : Nat} (h : magValue F n < 2 ^ (2 ^ (F.e - 1))) : n < infMag F := by
  rw [← magValue_inf] at h
  exact (magValue_strictMono F).lt_iff_lt.1 h

theorem value_lt_of_finite {n : Nat} (h : n < infMag F) : magValue F n < 2 ^ (2 ^ (F.e - 1)) := by
  rw [← magValue_inf]; exact magValue_strictMono F h

/-- The format `G` has at least the exponent range and precision of `F`. -/
def Wider (F G : Fmt) : Prop := F.e ≤ G.e ∧ F.m ≤ G.m

theorem wider_representable (h : Wider F G) (n : Nat) (hn : n < infMag F) :
    ∃ n', magValue G n' = magValue F n ∧ n' < infMag G := by
  obtain ⟨j, k, hj, _, hv⟩ := magValue_form F n
  have hb : bias F ≤ bias G := by
    unfold bias
    have := Nat.pow_le_pow_right (n := 2) (by omega) (show F.e - 1 ≤ G.e - 1 by have := h.1; omega)
    have : (2 : Int) ^ (F.e - 1) ≤ 2 ^ (G.e - 1) := by exact_mod_cast this
    omega
  obtain ⟨n', hn'⟩ := representable G j ((1 - bias F - F.m) + (k : Int))
    (le_trans hj (Nat.pow_le_pow_right (by omega) (by have := h.2; omega))) (by have := h.2; omega)
  refine ⟨n', by rw [hn', hv], finite_of_value_lt ?_⟩
  rw [hn', ← hv]
  refine lt_of_lt_of_le (value_lt_of_finite hn) ?_
  have : 2 ^ (F.e - 1) ≤ 2 ^ (G.e - 1) := Nat.pow_le_pow_right (by omega) (by have := h.1; omega)
  exact pow_le_pow_right₀ (by norm_num) this

/-- Converting to a wider format is exact. -/
theorem convert_exact (h : Wider F G) {x : Flt F} (hx : x.finite) :
    (x.convert G).finite ∧ (x.convert G).value = x.value := by
  obtain ⟨n', h1, h2⟩ := wider_representable h x.mag hx
  have hv : (⟨x.neg, n'⟩ : Flt G).value = x.value := by unfold value; simp only [h1]
  have hf : (⟨x.neg, n'⟩ : Flt G).finite := h2
  rw [convert_finite hx, ← hv]
  have hk := ofRat_value hf x.neg
  refine ⟨?_, (value_eq_iff _ _).2 hk⟩
  rw [finite_iff_key] at *
  rw [hk]; exact hf

theorem value_mul_tiniest (x : Flt F) : ∃ k : Int, x.value = k * tiniest F := by
  unfold value
  split
  · exact ⟨-(scaled F x.mag : Int), by rw [magValue_eq]; push_cast; ring⟩
  · exact ⟨(scaled F x.mag : Int), by rw [magValue_eq]; push_cast; ring⟩

theorem magValue_one (F : Fmt) : magValue F 1 = tiniest F := by
  rw [magValue_eq]
  have h1 : 1 < 2 ^ F.m := Nat.one_lt_two_pow (by have := F.hm; omega)
  simp [scaled, Nat.div_eq_of_lt h1, Nat.mod_eq_of_lt h1]

/-- Different numbers are at least the smallest subnormal number apart. -/
theorem tiniest_le_sub {x y : Flt F} (h : x.value < y.value) : tiniest F ≤ y.value - x.value := by
  obtain ⟨k, hk⟩ := value_mul_tiniest x
  obtain ⟨l, hl⟩ := value_mul_tiniest y
  have ht := tiniest_pos F
  rw [hk, hl] at h ⊢
  have hkl : (k : ℚ) < l := lt_of_mul_lt_mul_right h (le_of_lt ht)
  have : (k : ℚ) + 1 ≤ l := by exact_mod_cast hkl
  nlinarith

theorem one_finite (F : Fmt) : (⟨false, 1⟩ : Flt F).finite := by
  have := infMag_ge F
  have hp : 0 < 2 ^ F.m := Nat.two_pow_pos _
  unfold finite; simp only; omega

theorem value_nonneg_of_key {x : Flt F} (h : 0 ≤ x.key) : 0 ≤ x.value := by
  have := (value_le_iff (⟨false, 0⟩ : Flt F) x).2 (by simpa [key] using h)
  simpa [value] using this

theorem zero_finite (F : Fmt) (s : Bool) : (⟨s, 0⟩ : Flt F).finite := by
  have := infMag_ge F
  have hp : 0 < 2 ^ F.m := Nat.two_pow_pos _
  unfold finite; simp only; omega

theorem zero_value (F : Fmt) (s : Bool) : (⟨s, 0⟩ : Flt F).value = 0 := by
  unfold value; cases s <;> simp

/-- The difference of different finite numbers is positive after rounding. -/
theorem sub_pos {x y : Flt F} (hx : x.finite) (hy : y.finite) (h : x.value < y.value) : 0 < (y.sub x).value := by
  rw [sub_finite hy hx]
  have hone : (⟨false, 1⟩ : Flt F).value = tiniest F := by simp [value, magValue_one]
  have hle : (⟨false, 1⟩ : Flt F).value ≤ y.value - x.value := by rw [hone]; exact tiniest_le_sub h
  have hk := le_ofRat (one_finite F) hle (y.neg && !x.neg)
  have := (value_le_iff _ _).2 hk
  rw [hone] at this
  exact lt_of_lt_of_le (tiniest_pos F) this

theorem sub_nonneg {x y : Flt F} (hx : x.finite) (hy : y.finite) (h : x.value ≤ y.value) : 0 ≤ (y.sub x).value := by
  rcases lt_or_eq_of_le h with h | h
  · exact le_of_lt (sub_pos hx hy h)
  · rw [sub_finite hy hx, h, sub_self]
    unfold ofRat; rw [if_pos rfl, zero_value]

/-- A finite object for a value. -/
theorem exists_of_mag {n : Nat} {q : ℚ} (h : magValue F n = q) : (⟨false, n⟩ : Flt F).value = q := by
  simpa [value] using h

/-- Rounding of a representable number is exact. -/
theorem ofRat_exact {q : ℚ} {x : Flt F} (hx : x.finite) (h : x.value = q) (s : Bool) :
    (ofRat F s q).finite ∧ (ofRat F s q).value = q := by
  have hk := ofRat_value hx s
  rw [h] at hk
  refine ⟨?_, ?_⟩
  · rw [finite_iff_key] at *; rw [hk]; exact hx
  · rw [← h] at hk ⊢; exact (value_eq_iff _ _).2 hk

/-- Adjacent numbers differ by a factor of at most two. -/
theorem magValue_succ_le (F : Fmt) {n : Nat} (h : 1 ≤ n) : magValue F (n + 1) ≤ 2 * magValue F n := by
  have hp : 0 < 2 ^ F.m := Nat.two_pow_pos _
  have h2 : 2 ^ (F.m + 1) = 2 * 2 ^ F.m := by rw [Nat.pow_succ]; omega
  have hlt := Nat.mod_lt n hp
  have hn := Nat.div_add_mod n (2 ^ F.m)
  obtain ⟨k, j, e, h1, h3, h4⟩ : ∃ k j, n = k * 2 ^ F.m + j ∧ (k = 0 ∨ 2 ^ F.m ≤ j) ∧ j + 1 ≤ 2 ^ (F.m + 1) ∧ 1 ≤ j := by
    rcases Nat.eq_zero_or_pos (n / 2 ^ F.m) with h0 | h0
    · refine ⟨0, n, by omega, Or.inl rfl, ?_, h⟩
      rw [h0] at hn; omega
    · refine ⟨n / 2 ^ F.m - 1, 2 ^ F.m + n % 2 ^ F.m, ?_, Or.inr (by omega), by omega, by omega⟩
      obtain ⟨q, hq⟩ : ∃ q, n / 2 ^ F.m = q + 1 := ⟨n / 2 ^ F.m - 1, by omega⟩
      rw [hq] at hn ⊢
      have : 2 ^ F.m * (q + 1) = q * 2 ^ F.m + 2 ^ F.m := by ring
      simp only [Nat.add_sub_cancel]; omega
  have e1 : scaled F n = j * 2 ^ k := by rw [e]; exact scaled_at F k j h1 (by omega)
  have e2 : scaled F (n + 1) = (j + 1) * 2 ^ k := by
    rw [e, Nat.add_assoc]; exact scaled_at F k (j + 1) (by omega) h3
  rw [magValue_eq, magValue_eq, e1, e2, ← mul_assoc]
  refine mul_le_mul_of_nonneg_right ?_ (le_of_lt (tiniest_pos F))
  have : (j + 1) * 2 ^ k ≤ 2 * (j * 2 ^ k) := by
    rw [← Nat.mul_assoc]; exact Nat.mul_le_mul_right _ (by omega)
  exact_mod_cast this

/-- Halving what was rounded does not exceed the number that was rounded, above the smallest subnormal number. -/
theorem half_round_le {q : ℚ} (h : tiniest F ≤ q) :
    ∃ g, 1 ≤ g ∧ magValue F g ≤ q ∧ magValue F (roundMag F q) / 2 ≤ magValue F g := by
  have hq : 0 ≤ q := le_trans (le_of_lt (tiniest_pos F)) h
  obtain ⟨h1, h2⟩ := floorMag_spec F q hq
  have hg : 1 ≤ floorMag F q := by
    rw [← magValue_one] at h
    have := (magValue_strictMono F).lt_iff_lt.1 (lt_of_le_of_lt h h2)
    omega
  refine ⟨floorMag F q, hg, h1, ?_⟩
  have := magValue_succ_le F hg
  have := magValue_nonneg F (floorMag F q)
  rcases roundMag_near (F := F) q with e | e <;> rw [e] <;> linarith

/-- Converting to the same format changes nothing. -/
theorem convert_self {x : Flt F} (h : ¬ x.isNaN) : x.convert F = x := by
  by_cases hf : x.finite
  · rw [convert_finite hf]
    unfold ofRat
    split
    · rename_i h0
      have := mag_zero_iff.2 h0
      cases x; simp_all
    · rename_i h0
      rw [abs_value, roundMag_exact]
      have e1 : Nat.min x.mag (infMag F) = x.mag := Nat.min_eq_left (Nat.le_of_lt hf)
      have hm : 0 < x.mag := Nat.pos_of_ne_zero (fun h => h0 (mag_zero_iff.1 h))
      have hv := magValue_pos (F := F) hm
      have e2 : decide (x.value < 0) = x.neg := by
        unfold value
        cases x.neg <;> simp [hv, le_of_lt hv]
      rw [e1, e2]
  · unfold convert
    rw [if_neg h, if_pos hf]
    unfold isNaN at h
    unfold finite at hf
    have : x.mag = infMag F := by omega
    rw [← this]

/-- Non-negative whole numbers up to `2^(m+1)` are exact, in formats whose exponent reaches them. -/
theorem ofInt_exact {n : Int} (h0 : 0 ≤ n) (h1 : n ≤ 2 ^ (F.m + 1)) (he : F.m + 1 < 2 ^ (F.e - 1)) :
    (ofInt F n).finite ∧ (ofInt F n).value = n := by
  obtain ⟨k, rfl⟩ : ∃ k : Nat, n = k := ⟨n.toNat, by omega⟩
  have hk : k ≤ 2 ^ (F.m + 1) := by exact_mod_cast h1
  obtain ⟨g, hg⟩ := natCast_representable F k hk
  have hf : g < infMag F := by
    apply finite_of_value_lt
    rw [hg]
    refine lt_of_le_of_lt (b := (2 : ℚ) ^ (F.m + 1)) (by exact_mod_cast hk) ?_
    exact pow_lt_pow_right₀ (by norm_num) he
  unfold ofInt
  exact ofRat_exact (x := ⟨false, g⟩) hf (by simp [value, hg]) false

end Wite.Maths.Flt
