import Verif.Model.ValueRange
import Verif.Lemmas.FloatArith
import Verif.Lemmas.FloatError
import Verif.Lemmas.IntTy
import Verif.Props.ValueRange
import Mathlib.Tactic.FieldSimp

/-!
# Properties C76, C104–C109: `interpolate`, `fraction`, `mid` and setters in floating-point arithmetic
-/

namespace Wite.Props

open Wite Wite.Maths Wite.Maths.Flt

variable {F : Fmt}

/-! ## C76 -/

private theorem convert_isNaN {G : Fmt} {x : Flt F} (h : x.isNaN) : (x.convert G).isNaN := by
  unfold convert; rw [if_pos h]
  unfold isNaN qNaN; simp only
  have : 0 < 2 ^ (G.m - 1) := Nat.two_pow_pos _
  omega

private theorem qNaN_isNaN : (Flt.qNaN F).isNaN := by
  unfold isNaN qNaN; simp only
  have : 0 < 2 ^ (F.m - 1) := Nat.two_pow_pos _
  omega

/-- C76 for floating-point types: `fraction(x, a, a)` is NaN for every `x` and `a`, finite or not. -/
theorem c76_float (x a : Flt F) : (fractionFlt x a a).isNaN := by
  unfold fractionFlt
  split
  · exact convert_isNaN qNaN_isNaN
  · rename_i h
    have hn : a.isNaN := by
      by_contra hn
      exact h (beq_def.2 ⟨hn, hn, rfl⟩)
    have e : x.sub a = Flt.qNaN F := by
      unfold sub add; exact if_pos (Or.inr hn)
    rw [e]
    unfold div
    simp only
    rw [if_pos (Or.inl (convert_isNaN qNaN_isNaN))]
    exact qNaN_isNaN

/-- C76 is false for integers: every integer type has the "NaN" 0, which is returned for every empty range; it is the result
for the lower end of any range, too. -/
theorem c76_refuted_int (t : IntTy) (x a : Int) :
    ∃ d : Double, fractionInt t x a a = .ok d ∧ ¬ d.isNaN ∧ d.value = 0 := by
  refine ⟨Flt.ofInt _ 0, ?_, ofRat_not_nan _ _, ?_⟩
  · unfold fractionInt; rw [if_pos rfl]; rfl
  · unfold ofInt ofRat; rw [if_pos (by simp), zero_value]

/-- NaN for an empty range of `double`s and of infinities, 0 for `fraction(7, 3, 3)`. -/
example : (fractionFlt (⟨false, 14⟩ : Flt .tiny) ⟨true, 3⟩ ⟨true, 3⟩).isNaN ∧
    (fractionFlt (⟨false, 14⟩ : Flt .tiny) ⟨true, 28⟩ ⟨true, 28⟩).isNaN ∧
    fractionInt ⟨32, true⟩ 7 3 3 = .ok ⟨false, 0⟩ := by decide +kernel

/-! ## C104 -/

private theorem le_refl_of {x : Flt F} (h : ¬ x.isNaN) : x ≤ x := ⟨h, h, le_refl _⟩

/-- C104, the part that holds, for `float`, `double` and every narrower format: for finite ends whose difference does not
overflow and finite fractions, `interpolate` never yields NaN and is monotone in the fraction; also where the product or the
sum overflows. -/
theorem c104_mono_partial (hF : Wider F Fmt.double) (a b : Flt F) (f g : Double) (ha : a.finite) (hb : b.finite)
    (hab : a ≤ b) (hd : (b.sub a).finite) (hf : f.finite) (hg : g.finite) (hfg : f ≤ g) :
    interpolateFlt f a b ≤ interpolateFlt g a b := by
  obtain ⟨d1, d2⟩ := convert_exact hF hd
  have h0 : 0 ≤ ((b.sub a).convert Fmt.double).value := by
    rw [d2]; exact sub_nonneg ha hb ((le_iff_value ha hb).1 hab)
  exact add_mono ha (convert_mono (mul_mono hf hg d1 h0 hfg))

/-- C104, the part that holds: `interpolate(0, a, b)` (with either zero) is `a`. -/
theorem c104_zero_partial (hF : Wider F Fmt.double) (a b : Flt F) (s : Bool) (ha : a.finite) (hd : (b.sub a).finite) :
    (interpolateFlt (⟨s, 0⟩ : Double) a b == a) = true := by
  obtain ⟨d1, d2⟩ := convert_exact hF hd
  have hz := zero_finite Fmt.double s
  unfold interpolateFlt
  rw [mul_finite hz d1, zero_value, zero_mul]
  unfold ofRat
  rw [if_pos rfl, convert_finite (zero_finite _ _), zero_value]
  unfold ofRat
  rw [if_pos rfl, add_finite ha (zero_finite _ _), zero_value, add_zero]
  exact beq_def.2 ⟨ofRat_not_nan _ _, not_isNaN_of_finite ha, ofRat_value ha _⟩

/-- C104, the part that holds: fractions that are not negative do not lead below `a`. -/
theorem c104_lower_partial (hF : Wider F Fmt.double) (a b : Flt F) (f : Double) (ha : a.finite) (hb : b.finite)
    (hab : a ≤ b) (hd : (b.sub a).finite) (hf : f.finite) (h0 : 0 ≤ f.value) : a ≤ interpolateFlt f a b := by
  have hz := zero_finite Fmt.double false
  have h1 : (⟨false, 0⟩ : Double) ≤ f := (le_iff_value hz hf).2 (by rw [zero_value]; exact h0)
  have h2 := c104_mono_partial hF a b ⟨false, 0⟩ f ha hb hab hd hz hf h1
  have h3 := beq_def.1 (c104_zero_partial hF a b false ha hd)
  exact ⟨h3.2.1, h2.2.1, by rw [← h3.2.2]; exact h2.2.2⟩

private theorem dbl_one : (⟨false, 0x3FF0000000000000⟩ : Double).finite ∧ (⟨false, 0x3FF0000000000000⟩ : Double).value = 1 := by
  decide +kernel

/-- C104, the part that holds at the upper end: if the difference of the ends is representable, `interpolate(1, a, b)` is `b`,
and fractions up to 1 do not lead above `b`. -/
theorem c104_upper_partial (hF : Wider F Fmt.double) (a b d : Flt F) (f : Double) (ha : a.finite) (hb : b.finite)
    (hab : a ≤ b) (hd : d.finite) (hdv : d.value = b.value - a.value) (hf : f.finite) :
    (f.value = 1 → (interpolateFlt f a b == b) = true) ∧ (f.value ≤ 1 → interpolateFlt f a b ≤ b) := by
  have hs : (b.sub a).finite ∧ (b.sub a).value = b.value - a.value := by
    rw [sub_finite hb ha]; exact ofRat_exact hd hdv _
  obtain ⟨d1, d2⟩ := convert_exact hF hs.1
  have hone : ∀ f : Double, f.finite → f.value = 1 → (interpolateFlt f a b == b) = true := by
    intro f hf h1
    unfold interpolateFlt
    rw [mul_finite hf d1, h1, one_mul]
    obtain ⟨e1, e2⟩ := ofRat_exact d1 rfl (f.neg != ((b.sub a).convert Fmt.double).neg)
    have e2 := e2.trans (d2.trans hs.2)
    rw [convert_finite e1, e2]
    obtain ⟨e3, e4⟩ := ofRat_exact hd hdv
      (ofRat Fmt.double (f.neg != ((b.sub a).convert Fmt.double).neg) ((b.sub a).convert Fmt.double).value).neg
    rw [add_finite ha e3, e4, add_sub_cancel]
    exact beq_def.2 ⟨ofRat_not_nan _ _, not_isNaN_of_finite hb, ofRat_value hb _⟩
  refine ⟨hone f hf, fun hle => ?_⟩
  obtain ⟨o1, o2⟩ := dbl_one
  have h2 := c104_mono_partial hF a b f _ ha hb hab hs.1 hf o1 ((le_iff_value hf o1).2 (by rw [o2]; exact hle))
  have h3 := beq_def.1 (hone _ o1 o2)
  exact ⟨h2.1, h3.2.1, by rw [← h3.2.2]; exact h2.2.2⟩

/-- The second summand of `interpolate` for fractions between 0 and 1. -/
private theorem summand (hF : Wider F Fmt.double) {a b : Flt F} {f : Double} (ha : a.finite) (hb : b.finite)
    (hv : a.value ≤ b.value) (hd : (b.sub a).finite) (hf : f.finite) (h0 : 0 ≤ f.value) (h1 : f.value ≤ 1) :
    (((f.mul ((b.sub a).convert Fmt.double)).convert F)).finite ∧
      0 ≤ (((f.mul ((b.sub a).convert Fmt.double)).convert F)).value ∧
      (((f.mul ((b.sub a).convert Fmt.double)).convert F)).value ≤ (b.sub a).value ∧
      (f.value = 1 → (((f.mul ((b.sub a).convert Fmt.double)).convert F)).value = (b.sub a).value) := by
  have d0 := Flt.sub_nonneg ha hb hv
  obtain ⟨d1, d2⟩ := convert_exact hF hd
  have hz := zero_finite Fmt.double false
  have hz' := zero_finite F false
  rw [mul_finite hf d1, d2]
  generalize (f.neg != ((b.sub a).convert Fmt.double).neg) = s
  have q0 : 0 ≤ f.value * (b.sub a).value := mul_nonneg h0 d0
  have q1 : f.value * (b.sub a).value ≤ (b.sub a).value := by
    have := mul_le_mul_of_nonneg_right h1 d0; linarith
  have fin := ofRat_finite (F := Fmt.double) (q := f.value * (b.sub a).value) hz d1 (by rw [zero_value]; exact q0) (by rw [d2]; exact q1) s
  have le1 := (value_le_iff _ _).2 (ofRat_le (q := f.value * (b.sub a).value) d1 (by rw [d2]; exact q1) s)
  rw [d2] at le1
  have ge1 := (value_le_iff _ _).2 (le_ofRat hz (q := f.value * (b.sub a).value) (by rw [zero_value]; exact q0) s)
  rw [zero_value] at ge1
  rw [convert_finite fin]
  refine ⟨ofRat_finite hz' hd (by rw [zero_value]; exact ge1) le1 _, ?_, (value_le_iff _ _).2 (ofRat_le hd le1 _), fun h => ?_⟩
  · have := (value_le_iff _ _).2 (le_ofRat hz' (q := (ofRat Fmt.double s (f.value * (b.sub a).value)).value)
      (by rw [zero_value]; exact ge1) (ofRat Fmt.double s (f.value * (b.sub a).value)).neg)
    rwa [zero_value] at this
  · have : (ofRat Fmt.double s (f.value * (b.sub a).value)).value = (b.sub a).value := by
      rw [h, one_mul]; exact (ofRat_exact d1 d2 s).2
    rw [this]; exact (ofRat_exact hd rfl _).2

/-- C104, when results are finite: for fractions between 0 and 1 they are if the lower end is not positive, or if there is
room for `2^-m` of the difference above the upper end. -/
theorem c104_finite_partial (hF : Wider F Fmt.double) (a b : Flt F) (f : Double) (ha : a.finite) (hb : b.finite)
    (hab : a ≤ b) (hd : (b.sub a).finite) (hf : f.finite) (h0 : 0 ≤ f.value) (h1 : f.value ≤ 1)
    (room : a.value ≤ 0 ∨ b.value + (b.value - a.value) / 2 ^ F.m ≤ (Flt.max F).value) : (interpolateFlt f a b).finite := by
  have hv := (le_iff_value ha hb).1 hab
  obtain ⟨y1, y0, y2, _⟩ := summand hF ha hb hv hd hf h0 h1
  unfold interpolateFlt
  rw [add_finite ha y1]
  rcases room with h | h
  · exact ofRat_finite ha hd (by linarith) (by linarith) _
  · have err := sub_error ha hb hv hd
    have := neg_abs_le ((b.value - a.value) - (b.sub a).value)
    have := abs_nonneg ((b.value - a.value) - (b.sub a).value)
    exact ofRat_finite ha (max_finite F) (by linarith) (by linarith) _

/-- The condition for `interpolate(f, 1.0, 4.0)` holds, and for the ends of `c104_refuted_infinite` it does not. -/
example : ((⟨false, 0x4010000000000000⟩ : Double).value +
      ((⟨false, 0x4010000000000000⟩ : Double).value - (⟨false, 0x3FF0000000000000⟩ : Double).value) / 2 ^ 52 ≤ (Flt.max Fmt.double).value) ∧
    ¬ ((⟨false, 0x7FEFFFFFFFFFFFFF⟩ : Double).value +
      ((⟨false, 0x7FEFFFFFFFFFFFFF⟩ : Double).value - (⟨false, 0x7CA8000000000000⟩ : Double).value) / 2 ^ 52 ≤ (Flt.max Fmt.double).value) := by
  decide +kernel

/-- C104, how far the upper end is missed at most: as long as the result is finite, fractions between 0 and 1 lead at most
`2^-m` of the difference beyond `b`, where the format has `m` stored bits of significand, and `interpolate(1, a, b)` is no
further than that from `b`. -/
theorem c104_near_partial (hF : Wider F Fmt.double) (a b : Flt F) (f : Double) (ha : a.finite) (hb : b.finite)
    (hab : a ≤ b) (hd : (b.sub a).finite) (hf : f.finite) (h0 : 0 ≤ f.value) (h1 : f.value ≤ 1)
    (hr : (interpolateFlt f a b).finite) :
    (interpolateFlt f a b).value ≤ b.value + (b.value - a.value) / 2 ^ F.m ∧
    (f.value = 1 → |(interpolateFlt f a b).value - b.value| ≤ (b.value - a.value) / 2 ^ F.m) := by
  have hv := (le_iff_value ha hb).1 hab
  obtain ⟨y1, _, y2, y3⟩ := summand hF ha hb hv hd hf h0 h1
  have hs := add_near ha hb hv hd y1 y2 hr
  exact ⟨hs.1, fun h => hs.2 (y3 h)⟩

/-- `interpolate(1.0, -1.0, 1.5 * 2^-53)` is `2^-52`, which is `2^-54` beyond the end. -/
example : interpolateFlt ⟨false, 0x3FF0000000000000⟩ (⟨true, 0x3FF0000000000000⟩ : Double) ⟨false, 0x3CA8000000000000⟩ =
    ⟨false, 0x3CB0000000000000⟩ := by decide +kernel

/-- C104 is false at the end of the range of the type: `interpolate(1.0, 1.5 * 2^971, x)`, where `x` is the largest `double`,
is infinite. -/
theorem c104_refuted_infinite : ∃ a b : Double, a.finite ∧ b.finite ∧ a ≤ b ∧ (b.sub a).finite ∧
    interpolateFlt ⟨false, 0x3FF0000000000000⟩ a b = ⟨false, 0x7FF0000000000000⟩ :=
  ⟨⟨false, 0x7CA8000000000000⟩, ⟨false, 0x7FEFFFFFFFFFFFFF⟩, by decide +kernel⟩

/-- C104 is false at the upper end: `interpolate(1.0, -1.0, x)` with `x = 1.5 * 2^-53` is `2^-52`, not `x` and above `x`. -/
theorem c104_refuted_upper : ∃ a b r : Double, a.finite ∧ b.finite ∧ a ≤ b ∧ (b.sub a).finite ∧
    interpolateFlt ⟨false, 0x3FF0000000000000⟩ a b = r ∧ r.finite ∧ b < r :=
  ⟨⟨true, 0x3FF0000000000000⟩, ⟨false, 0x3CA8000000000000⟩, ⟨false, 0x3CB0000000000000⟩, by decide +kernel⟩

/-- C104 is false at the upper end in the other direction too: `interpolate(1.0, -1.0, 2^-60)` is 0, below `2^-60`. -/
theorem c104_refuted_below : ∃ a b r : Double, a.finite ∧ b.finite ∧ a ≤ b ∧ (b.sub a).finite ∧
    interpolateFlt ⟨false, 0x3FF0000000000000⟩ a b = r ∧ r < b :=
  ⟨⟨true, 0x3FF0000000000000⟩, ⟨false, 0x3C30000000000000⟩, ⟨false, 0⟩, by decide +kernel⟩

/-- `interpolate(0.5, 1.0, 4.0)` is 2.5, `interpolate(1.0, 1.0, 4.0)` is 4. -/
example : interpolateFlt ⟨false, 0x3FE0000000000000⟩ (⟨false, 0x3FF0000000000000⟩ : Double) ⟨false, 0x4010000000000000⟩ =
      ⟨false, 0x4004000000000000⟩ ∧
    interpolateFlt ⟨false, 0x3FF0000000000000⟩ (⟨false, 0x3FF0000000000000⟩ : Double) ⟨false, 0x4010000000000000⟩ =
      ⟨false, 0x4010000000000000⟩ := by decide +kernel

/-- The formats covered include `float` and `double`. -/
example : Wider Fmt.single Fmt.double ∧ Wider Fmt.double Fmt.double := by unfold Wider; decide

/-! ### Infinite ends -/

private theorem infinite_form {x : Flt F} (h : ¬ x.isNaN) (hf : ¬ x.finite) : x = ⟨x.neg, infMag F⟩ := by
  unfold isNaN at h; unfold finite at hf
  have : x.mag = infMag F := by omega
  rw [← this]

private theorem inf_not_nan (s : Bool) : ¬ (⟨s, infMag F⟩ : Flt F).isNaN := Nat.lt_irrefl _
private theorem inf_not_finite (s : Bool) : ¬ (⟨s, infMag F⟩ : Flt F).finite := Nat.lt_irrefl _

private theorem finite_not_nan {x : Flt F} (h : x.finite) : ¬ x.isNaN := by
  unfold finite at h; unfold isNaN; omega

private theorem convert_inf (G : Fmt) (s : Bool) : (⟨s, infMag F⟩ : Flt F).convert G = ⟨s, infMag G⟩ := by
  unfold convert; rw [if_neg (inf_not_nan s), if_pos (inf_not_finite s)]

private theorem inf_add_inf (s t : Bool) : (⟨s, infMag F⟩ : Flt F).add ⟨t, infMag F⟩ =
    if s = t then ⟨s, infMag F⟩ else Flt.qNaN F := by
  unfold add
  rw [if_neg (not_or.2 ⟨inf_not_nan s, inf_not_nan t⟩), if_pos (inf_not_finite s)]
  by_cases h : s = t <;> simp [h, inf_not_finite t]

private theorem inf_add_finite (s : Bool) {y : Flt F} (hy : y.finite) : (⟨s, infMag F⟩ : Flt F).add y = ⟨s, infMag F⟩ := by
  unfold add
  rw [if_neg (not_or.2 ⟨inf_not_nan s, finite_not_nan hy⟩), if_pos (inf_not_finite s), if_neg (fun h => h.1 hy)]

private theorem finite_add_inf (t : Bool) {x : Flt F} (hx : x.finite) : x.add ⟨t, infMag F⟩ = ⟨t, infMag F⟩ := by
  unfold add
  rw [if_neg (not_or.2 ⟨finite_not_nan hx, inf_not_nan t⟩), if_neg (not_not.2 hx), if_pos (inf_not_finite t)]

private theorem finite_mul_inf (t : Bool) {x : Flt F} (hx : x.finite) : x.mul ⟨t, infMag F⟩ =
    if x.mag = 0 then Flt.qNaN F else ⟨x.neg != t, infMag F⟩ := by
  have h0 : infMag F ≠ 0 := by
    have := one_finite F; unfold finite at this; simp only at this; omega
  unfold mul
  simp only [if_neg (not_or.2 ⟨finite_not_nan hx, inf_not_nan t⟩), if_pos (Or.inr (inf_not_finite t) : _ ∨ _), h0, or_false]

private theorem convert_qNaN (G : Fmt) : (Flt.qNaN F).convert G = Flt.qNaN G := by
  unfold convert; rw [if_pos qNaN_isNaN]

private theorem add_qNaN (x : Flt F) : x.add (Flt.qNaN F) = Flt.qNaN F := by
  unfold add; rw [if_pos (Or.inr qNaN_isNaN)]

private theorem mul_qNaN (x : Flt F) : x.mul (Flt.qNaN F) = Flt.qNaN F := by
  unfold mul; rw [if_pos (Or.inr qNaN_isNaN)]

/-- The last two steps of `interpolate` when the difference is infinite. -/
private theorem step_inf (f : Double) (hf : f.finite) (t : Bool) (a : Flt F) :
    a.add ((f.mul ((⟨t, infMag F⟩ : Flt F).convert Fmt.double)).convert F) =
      if f.value = 0 then Flt.qNaN F else a.add ⟨f.neg != t, infMag F⟩ := by
  rw [convert_inf, finite_mul_inf t hf]
  by_cases h : f.mag = 0
  · rw [if_pos h, if_pos (mag_zero_iff.1 h), convert_qNaN, add_qNaN]
  · rw [if_neg h, if_neg (fun e => h (mag_zero_iff.2 e)), convert_inf]

private theorem neg_of_pos {x : Flt F} (h : 0 < x.value) : x.neg = false := by
  have hv := abs_value x
  cases hn : x.neg with
  | false => rfl
  | true =>
    unfold value at h; rw [hn] at h; simp only [if_true] at h
    have : 0 ≤ magValue F x.mag := by rw [← hv]; exact abs_nonneg _
    linarith

private theorem neg_of_neg {x : Flt F} (h : x.value < 0) : x.neg = true := by
  have hv := abs_value x
  cases hn : x.neg with
  | true => rfl
  | false =>
    unfold value at h; rw [hn] at h; simp only [Bool.false_eq_true, if_false] at h
    have : 0 ≤ magValue F x.mag := by rw [← hv]; exact abs_nonneg _
    linarith

/-- C104 asks for finite ends. With an infinite upper end, `interpolate` is NaN at 0, the upper end for every positive
fraction and the opposite infinity for every negative one. With an infinite lower end it is NaN for every fraction from 0
on, 0 and 1 included, and the lower end for negative ones; two ends that are the same infinity give NaN for every fraction. -/
theorem c104_infinite (a b : Flt F) (f : Double) (ha : ¬ a.isNaN) (hb : ¬ b.isNaN) (hf : f.finite) :
    (a.finite → ¬ b.finite →
      (f.value = 0 → (interpolateFlt f a b).isNaN) ∧ (0 < f.value → interpolateFlt f a b = b) ∧
      (f.value < 0 → interpolateFlt f a b = b.negate)) ∧
    (¬ a.finite → (0 ≤ f.value ∨ a = b → (interpolateFlt f a b).isNaN) ∧ (f.value < 0 → a ≠ b → interpolateFlt f a b = a)) := by
  unfold interpolateFlt
  constructor
  · intro haf hbf
    rw [infinite_form hb hbf]
    have hs : (⟨b.neg, infMag F⟩ : Flt F).sub a = ⟨b.neg, infMag F⟩ := inf_add_finite _ (negate_finite haf)
    rw [hs, step_inf f hf]
    refine ⟨fun h => ?_, fun h => ?_, fun h => ?_⟩
    · rw [if_pos h]; exact qNaN_isNaN
    · rw [if_neg (ne_of_gt h), neg_of_pos h, finite_add_inf _ haf]; simp
    · rw [if_neg (ne_of_lt h), neg_of_neg h, finite_add_inf _ haf]; simp [negate]
  · intro haf
    have hsub : ∀ t, b.sub a = ⟨t, infMag F⟩ → t = !a.neg →
        (0 ≤ f.value → (a.add ((f.mul ((b.sub a).convert Fmt.double)).convert F)).isNaN) ∧
        (f.value < 0 → a.add ((f.mul ((b.sub a).convert Fmt.double)).convert F) = a) := by
      intro t h ht
      rw [h, step_inf f hf]
      subst ht
      constructor
      · intro h0
        rcases eq_or_lt_of_le h0 with h0 | h0
        · rw [if_pos h0.symm]; exact qNaN_isNaN
        · rw [if_neg (ne_of_gt h0), neg_of_pos h0, infinite_form ha haf, inf_add_inf]
          cases a.neg <;> exact qNaN_isNaN
      · intro h0
        rw [if_neg (ne_of_lt h0), neg_of_neg h0]
        conv_lhs => rw [infinite_form ha haf]
        conv_rhs => rw [infinite_form ha haf]
        rw [inf_add_inf]
        cases a.neg <;> rfl
    by_cases e : a = b
    · subst e
      refine ⟨fun _ => ?_, fun _ h => absurd rfl h⟩
      have : a.sub a = Flt.qNaN F := by
        rw [infinite_form ha haf]
        show (⟨a.neg, infMag F⟩ : Flt F).add ⟨!a.neg, infMag F⟩ = _
        rw [inf_add_inf]
        cases a.neg <;> rfl
      rw [this, convert_qNaN, mul_qNaN, convert_qNaN, add_qNaN]
      exact qNaN_isNaN
    · have key : b.sub a = ⟨!a.neg, infMag F⟩ := by
        have hn : a.negate = ⟨!a.neg, infMag F⟩ := by
          conv_lhs => rw [infinite_form ha haf]
          rfl
        unfold sub
        rw [hn]
        by_cases hbf : b.finite
        · exact finite_add_inf _ hbf
        · have hne : b.neg = !a.neg := by
            cases h1 : a.neg <;> cases h2 : b.neg <;> first | rfl | skip
            all_goals
              exfalso; apply e
              rw [infinite_form ha haf, infinite_form hb hbf, h1, h2]
          rw [infinite_form hb hbf, inf_add_inf, if_pos hne, hne]
      obtain ⟨k1, k2⟩ := hsub _ key rfl
      exact ⟨fun h => h.elim k1 (fun h => absurd h e), fun h _ => k2 h⟩

/-- From infinity to infinity and from 1 to infinity: a half gives NaN and infinity. -/
example : (interpolateFlt ⟨false, 0x3FE0000000000000⟩ (⟨false, infMag Fmt.double⟩ : Double) ⟨false, infMag Fmt.double⟩).isNaN ∧
    interpolateFlt ⟨false, 0x3FE0000000000000⟩ (⟨false, 0x3FF0000000000000⟩ : Double) ⟨false, infMag Fmt.double⟩ =
      ⟨false, infMag Fmt.double⟩ := by decide +kernel

/-! ## C105 -/

private theorem quotient_spec {n d : Double} (hn : n.finite) (hd : d.finite) (h0 : 0 ≤ n.value) (h1 : n.value ≤ d.value)
    (hp : 0 < d.value) : (n.div d).finite ∧ 0 ≤ (n.div d).value ∧ (n.div d).value ≤ 1 := by
  have q0 : 0 ≤ n.value / d.value := div_nonneg h0 (le_of_lt hp)
  have q1 : n.value / d.value ≤ 1 := by rw [div_le_one hp]; exact h1
  obtain ⟨o1, o2⟩ := dbl_one
  have hz := zero_finite Fmt.double false
  rw [div_finite hn hd (ne_of_gt hp)]
  refine ⟨ofRat_finite hz o1 (by rw [zero_value]; exact q0) (by rw [o2]; exact q1) _, ?_, ?_⟩
  · have := (value_le_iff _ _).2 (le_ofRat hz (q := n.value / d.value) (by rw [zero_value]; exact q0) (n.neg != d.neg))
    rwa [zero_value] at this
  · have := (value_le_iff _ _).2 (ofRat_le o1 (q := n.value / d.value) (by rw [o2]; exact q1) (n.neg != d.neg))
    rwa [o2] at this

private theorem quotient_mono {n n' d : Double} (hn : n.finite) (hn' : n'.finite) (hd : d.finite) (h : n.value ≤ n'.value)
    (hp : 0 < d.value) : n.div d ≤ n'.div d := by
  rw [div_finite hn hd (ne_of_gt hp), div_finite hn' hd (ne_of_gt hp)]
  exact ⟨ofRat_not_nan _ _, ofRat_not_nan _ _, ofRat_mono (by gcongr) _ _⟩

private theorem quotient_zero {n d : Double} (hn : n.finite) (hd : d.finite) (h : n.value = 0)
    (hp : 0 < d.value) : (n.div d).value = 0 := by
  rw [div_finite hn hd (ne_of_gt hp), h, zero_div]
  unfold ofRat; rw [if_pos rfl, zero_value]

private theorem quotient_one {n d : Double} (hn : n.finite) (hd : d.finite) (h : n.value = d.value)
    (hp : 0 < d.value) : (n.div d).value = 1 := by
  rw [div_finite hn hd (ne_of_gt hp), h, div_self (ne_of_gt hp)]
  exact (ofRat_exact dbl_one.1 dbl_one.2 _).2

private theorem diff_spec (hF : Wider F Fmt.double) {a x b : Flt F} (ha : a.finite) (hx : x.finite) (hb : b.finite)
    (hax : a ≤ x) (hxb : x ≤ b) (hd : (b.sub a).finite) :
    ((x.sub a).convert Fmt.double).finite ∧ 0 ≤ ((x.sub a).convert Fmt.double).value ∧
    ((x.sub a).convert Fmt.double).value ≤ ((b.sub a).convert Fmt.double).value := by
  have v1 := (le_iff_value ha hx).1 hax
  have v2 := (le_iff_value hx hb).1 hxb
  have n0 := sub_nonneg ha hx v1
  have nd : (x.sub a).value ≤ (b.sub a).value := by
    rw [sub_finite hx ha, sub_finite hb ha]
    exact (value_le_iff _ _).2 (ofRat_mono (by linarith) _ _)
  have nf : (x.sub a).finite := by
    have k0 : (⟨false, 0⟩ : Flt F).key ≤ (x.sub a).key := (value_le_iff _ _).1 (by rw [zero_value]; exact n0)
    have k1 := (value_le_iff _ _).1 nd
    rw [finite_iff_key] at hd ⊢
    have : (⟨false, 0⟩ : Flt F).key = 0 := by simp [key]
    have : (0 : Int) < infMag F := by have := infMag_ge F; have : 0 < 2 ^ F.m := Nat.two_pow_pos _; omega
    omega
  obtain ⟨d1, d2⟩ := convert_exact hF hd
  obtain ⟨n1, n2⟩ := convert_exact hF nf
  exact ⟨n1, by rw [n2]; exact n0, by rw [n2, d2]; exact nd⟩

private theorem fraction_eq (hF : Wider F Fmt.double) {a b : Flt F} (x : Flt F) (ha : a.finite) (hb : b.finite) (hab : a < b)
    (hd : (b.sub a).finite) :
    fractionFlt x a b = ((x.sub a).convert Fmt.double).div ((b.sub a).convert Fmt.double) ∧
    ((b.sub a).convert Fmt.double).finite ∧ 0 < ((b.sub a).convert Fmt.double).value := by
  have v := (lt_iff_value ha hb).1 hab
  obtain ⟨d1, d2⟩ := convert_exact hF hd
  refine ⟨?_, d1, by rw [d2]; exact sub_pos ha hb v⟩
  unfold fractionFlt
  rw [if_neg]
  intro h
  have := (beq_iff_value hb ha).1 h
  linarith

/-- C105 for `float`, `double` and every narrower format: for finite `a < b` whose difference does not overflow, `fraction` of
every number between them is a number between 0 and 1. -/
theorem c105_float (hF : Wider F Fmt.double) (a x b : Flt F) (ha : a.finite) (hx : x.finite) (hb : b.finite) (hab : a < b)
    (hax : a ≤ x) (hxb : x ≤ b) (hd : (b.sub a).finite) :
    (fractionFlt x a b).finite ∧ 0 ≤ (fractionFlt x a b).value ∧ (fractionFlt x a b).value ≤ 1 := by
  obtain ⟨e, d1, dp⟩ := fraction_eq hF x ha hb hab hd
  obtain ⟨n1, n0, nd⟩ := diff_spec hF ha hx hb hax hxb hd
  rw [e]; exact quotient_spec n1 d1 n0 nd dp

/-- C105 for floating-point types: 0 at `a`, 1 at `b`. -/
theorem c105_float_ends (hF : Wider F Fmt.double) (a b : Flt F) (ha : a.finite) (hb : b.finite) (hab : a < b)
    (hd : (b.sub a).finite) : (fractionFlt a a b).value = 0 ∧ (fractionFlt b a b).value = 1 := by
  obtain ⟨e, d1, dp⟩ := fraction_eq hF a ha hb hab hd
  obtain ⟨e', _, _⟩ := fraction_eq hF b ha hb hab hd
  have hab' : a ≤ b := ⟨hab.1, hab.2.1, le_of_lt hab.2.2⟩
  obtain ⟨n1, n0, _⟩ := diff_spec hF ha ha hb (le_refl_of (not_isNaN_of_finite ha)) hab' hd
  have hz : ((a.sub a).convert Fmt.double).value = 0 := by
    have e1 : a.sub a = ofRat F (a.neg && !a.neg) 0 := by rw [sub_finite ha ha, sub_self]
    have e2 : (a.sub a) = ⟨a.neg && !a.neg, 0⟩ := by rw [e1]; unfold ofRat; rw [if_pos rfl]
    rw [e2, (convert_exact hF (zero_finite _ _)).2, zero_value]
  rw [e, e']
  exact ⟨quotient_zero n1 d1 hz dp, quotient_one d1 d1 rfl dp⟩

/-- C105 for floating-point types: `fraction` is monotone. -/
theorem c105_float_mono (hF : Wider F Fmt.double) (a x y b : Flt F) (ha : a.finite) (hx : x.finite) (hy : y.finite)
    (hb : b.finite) (hab : a < b) (hax : a ≤ x) (hxy : x ≤ y) (hyb : y ≤ b) (hd : (b.sub a).finite) :
    fractionFlt x a b ≤ fractionFlt y a b := by
  obtain ⟨e, d1, dp⟩ := fraction_eq hF x ha hb hab hd
  obtain ⟨e', _, _⟩ := fraction_eq hF y ha hb hab hd
  have hay : a ≤ y := ⟨hax.1, hxy.2.1, le_trans hax.2.2 hxy.2.2⟩
  have hxb : x ≤ b := ⟨hxy.1, hyb.2.1, le_trans hxy.2.2 hyb.2.2⟩
  obtain ⟨n1, _, _⟩ := diff_spec hF ha hx hb hax hxb hd
  obtain ⟨n1', _, _⟩ := diff_spec hF ha hy hb hay hyb hd
  rw [e, e']
  refine quotient_mono n1 n1' d1 ?_ dp
  have f1 : (x.sub a).convert Fmt.double ≤ (y.sub a).convert Fmt.double := by
    refine convert_mono ?_
    rw [sub_finite hx ha, sub_finite hy ha]
    exact ⟨ofRat_not_nan _ _, ofRat_not_nan _ _, ofRat_mono (by have := (le_iff_value hx hy).1 hxy; linarith) _ _⟩
  exact (le_iff_value n1 n1').1 f1

private theorem ofInt_spec {n : Int} (h0 : 0 ≤ n) (h1 : n ≤ 2 ^ 128) :
    (ofInt Fmt.double n).finite ∧ 0 ≤ (ofInt Fmt.double n).value ∧ (1 ≤ n → 0 < (ofInt Fmt.double n).value) := by
  obtain ⟨g, hg⟩ := representable Fmt.double 1 128 (by decide) (by decide)
  have hf : g < infMag Fmt.double := by
    apply finite_of_value_lt; rw [hg, Nat.cast_one, one_mul]; exact pow_lt_pow_right₀ (by norm_num) (by decide)
  have hv : (⟨false, g⟩ : Double).value = 2 ^ 128 := by simp only [value, hg]; norm_num
  have hz := zero_finite Fmt.double false
  have q0 : (0 : ℚ) ≤ n := by exact_mod_cast h0
  have q1 : (n : ℚ) ≤ 2 ^ 128 := by exact_mod_cast h1
  refine ⟨ofRat_finite (x := ⟨false, 0⟩) (y := ⟨false, g⟩) hz hf (by rw [zero_value]; exact q0) (by rw [hv]; exact q1) _, ?_, ?_⟩
  · have := (value_le_iff _ _).2 (le_ofRat hz (q := (n : ℚ)) (by rw [zero_value]; exact q0) false)
    rwa [zero_value] at this
  · intro h
    have q2 : (1 : ℚ) ≤ n := by exact_mod_cast h
    have := (value_le_iff _ _).2 (le_ofRat dbl_one.1 (q := (n : ℚ)) (by rw [dbl_one.2]; exact q2) false)
    rw [dbl_one.2] at this
    exact lt_of_lt_of_le one_pos this

private theorem ofInt_mono {n k : Int} (h : n ≤ k) : (ofInt Fmt.double n).value ≤ (ofInt Fmt.double k).value :=
  (value_le_iff _ _).2 (ofRat_mono (by exact_mod_cast h) _ _)

private theorem holds_small {t : IntTy} (h128 : t.bits ≤ 128) {n : Int} (h : t.holds n) : n ≤ 2 ^ 128 := by
  have h2 := h.2
  have h3 : (2 : Int) ^ t.bits ≤ 2 ^ 128 := by exact_mod_cast Nat.pow_le_pow_right (n := 2) (by omega) h128
  have h4 : (2 : Int) ^ (t.bits - 1) ≤ 2 ^ 128 := by exact_mod_cast Nat.pow_le_pow_right (n := 2) (by omega) (by omega : t.bits - 1 ≤ 128)
  unfold IntTy.maxValue at h2
  split at h2 <;> omega

/-- C105 for integer types of up to 128 bits: for `a < b` whose difference the type can hold, `fraction` of every value
between them is a number between 0 and 1, 0 at `a`, 1 at `b`, and monotone. -/
theorem c105_int (t : IntTy) (ht : 0 < t.bits) (h128 : t.bits ≤ 128) (a b : Int) (hab : a < b) (hd : t.holds (b - a)) :
    ∃ φ : Int → Double, (∀ x, a ≤ x → x ≤ b → fractionInt t x a b = .ok (φ x) ∧ (φ x).finite ∧ 0 ≤ (φ x).value ∧ (φ x).value ≤ 1) ∧
      (φ a).value = 0 ∧ (φ b).value = 1 ∧ ∀ x y, a ≤ x → x ≤ y → y ≤ b → φ x ≤ φ y := by
  have hsmall := holds_small h128 hd
  obtain ⟨d1, _, dp⟩ := ofInt_spec (n := b - a) (by omega) hsmall
  have dp := dp (by omega)
  have hn : ∀ x, a ≤ x → x ≤ b → (ofInt Fmt.double (x - a)).finite ∧ 0 ≤ (ofInt Fmt.double (x - a)).value ∧
      (ofInt Fmt.double (x - a)).value ≤ (ofInt Fmt.double (b - a)).value := fun x h1 h2 =>
    let s := ofInt_spec (n := x - a) (by omega) (by omega)
    ⟨s.1, s.2.1, ofInt_mono (by omega)⟩
  refine ⟨fun x => (ofInt Fmt.double (x - a)).div (ofInt Fmt.double (b - a)), fun x h1 h2 => ?_, ?_, ?_, fun x y h1 h2 h3 => ?_⟩
  · obtain ⟨n1, n0, nd⟩ := hn x h1 h2
    refine ⟨?_, quotient_spec n1 d1 n0 nd dp⟩
    have hx : t.holds (x - a) := ⟨by have := t.minValue_nonpos; omega, by have := hd.2; omega⟩
    unfold fractionInt
    rw [if_neg (by omega), IntTy.sub_ok ht hx, Outcome.bind_ok, IntTy.sub_ok ht hd, Outcome.bind_ok]; rfl
  · obtain ⟨n1, n0, nd⟩ := hn a (le_refl _) (le_of_lt hab)
    refine quotient_zero n1 d1 ?_ dp
    rw [Int.sub_self]; unfold ofInt ofRat; rw [if_pos (by simp), zero_value]
  · exact quotient_one d1 d1 rfl dp
  · obtain ⟨n1, _, _⟩ := hn x h1 (by omega)
    obtain ⟨n1', _, _⟩ := hn y (by omega) h3
    exact quotient_mono n1 n1' d1 (ofInt_mono (by omega)) dp

/-- `fraction(2.5, 1.0, 4.0)` is 0.5 and `fraction(25, 0, 100)` is 0.25. -/
example : fractionFlt (⟨false, 0x4004000000000000⟩ : Double) ⟨false, 0x3FF0000000000000⟩ ⟨false, 0x4010000000000000⟩ =
      ⟨false, 0x3FE0000000000000⟩ ∧
    fractionInt ⟨32, true⟩ 25 0 100 = .ok ⟨false, 0x3FD0000000000000⟩ := by decide +kernel

/-! ## C106 -/

private theorem trunc_ofRat {t : IntTy} {x : Double} (hx : x.finite) (h0 : 0 ≤ x.value) (hh : t.holds ⌊x.value⌋) :
    truncFlt t x = .ok ⌊x.value⌋ := by
  unfold truncFlt truncTo
  rw [if_pos hx]
  have e : x.value.num.tdiv x.value.den = ⌊x.value⌋ := by
    rw [Rat.floor_def', Int.tdiv_eq_ediv_of_nonneg (Rat.num_nonneg.2 h0)]
  simp only [e]; rw [if_pos hh]

/-- C106, the part that holds: for integers `a <= b` at most `2^53` apart, in `double` arithmetic, `interpolate` is defined for
every fraction in [0, 1], stays between `a` and `b`, is `a` at 0 and `b` at 1, and is monotone. -/
theorem c106_partial (t : IntTy) (ht : 0 < t.bits) (a b : Int) (ha : t.holds a) (hb : t.holds b) (hd : t.holds (b - a))
    (hab : a ≤ b) (h53 : b - a ≤ 2 ^ 53) :
    ∃ φ : Double → Int, (∀ f : Double, f.finite → 0 ≤ f.value → f.value ≤ 1 →
        interpolateInt t f a b = .ok (φ f) ∧ a ≤ φ f ∧ φ f ≤ b ∧ (f.value = 0 → φ f = a) ∧ (f.value = 1 → φ f = b)) ∧
      ∀ f g : Double, f.finite → g.finite → 0 ≤ f.value → f ≤ g → g.value ≤ 1 → φ f ≤ φ g := by
  obtain ⟨d1, d2⟩ := ofInt_exact (F := Fmt.double) (n := b - a) (by omega) h53 (by decide)
  have d0 : (0 : ℚ) ≤ (ofInt Fmt.double (b - a)).value := by rw [d2]; exact_mod_cast (by omega : 0 ≤ b - a)
  have hz := zero_finite Fmt.double false
  have main : ∀ f : Double, f.finite → 0 ≤ f.value → f.value ≤ 1 →
      (f.mul (ofInt Fmt.double (b - a))).finite ∧ 0 ≤ (f.mul (ofInt Fmt.double (b - a))).value ∧
      (f.mul (ofInt Fmt.double (b - a))).value ≤ (b - a : Int) ∧
      (f.value = 0 → (f.mul (ofInt Fmt.double (b - a))).value = 0) ∧
      (f.value = 1 → (f.mul (ofInt Fmt.double (b - a))).value = (b - a : Int)) := by
    intro f hf f0 f1
    rw [mul_finite hf d1]
    have q0 : 0 ≤ f.value * (ofInt Fmt.double (b - a)).value := mul_nonneg f0 d0
    have q1 : f.value * (ofInt Fmt.double (b - a)).value ≤ (ofInt Fmt.double (b - a)).value := by
      have := mul_le_mul_of_nonneg_right f1 d0; linarith
    refine ⟨ofRat_finite hz d1 (by rw [zero_value]; exact q0) q1 _, ?_, ?_, ?_, ?_⟩
    · have := (value_le_iff _ _).2 (le_ofRat hz (q := f.value * (ofInt Fmt.double (b - a)).value)
        (by rw [zero_value]; exact q0) (f.neg != (ofInt Fmt.double (b - a)).neg))
      rwa [zero_value] at this
    · have := (value_le_iff _ _).2 (ofRat_le d1 q1 (f.neg != (ofInt Fmt.double (b - a)).neg))
      rwa [d2] at this ⊢
    · intro h; rw [h, zero_mul]; unfold ofRat; rw [if_pos rfl, zero_value]
    · intro h; rw [h, one_mul]; rw [(ofRat_exact d1 rfl _).2, d2]
  refine ⟨fun f => a + ⌊(f.mul (ofInt Fmt.double (b - a))).value⌋, fun f hf f0 f1 => ?_, fun f g hf hg f0 hfg g1 => ?_⟩
  · obtain ⟨p1, p2, p3, p4, p5⟩ := main f hf f0 f1
    have k0 : 0 ≤ ⌊(f.mul (ofInt Fmt.double (b - a))).value⌋ := Int.floor_nonneg.2 p2
    have k1 : ⌊(f.mul (ofInt Fmt.double (b - a))).value⌋ ≤ b - a := by
      have := Int.floor_le_floor p3
      rwa [Int.floor_intCast] at this
    have hq : t.holds ⌊(f.mul (ofInt Fmt.double (b - a))).value⌋ := ⟨by have := t.minValue_nonpos; omega, by have := hd.2; omega⟩
    have hr : t.holds (a + ⌊(f.mul (ofInt Fmt.double (b - a))).value⌋) := ⟨by have := ha.1; omega, by have := hb.2; omega⟩
    refine ⟨?_, by show a ≤ a + _; omega, by show a + _ ≤ b; omega, fun h => ?_, fun h => ?_⟩
    · unfold interpolateInt
      rw [IntTy.sub_ok ht hd, Outcome.bind_ok, trunc_ofRat p1 p2 hq, Outcome.bind_ok, IntTy.add_ok ht hr, Outcome.bind_ok,
        IntTy.wrap_of_holds ht hr]; rfl
    · simp only; rw [p4 h]; simp
    · simp only; rw [p5 h, Int.floor_intCast]; omega
  · have hm := mul_mono hf hg d1 d0 hfg
    have f1 : f.value ≤ 1 := le_trans ((le_iff_value hf hg).1 hfg) g1
    have g0 : 0 ≤ g.value := le_trans f0 ((le_iff_value hf hg).1 hfg)
    have := (le_iff_value (main f hf f0 f1).1 (main g hg g0 g1).1).1 hm
    have := Int.floor_le_floor this
    show a + _ ≤ a + _
    omega

private theorem ofInt_near {n : Int} (s : Nat) (hs : s ≤ 74) (h0 : 0 ≤ n) (h1 : n ≤ 2 ^ (54 + s)) :
    |(ofInt Fmt.double n).value - n| ≤ 2 ^ s := by
  obtain ⟨k, rfl⟩ : ∃ k : Nat, n = k := ⟨n.toNat, by omega⟩
  have hk : k ≤ 2 ^ (54 + s) := by exact_mod_cast h1
  have hbig : ((k : Int)) ≤ 2 ^ 128 := by
    have : (2 : Nat) ^ (54 + s) ≤ 2 ^ 128 := Nat.pow_le_pow_right (by omega) (by omega)
    exact_mod_cast le_trans hk this
  obtain ⟨fin, _, _⟩ := ofInt_spec h0 hbig
  have hv : (ofInt Fmt.double (k : Int)).value = magValue Fmt.double (roundMag Fmt.double k) := by
    by_cases hz : k = 0
    · subst hz
      unfold ofInt ofRat; rw [if_pos (by simp), zero_value]; simp [magValue]
    · have hq : (((k : Int)) : ℚ) ≠ 0 := by simpa using hz
      have hpos : ¬ (((k : Int)) : ℚ) < 0 := by simp
      unfold ofInt ofRat at fin ⊢
      rw [if_neg hq] at fin ⊢
      unfold finite at fin
      have e : ∀ x y : Nat, Nat.min x y < y → Nat.min x y = x := by
        intro x y h
        have e1 : Nat.min x y = x ⊓ y := rfl
        rw [e1] at h ⊢; omega
      have := e _ _ fin
      simp only [value, hpos, decide_false, Bool.false_eq_true, if_false]
      rw [this]; simp
  obtain ⟨j, hj⟩ : ∃ j, j = (k + 2 ^ s) / 2 ^ (s + 1) := ⟨_, rfl⟩
  have hp : 0 < 2 ^ s := Nat.two_pow_pos s
  have e2 : (2 : Nat) ^ (s + 1) = 2 * 2 ^ s := by rw [Nat.pow_succ]; omega
  have e3 : (2 : Nat) ^ (54 + s) = 2 ^ 53 * (2 * 2 ^ s) := by rw [Nat.pow_add]; ring
  have hdm := Nat.div_add_mod (k + 2 ^ s) (2 ^ (s + 1))
  have hml := Nat.mod_lt (k + 2 ^ s) (Nat.two_pow_pos (s + 1))
  rw [← hj] at hdm
  have hj53 : j ≤ 2 ^ (Fmt.double.m + 1) := by
    show j ≤ 2 ^ 53
    have : j < 2 ^ 53 + 1 := by
      rw [hj]
      apply Nat.div_lt_of_lt_mul
      rw [e2]; rw [e3] at hk
      have : 2 * 2 ^ s * (2 ^ 53 + 1) = 2 ^ 53 * (2 * 2 ^ s) + 2 * 2 ^ s := by ring
      omega
    omega
  obtain ⟨g, hg⟩ := representable Fmt.double j ((s : Int) + 1) hj53 (by
    have : 1 - bias Fmt.double - (Fmt.double.m : Int) ≤ 0 := by decide
    omega)
  have near := roundMag_nearest (F := Fmt.double) (k : ℚ) (by positivity) g
  have hgv : magValue Fmt.double g = (((2 ^ (s + 1) * j : Nat)) : ℚ) := by
    rw [hg, show ((s : Int) + 1) = ((s + 1 : Nat) : Int) by push_cast; ring, zpow_natCast]; push_cast; ring
  rw [hgv] at near
  rw [hv, abs_sub_comm, Int.cast_natCast]
  refine le_trans near ?_
  have c1 : (((2 ^ (s + 1) * j : Nat)) : ℚ) ≤ k + 2 ^ s := by
    have : 2 ^ (s + 1) * j ≤ k + 2 ^ s := by omega
    exact_mod_cast this
  have c2 : (k : ℚ) ≤ ((2 ^ (s + 1) * j : Nat) : ℚ) + 2 ^ s := by
    have : k ≤ 2 ^ (s + 1) * j + 2 ^ s := by omega
    exact_mod_cast this
  rw [abs_le]
  constructor <;> linarith

/-- C106, what is left of it for wider ranges: for integers `a <= b` at most `2^(54 + s)` apart, if the type can also hold
`b + 2^s` and `b - a + 2^s`, `interpolate` is defined for every fraction in [0, 1], never goes below `a`, goes at most `2^s`
beyond `b`, is `a` at 0 and within `2^s` of `b` at 1, and is monotone. -/
theorem c106_near_partial (t : IntTy) (ht : 0 < t.bits) (s : Nat) (hs : s ≤ 74) (a b : Int) (ha : t.holds a) (hab : a ≤ b)
    (hw : b - a ≤ 2 ^ (54 + s)) (hb : t.holds (b + 2 ^ s)) (hd : t.holds (b - a + 2 ^ s)) :
    ∃ φ : Double → Int, (∀ f : Double, f.finite → 0 ≤ f.value → f.value ≤ 1 →
        interpolateInt t f a b = .ok (φ f) ∧ a ≤ φ f ∧ φ f ≤ b + 2 ^ s ∧ (f.value = 0 → φ f = a) ∧
        (f.value = 1 → |φ f - b| ≤ 2 ^ s)) ∧
      ∀ f g : Double, f.finite → g.finite → 0 ≤ f.value → f ≤ g → g.value ≤ 1 → φ f ≤ φ g := by
  have hp : (0 : Int) < 2 ^ s := by positivity
  have hsmall : b - a ≤ 2 ^ 128 := by
    have : (2 : Int) ^ (54 + s) ≤ 2 ^ 128 := by exact_mod_cast Nat.pow_le_pow_right (n := 2) (by omega) (by omega : 54 + s ≤ 128)
    omega
  obtain ⟨d1, d0, _⟩ := ofInt_spec (n := b - a) (by omega) hsmall
  have near := abs_le.1 (ofInt_near s hs (n := b - a) (by omega) hw)
  have hz := zero_finite Fmt.double false
  have hbd : t.holds (b - a) := ⟨by have := t.minValue_nonpos; omega, by have := hd.2; omega⟩
  have top : (ofInt Fmt.double (b - a)).value ≤ ((b - a + 2 ^ s : Int) : ℚ) := by push_cast at near ⊢; linarith [near.2]
  have bot : ((b - a - 2 ^ s : Int) : ℚ) ≤ (ofInt Fmt.double (b - a)).value := by push_cast at near ⊢; linarith [near.1]
  have main : ∀ f : Double, f.finite → 0 ≤ f.value → f.value ≤ 1 →
      (f.mul (ofInt Fmt.double (b - a))).finite ∧ 0 ≤ (f.mul (ofInt Fmt.double (b - a))).value ∧
      (f.mul (ofInt Fmt.double (b - a))).value ≤ (ofInt Fmt.double (b - a)).value ∧
      (f.value = 0 → (f.mul (ofInt Fmt.double (b - a))).value = 0) ∧
      (f.value = 1 → (f.mul (ofInt Fmt.double (b - a))).value = (ofInt Fmt.double (b - a)).value) := by
    intro f hf f0 f1
    rw [mul_finite hf d1]
    have q0 : 0 ≤ f.value * (ofInt Fmt.double (b - a)).value := mul_nonneg f0 d0
    have q1 : f.value * (ofInt Fmt.double (b - a)).value ≤ (ofInt Fmt.double (b - a)).value := by
      have := mul_le_mul_of_nonneg_right f1 d0; linarith
    refine ⟨ofRat_finite hz d1 (by rw [zero_value]; exact q0) q1 _, ?_, ?_, ?_, ?_⟩
    · have := (value_le_iff _ _).2 (le_ofRat hz (q := f.value * (ofInt Fmt.double (b - a)).value)
        (by rw [zero_value]; exact q0) (f.neg != (ofInt Fmt.double (b - a)).neg))
      rwa [zero_value] at this
    · exact (value_le_iff _ _).2 (ofRat_le d1 q1 (f.neg != (ofInt Fmt.double (b - a)).neg))
    · intro h; rw [h, zero_mul]; unfold ofRat; rw [if_pos rfl, zero_value]
    · intro h; rw [h, one_mul]; exact (ofRat_exact d1 rfl _).2
  refine ⟨fun f => a + ⌊(f.mul (ofInt Fmt.double (b - a))).value⌋, fun f hf f0 f1 => ?_, fun f g hf hg f0 hfg g1 => ?_⟩
  · obtain ⟨p1, p2, p3, p4, p5⟩ := main f hf f0 f1
    have k0 : 0 ≤ ⌊(f.mul (ofInt Fmt.double (b - a))).value⌋ := Int.floor_nonneg.2 p2
    have k1 : ⌊(f.mul (ofInt Fmt.double (b - a))).value⌋ ≤ b - a + 2 ^ s := by
      have := Int.floor_le_floor (le_trans p3 top)
      rwa [Int.floor_intCast] at this
    have hq : t.holds ⌊(f.mul (ofInt Fmt.double (b - a))).value⌋ := ⟨by have := t.minValue_nonpos; omega, by have := hd.2; omega⟩
    have hr : t.holds (a + ⌊(f.mul (ofInt Fmt.double (b - a))).value⌋) := ⟨by have := ha.1; omega, by have := hb.2; omega⟩
    refine ⟨?_, by show a ≤ a + _; omega, by show a + _ ≤ b + _; omega, fun h => ?_, fun h => ?_⟩
    · unfold interpolateInt
      rw [IntTy.sub_ok ht hbd, Outcome.bind_ok, trunc_ofRat p1 p2 hq, Outcome.bind_ok, IntTy.add_ok ht hr, Outcome.bind_ok,
        IntTy.wrap_of_holds ht hr]; rfl
    · simp only; rw [p4 h]; simp
    · have k2 : b - a - 2 ^ s ≤ ⌊(f.mul (ofInt Fmt.double (b - a))).value⌋ := by
        rw [p5 h]; exact Int.le_floor.2 bot
      show |a + _ - b| ≤ _
      rw [abs_le]; constructor <;> omega
  · have hm := mul_mono hf hg d1 d0 hfg
    have f1 : f.value ≤ 1 := le_trans ((le_iff_value hf hg).1 hfg) g1
    have g0 : 0 ≤ g.value := le_trans f0 ((le_iff_value hf hg).1 hfg)
    have := (le_iff_value (main f hf f0 f1).1 (main g hg g0 g1).1).1 hm
    have := Int.floor_le_floor this
    show a + _ ≤ a + _
    omega

/-- A range of `2^62 + 3` in 64 bits, with `s = 9`: half way is `2^61`, the whole way is 3 short. -/
example : (2 ^ 62 + 3 - 0 : Int) ≤ 2 ^ (54 + 9) ∧ (⟨64, true⟩ : IntTy).holds (2 ^ 62 + 3 + 2 ^ 9) ∧
    interpolateInt ⟨64, true⟩ ⟨false, 0x3FF0000000000000⟩ 0 (2 ^ 62 + 3) = .ok (2 ^ 62) ∧
    interpolateInt ⟨64, true⟩ ⟨false, 0x3FE0000000000000⟩ 0 (2 ^ 62 + 3) = .ok (2 ^ 61) := by decide +kernel

/-- C106 is false for wider 64-bit ranges: `interpolate(1.0, 0, 2^53 + 3)` is `2^53 + 4`, `interpolate(1.0, 0, 2^63 - 1)` is
undefined, and for unsigned numbers `interpolate(1.0, 2^63, 2^64 - 1)` is 0, below the range. -/
theorem c106_refuted :
    interpolateInt ⟨64, true⟩ ⟨false, 0x3FF0000000000000⟩ 0 (2 ^ 53 + 3) = .ok (2 ^ 53 + 4) ∧
    interpolateInt ⟨64, true⟩ ⟨false, 0x3FF0000000000000⟩ 0 (2 ^ 63 - 1) = .ub ∧
    interpolateInt ⟨64, false⟩ ⟨false, 0x3FF0000000000000⟩ (2 ^ 63) (2 ^ 64 - 1) = .ok 0 := by decide +kernel

private theorem whole_way {t : IntTy} (ht : 0 < t.bits) {a b m k V : Int} (hd : t.holds (b - a)) (h1 : m ≤ b - a) (h2 : b - a ≤ k)
    (h0 : 0 ≤ m) (hk : k ≤ 2 ^ 128) (em : (Flt.ofInt Fmt.double m).value = V) (ek : (Flt.ofInt Fmt.double k).value = V)
    (hV : ¬ t.holds V) : interpolateInt t ⟨false, 0x3FF0000000000000⟩ a b = .ub := by
  have hv : (Flt.ofInt Fmt.double (b - a)).value = V :=
    le_antisymm (ek ▸ ofInt_mono h2) (em ▸ ofInt_mono h1)
  obtain ⟨d1, _, _⟩ := ofInt_spec (n := b - a) (by omega) (by omega)
  have one : (⟨false, 0x3FF0000000000000⟩ : Double).finite ∧ (⟨false, 0x3FF0000000000000⟩ : Double).value = 1 := by decide +kernel
  unfold interpolateInt
  rw [IntTy.sub_ok ht hd, Outcome.bind_ok, mul_finite one.1 d1, one.2, one_mul]
  obtain ⟨f1, f2⟩ := ofRat_exact d1 rfl ((⟨false, 0x3FF0000000000000⟩ : Double).neg != (Flt.ofInt Fmt.double (b - a)).neg)
  unfold truncFlt truncTo
  rw [if_pos f1, f2, hv]
  simp only [Rat.num_intCast, Rat.den_intCast, Nat.cast_one, Int.tdiv_one]
  rw [if_neg hV]
  rfl

/-- C106, how far it fails: the whole way is undefined for every signed 64-bit range that is at least `2^63 - 512` wide, and
for every unsigned one that is at least `2^64 - 1024` wide. -/
theorem c106_refuted_wide (a b : Int) :
    ((⟨64, true⟩ : IntTy).holds (b - a) → 2 ^ 63 - 512 ≤ b - a → interpolateInt ⟨64, true⟩ ⟨false, 0x3FF0000000000000⟩ a b = .ub) ∧
    ((⟨64, false⟩ : IntTy).holds (b - a) → 2 ^ 64 - 1024 ≤ b - a →
      interpolateInt ⟨64, false⟩ ⟨false, 0x3FF0000000000000⟩ a b = .ub) := by
  refine ⟨fun hd h => ?_, fun hd h => ?_⟩
  · exact whole_way (by decide) (m := 2 ^ 63 - 512) (k := 2 ^ 63 - 1) (V := 2 ^ 63) hd h (by have := hd.2; norm_num [IntTy.maxValue] at this ⊢; omega)
      (by decide) (by decide) (by decide +kernel) (by decide +kernel) (by decide)
  · exact whole_way (by decide) (m := 2 ^ 64 - 1024) (k := 2 ^ 64 - 1) (V := 2 ^ 64) hd h (by have := hd.2; norm_num [IntTy.maxValue] at this ⊢; omega)
      (by decide) (by decide) (by decide +kernel) (by decide +kernel) (by decide)

example : (⟨64, true⟩ : IntTy).holds (2 ^ 62 - (-(2 ^ 62 - 300))) ∧
    interpolateInt ⟨64, true⟩ ⟨false, 0x3FF0000000000000⟩ (-(2 ^ 62 - 300)) (2 ^ 62) = .ub ∧
    interpolateInt ⟨64, true⟩ ⟨false, 0x3FF0000000000000⟩ (-(2 ^ 62 - 1024)) (2 ^ 62) = .ok (2 ^ 62) := by decide +kernel

/-- C106: fractions that are infinite or not numbers are undefined for every range of every integer type. -/
theorem c106_nonfinite (t : IntTy) (f : Double) (hf : ¬ f.finite) (a b : Int) : interpolateInt t f a b = .ub := by
  have hm : ∀ y : Double, ¬ (f.mul y).finite := by
    intro y
    have hq : ¬ (qNaN Fmt.double).finite := by decide
    unfold Flt.mul
    simp only
    split
    · exact hq
    · rw [if_pos (Or.inl hf)]
      split
      · exact hq
      · exact Nat.lt_irrefl _
  unfold interpolateInt truncFlt
  unfold IntTy.sub IntTy.result
  split
  · split
    · rw [Outcome.bind_ok, if_neg (hm _)]; rfl
    · rfl
  · rw [Outcome.bind_ok, if_neg (hm _)]; rfl

example : ¬ (⟨true, 0x7FF0000000000000⟩ : Double).finite ∧
    interpolateInt ⟨32, true⟩ ⟨true, 0x7FF0000000000000⟩ 5 5 = .ub := by decide +kernel

/-- `interpolate(0.5, -3, 10)` is 3. -/
example : interpolateInt ⟨32, true⟩ ⟨false, 0x3FE0000000000000⟩ (-3) 10 = .ok 3 := by decide +kernel

/-! ## C107 -/

private theorem ofInt_two (F : Fmt) : (ofInt F 2).finite ∧ (ofInt F 2).value = 2 := by
  obtain ⟨g, hg⟩ := natCast_representable F 2 (by
    have : 2 ^ 1 ≤ 2 ^ (F.m + 1) := Nat.pow_le_pow_right (by omega) (by omega)
    omega)
  have hf : g < infMag F := by
    apply finite_of_value_lt; rw [hg]
    have h1 : 2 ^ 1 ≤ 2 ^ (F.e - 1) := Nat.pow_le_pow_right (by omega) (by have := F.he; omega)
    have h2 : (2 : ℚ) ^ 2 ≤ 2 ^ (2 ^ (F.e - 1)) := pow_le_pow_right₀ (by norm_num) (by omega)
    refine lt_of_lt_of_le ?_ h2
    norm_num
  unfold ofInt
  have := ofRat_exact (x := ⟨false, g⟩) (q := ((2 : Int) : ℚ)) hf (by simp [value, hg]) false
  exact ⟨this.1, by rw [this.2]; norm_num⟩

private theorem mid_eq {lb hb : Boundary} (b : Build) (r : ValueRange (Flt F) lb hb) (h : r.lo ≤ r.hi) :
    r.midFlt b = .ok (r.hi.sub ((r.hi.sub r.lo).div (Flt.ofInt F 2))) := by
  unfold ValueRange.midFlt ValueRange.sizeFlt noexcept
  have : debugAssert b (decide (r.lo ≤ r.hi)) "value_range min should be <= max" = .ok ⟨⟩ := by
    rw [decide_eq_true h]; cases b <;> rfl
  rw [this]; rfl

/-- C107, the part that holds, for every format: for finite ends whose difference does not overflow, `mid()` lies between
them. -/
theorem c107_partial {lb hb : Boundary} (b : Build) (r : ValueRange (Flt F) lb hb) (hl : r.lo.finite) (hh : r.hi.finite)
    (h : r.lo ≤ r.hi) (hs : (r.hi.sub r.lo).finite) :
    ∃ m : Flt F, r.midFlt b = .ok m ∧ m.finite ∧ r.lo ≤ m ∧ m ≤ r.hi := by
  obtain ⟨t1, t2⟩ := ofInt_two F
  have hv := (le_iff_value hl hh).1 h
  have hz := zero_finite F false
  refine ⟨_, mid_eq b r h, ?_⟩
  have s0 := sub_nonneg hl hh hv
  rw [div_finite hs t1 (by rw [t2]; norm_num), t2]
  generalize hsg : ((r.hi.sub r.lo).neg != (Flt.ofInt F 2).neg) = sg
  -- the half is not negative and at most the exact difference
  have half : (ofRat F sg ((r.hi.sub r.lo).value / 2)).finite ∧ 0 ≤ (ofRat F sg ((r.hi.sub r.lo).value / 2)).value ∧
      (ofRat F sg ((r.hi.sub r.lo).value / 2)).value ≤ r.hi.value - r.lo.value := by
    rcases lt_or_eq_of_le hv with hlt | heq
    · have ht := tiniest_le_sub hlt
      obtain ⟨g, g1, g2, g3⟩ := half_round_le ht
      have hmag : magValue F (roundMag F (r.hi.value - r.lo.value)) = (r.hi.sub r.lo).value := by
        have hk := key_ofRat (F := F) (r.hi.neg && !r.lo.neg) (r.hi.value - r.lo.value)
        rw [if_neg (by linarith), abs_of_nonneg (by linarith), ← sub_finite hh hl] at hk
        have hlt2 : roundMag F (r.hi.value - r.lo.value) < infMag F := by
          rw [finite_iff_key, hk] at hs
          by_contra hc
          have : Nat.min (roundMag F (r.hi.value - r.lo.value)) (infMag F) = infMag F := Nat.min_eq_right (by omega)
          rw [this] at hs; omega
        have e1 : Nat.min (roundMag F (r.hi.value - r.lo.value)) (infMag F) = roundMag F (r.hi.value - r.lo.value) :=
          Nat.min_eq_left (le_of_lt hlt2)
        rw [e1] at hk
        have := (value_eq_iff (⟨false, roundMag F (r.hi.value - r.lo.value)⟩ : Flt F) (r.hi.sub r.lo)).2
          (by rw [hk]; simp [key])
        rw [← this]; simp [value]
      rw [hmag] at g3
      have gf : (⟨false, g⟩ : Flt F).finite := by
        have : magValue F g ≤ magValue F (roundMag F (r.hi.value - r.lo.value)) := by
          have := le_roundMag (F := F) g2
          exact (magValue_strictMono F).monotone this
        have hle := (magValue_strictMono F).le_iff_le.1 this
        have : roundMag F (r.hi.value - r.lo.value) < infMag F := by
          apply finite_of_value_lt
          rw [hmag]
          have := value_lt_of_finite (F := F) hs
          rw [← abs_value, abs_of_nonneg s0] at this
          exact this
        unfold finite; simp only; omega
      have gv : (⟨false, g⟩ : Flt F).value = magValue F g := by simp [value]
      have b1 := ofRat_finite hz gf (q := (r.hi.sub r.lo).value / 2) (by rw [zero_value]; linarith) (by rw [gv]; exact g3) sg
      have b2 := (value_le_iff _ _).2 (ofRat_le gf (q := (r.hi.sub r.lo).value / 2) (by rw [gv]; exact g3) sg)
      have b3 := (value_le_iff _ _).2 (le_ofRat hz (q := (r.hi.sub r.lo).value / 2) (by rw [zero_value]; linarith) sg)
      rw [gv] at b2; rw [zero_value] at b3
      exact ⟨b1, b3, le_trans b2 g2⟩
    · have e : r.hi.sub r.lo = ofRat F (r.hi.neg && !r.lo.neg) 0 := by rw [sub_finite hh hl, heq, sub_self]
      have e2 : (r.hi.sub r.lo).value = 0 := by rw [e]; unfold ofRat; rw [if_pos rfl, zero_value]
      rw [e2, zero_div]
      unfold ofRat
      rw [if_pos rfl, zero_value, heq, sub_self]
      exact ⟨zero_finite _ _, le_refl _, le_refl _⟩
  obtain ⟨f1, f2, f3⟩ := half
  rw [sub_finite hh f1]
  generalize (r.hi.neg && !(ofRat F sg ((r.hi.sub r.lo).value / 2)).neg) = sg2
  have c1 : r.lo.value ≤ r.hi.value - (ofRat F sg ((r.hi.sub r.lo).value / 2)).value := by linarith
  have c2 : r.hi.value - (ofRat F sg ((r.hi.sub r.lo).value / 2)).value ≤ r.hi.value := by linarith
  exact ⟨ofRat_finite hl hh c1 c2 _, ⟨not_isNaN_of_finite hl, ofRat_not_nan _ _, le_ofRat hl c1 _⟩,
    ⟨ofRat_not_nan _ _, not_isNaN_of_finite hh, ofRat_le hh c2 _⟩⟩

/-- C107 is false whenever the difference overflows: `mid()` is minus infinity, in every format and build. -/
theorem c107_refuted {lb hb : Boundary} (b : Build) (r : ValueRange (Flt F) lb hb) (hl : r.lo.finite) (hh : r.hi.finite)
    (h : r.lo ≤ r.hi) (hs : ¬ (r.hi.sub r.lo).finite) :
    ∃ m : Flt F, r.midFlt b = .ok m ∧ ¬ m.finite ∧ m < r.lo := by
  obtain ⟨t1, t2⟩ := ofInt_two F
  have hv := (le_iff_value hl hh).1 h
  have s0 := sub_nonneg hl hh hv
  have hn : ¬ (r.hi.sub r.lo).isNaN := by rw [sub_finite hh hl]; exact ofRat_not_nan _ _
  have hneg : (r.hi.sub r.lo).neg = false := by
    rw [sub_finite hh hl] at hs ⊢
    unfold ofRat at hs ⊢
    split at hs
    · exact absurd (zero_finite _ _) hs
    · rename_i h0
      rw [if_neg h0]; simp; linarith
  have tneg : (Flt.ofInt F 2).neg = false := by
    unfold ofInt ofRat; rw [if_neg (by norm_num)]; simp
  refine ⟨_, mid_eq b r h, ?_⟩
  have e : (r.hi.sub r.lo).div (Flt.ofInt F 2) = ⟨false, infMag F⟩ := by
    unfold div
    simp only
    rw [if_neg (by rintro (h | h); exact hn h; exact not_isNaN_of_finite t1 h), if_pos hs, if_neg (by simpa using t1),
      hneg, tneg]
    rfl
  have e2 : r.hi.sub (⟨false, infMag F⟩ : Flt F) = ⟨true, infMag F⟩ := by
    unfold sub add negate
    simp only
    rw [if_neg (by rintro (h | h); exact not_isNaN_of_finite hh h; simp [isNaN] at h), if_neg (by simpa using hh),
      if_pos (by simp [finite])]
    rfl
  rw [e, e2]
  refine ⟨by simp [finite], by simp [isNaN], not_isNaN_of_finite hl, ?_⟩
  have := (finite_iff_key r.lo).1 hl
  simp only [key, if_true] at *
  exact this.1

/-- The mid of `[1.0, 4.0]` is 2.5; the full range of `double` has its mid at minus infinity. -/
example : (⟨⟨false, 0x3FF0000000000000⟩, ⟨false, 0x4010000000000000⟩⟩ : ValueRange Double .closed .closed).midFlt .debug =
      .ok ⟨false, 0x4004000000000000⟩ ∧
    (⟨⟨true, infMag Fmt.double - 1⟩, Flt.max _⟩ : ValueRange Double .closed .closed).midFlt .debug =
      .ok ⟨true, infMag Fmt.double⟩ := by decide +kernel

/-! ## C108 -/

/-- C108, the part that holds: for a range of a floating-point type, `r.interpolate(f)` is `interpolate(f, r.min(), r.max())` if
`f` is a number of that type (every `f` but NaN, for a range of `double`s). -/
theorem c108_partial {lb hb : Boundary} :
    (∀ (r : ValueRange Double lb hb) (f : Double), ¬ f.isNaN → r.interpolateArgF f = interpolateFlt f r.lo r.hi) ∧
    (Wider F Fmt.double → ∀ (r : ValueRange (Flt F) lb hb) (f : Double) (g : Flt F), f.finite → g.finite → f.value = g.value →
      f.neg = g.neg → r.interpolateArgF f = interpolateFlt f r.lo r.hi) := by
  refine ⟨fun r f hf => ?_, fun hF r f g hf hg hv hn => ?_⟩
  · unfold ValueRange.interpolateArgF ValueRange.interpolateF
    rw [convert_self hf, convert_self hf]
  · unfold ValueRange.interpolateArgF ValueRange.interpolateF
    have e1 : f.convert F = g := by
      rw [convert_finite hf, hv, hn, ← convert_finite hg, convert_self (not_isNaN_of_finite hg)]
    have e2 : g.convert Fmt.double = f := by
      rw [convert_finite hg, ← hv, ← hn, ← convert_finite hf, convert_self (not_isNaN_of_finite hf)]
    rw [e1, e2]

/-- C108 is false for integer types: `value_range<int>{0, 10}.interpolate(0.5)` is 0, `interpolate(0.5, 0, 10)` is 5. -/
theorem c108_refuted :
    (⟨0, 10⟩ : ValueRange Int .closed .closed).interpolateArgI ⟨32, true⟩ ⟨false, 0x3FE0000000000000⟩ = .ok 0 ∧
    interpolateInt ⟨32, true⟩ ⟨false, 0x3FE0000000000000⟩ 0 10 = .ok 5 := by decide +kernel

/-- C108: for integer types a fraction that is infinite or not a number is undefined, as for the free function. -/
theorem c108_nonfinite {lb hb : Boundary} (t : IntTy) (r : ValueRange Int lb hb) (f : Double) (hf : ¬ f.finite) :
    r.interpolateArgI t f = .ub ∧ interpolateInt t f r.lo r.hi = .ub := by
  refine ⟨?_, c106_nonfinite t f hf _ _⟩
  unfold ValueRange.interpolateArgI truncFlt
  rw [if_neg hf]
  rfl

/-- C108, what happens for integer types: the fraction is truncated to an integer, so every fraction from 0 to below 1 gives
the lower end. -/
theorem c108_int_truncated {lb hb : Boundary} (t : IntTy) (ht : 0 < t.bits) (r : ValueRange Int lb hb) (h128 : t.bits ≤ 128)
    (hl : t.holds r.lo) (hd : t.holds (r.hi - r.lo)) (hle : r.lo ≤ r.hi) (f : Double) (hf : f.finite) (h0 : 0 ≤ f.value)
    (h1 : f.value < 1) : r.interpolateArgI t f = .ok r.lo := by
  have hfl : ⌊f.value⌋ = 0 := Int.floor_eq_zero_iff.2 ⟨h0, h1⟩
  unfold ValueRange.interpolateArgI ValueRange.interpolateI
  rw [trunc_ofRat hf h0 (by rw [hfl]; exact t.holds_zero), hfl, Outcome.bind_ok]
  have ez : Flt.ofInt Fmt.double 0 = ⟨false, 0⟩ := by unfold ofInt ofRat; rw [if_pos (by simp)]
  obtain ⟨d1, _, _⟩ := ofInt_spec (n := r.hi - r.lo) (by omega) (holds_small h128 hd)
  unfold interpolateInt
  rw [IntTy.sub_ok ht hd, Outcome.bind_ok, ez, mul_finite (zero_finite _ _) d1, zero_value, zero_mul]
  generalize ((⟨false, 0⟩ : Double).neg != (Flt.ofInt Fmt.double (r.hi - r.lo)).neg) = s
  have e : ofRat Fmt.double s 0 = ⟨s, 0⟩ := by unfold ofRat; rw [if_pos rfl]
  rw [e, trunc_ofRat (zero_finite _ _) (by rw [zero_value]) (by rw [zero_value]; simpa using t.holds_zero), Outcome.bind_ok, zero_value]
  have hr : t.holds (r.lo + ⌊(0 : ℚ)⌋) := by simpa using hl
  rw [IntTy.add_ok ht hr, Outcome.bind_ok, IntTy.wrap_of_holds ht hr]
  simp

example : (⟨⟨false, 0x3FF0000000000000⟩, ⟨false, 0x4010000000000000⟩⟩ : ValueRange Double .closed .closed).interpolateArgF
      ⟨false, 0x3FE0000000000000⟩ = ⟨false, 0x4004000000000000⟩ ∧
    (⟨-3, 10⟩ : ValueRange Int .closed .closed).interpolateArgI ⟨32, true⟩ ⟨false, 0x3FEFFFFFFFFFFFFF⟩ = .ok (-3) := by
  decide +kernel

/-! ## C109 -/

/-- Call a setter of a range of a floating-point type in a debug build. -/
def fltStep {lb hb : Boundary} : SetOp (Flt F) → St (ValueRange (Flt F) lb hb) PUnit
  | .min x => ValueRange.setMin (fun x => .ok (nextFlt x)) .debug x
  | .max x => ValueRange.setMax (fun x => .ok (prevFlt x)) .debug x

private theorem not_above {lb hb : Boundary} {r : ValueRange (Flt F) lb hb} {y : Flt F} (hy : ¬ y.isNaN) (hr : ¬ r.hi.isNaN)
    (h : r.aboveMax y = false) : y.key ≤ r.hi.key := by
  cases hb
  · have : ¬ (r.hi < y) := by simpa [ValueRange.aboveMax] using h
    by_contra hc
    exact this ⟨hr, hy, by omega⟩
  · have : ¬ (r.hi ≤ y) := by simpa [ValueRange.aboveMax] using h
    by_contra hc
    exact this ⟨hr, hy, by omega⟩

private theorem not_below {lb hb : Boundary} {r : ValueRange (Flt F) lb hb} {y : Flt F} (hy : ¬ y.isNaN) (hr : ¬ r.lo.isNaN)
    (h : r.belowMin y = false) : r.lo.key ≤ y.key := by
  cases lb
  · have : ¬ (y < r.lo) := by simpa [ValueRange.belowMin] using h
    by_contra hc
    exact this ⟨hy, hr, by omega⟩
  · have : ¬ (y ≤ r.lo) := by simpa [ValueRange.belowMin] using h
    by_contra hc
    exact this ⟨hy, hr, by omega⟩

private theorem next_spec {x : Flt F} (hx : x.finite) : ¬ (nextFlt x).isNaN ∧ x.key ≤ (nextFlt x).key := by
  have hm := max_finite F
  have hk := key_le_max hx
  unfold nextFlt
  rcases lt_or_eq_of_le hk with h | h
  · obtain ⟨h1, h2⟩ := nextToward_up hx hm h
    exact ⟨not_isNaN_of_finite h2, by omega⟩
  · rw [nextToward_eq hx hm h]
    exact ⟨not_isNaN_of_finite hm, hk⟩

private theorem prev_spec {x : Flt F} (hx : x.finite) (h : (Flt.min F).value ≤ x.value) :
    ¬ (prevFlt x).isNaN ∧ (prevFlt x).key ≤ x.key := by
  have hm := min_finite F
  have hk := (value_le_iff _ _).1 h
  unfold prevFlt
  rcases lt_or_eq_of_le hk with h | h
  · obtain ⟨h1, h2⟩ := nextToward_down hx hm h
    exact ⟨not_isNaN_of_finite h2, by omega⟩
  · rw [nextToward_eq hx hm h.symm]
    exact ⟨not_isNaN_of_finite hm, hk⟩

/-- The arguments for which the setters of a floating-point range keep it in order. -/
def Settable (lb hb : Boundary) : SetOp (Flt F) → Prop
  | .min x => ¬ x.isNaN ∧ (lb = .opened → x.finite)
  | .max x => ¬ x.isNaN ∧ (hb = .opened → x.finite ∧ (Flt.min F).value ≤ x.value)

private theorem fltStep_keeps {lb hb : Boundary} (op : SetOp (Flt F)) (r : ValueRange (Flt F) lb hb) (hop : Settable lb hb op)
    (hr : r.lo ≤ r.hi) : ((fltStep op).run r).2.lo ≤ ((fltStep op).run r).2.hi := by
  obtain ⟨h1, h2, h3⟩ := hr
  cases op with
  | min x =>
    obtain ⟨hx, ho⟩ := hop
    simp only [fltStep]
    unfold ValueRange.setMin
    rw [St.run_bind_ok (St.run_get r)]
    cases lb with
    | closed =>
      simp only
      rcases h : r.aboveMax x
      · rw [St.run_bind_ok (s' := r) (a := ⟨⟩) (by simp [debugAssert])]
        exact ⟨hx, h2, not_above (r := r) hx h2 h⟩
      · rw [St.run_bind_throw (s' := r) (e := .assertion "value_range setting min > max") (by simp [debugAssert])]
        exact ⟨h1, h2, h3⟩
    | opened =>
      obtain ⟨hy, hle⟩ := next_spec (ho rfl)
      simp only
      rw [St.run_bind_ok (St.run_lift _ r)]
      rcases h : r.aboveMax (nextFlt x)
      · rw [St.run_bind_ok (s' := r) (a := ⟨⟩) (by simp [debugAssert])]
        exact ⟨hx, h2, le_trans hle (not_above (r := r) hy h2 h)⟩
      · rw [St.run_bind_throw (s' := r) (e := .assertion "value_range setting min > max") (by simp [debugAssert])]
        exact ⟨h1, h2, h3⟩
  | max x =>
    obtain ⟨hx, ho⟩ := hop
    simp only [fltStep]
    unfold ValueRange.setMax
    rw [St.run_bind_ok (St.run_get r)]
    cases hb with
    | closed =>
      simp only
      rcases h : r.belowMin x
      · rw [St.run_bind_ok (s' := r) (a := ⟨⟩) (by simp [debugAssert])]
        exact ⟨h1, hx, not_below (r := r) hx h1 h⟩
      · rw [St.run_bind_throw (s' := r) (e := .assertion "value_range setting max < min") (by simp [debugAssert])]
        exact ⟨h1, h2, h3⟩
    | opened =>
      obtain ⟨hy, hle⟩ := prev_spec (ho rfl).1 (ho rfl).2
      simp only
      rw [St.run_bind_ok (St.run_lift _ r)]
      rcases h : r.belowMin (prevFlt x)
      · rw [St.run_bind_ok (s' := r) (a := ⟨⟩) (by simp [debugAssert])]
        exact ⟨h1, hx, le_trans (not_below (r := r) hy h1 h) hle⟩
      · rw [St.run_bind_throw (s' := r) (e := .assertion "value_range setting max < min") (by simp [debugAssert])]
        exact ⟨h1, h2, h3⟩

/-- C109, the part that holds: in a debug build, `min() <= max()` after every history of setter calls whose arguments are not
NaN, are finite where the bound being set is open, and are at least `numeric_limits<T>::min()` for an open upper bound. -/
theorem c109_partial {lb hb : Boundary} (ops : List (SetOp (Flt F))) (r s : ValueRange (Flt F) lb hb)
    (hops : ∀ op ∈ ops, Settable lb hb op) (hr : r.lo ≤ r.hi) (h : St.history fltStep ops r = some s) : s.lo ≤ s.hi := by
  induction ops generalizing r with
  | nil => cases h; exact hr
  | cons op ops ih =>
    have hstep := fltStep_keeps op r (hops op (by simp)) hr
    unfold St.history at h
    rcases he : fltStep op r with ⟨o, r'⟩
    have hr' : r'.lo ≤ r'.hi := by
      have : (fltStep op).run r = (o, r') := he
      rw [this] at hstep; exact hstep
    rw [he] at h
    cases o <;> simp only at h
    · exact ih r' (fun o ho => hops o (by simp [ho])) hr' h
    · exact ih r' (fun o ho => hops o (by simp [ho])) hr' h
    all_goals cases h

/-- C109 is false for NaN, which every range accepts as its minimum and as its maximum where that bound is closed. -/
theorem c109_refuted_nan {lb hb : Boundary} (r : ValueRange (Flt F) .closed hb) (s : ValueRange (Flt F) lb .closed) (x : Flt F)
    (hx : x.isNaN) :
    St.history fltStep [.min x] r = some ⟨x, r.hi⟩ ∧ ¬ x ≤ r.hi ∧
    St.history fltStep [.max x] s = some ⟨s.lo, x⟩ ∧ ¬ s.lo ≤ x := by
  refine ⟨?_, fun h => h.1 hx, ?_, fun h => h.2.1 hx⟩
  · have ha : r.aboveMax x = false := by
      cases hb <;> simp only [ValueRange.aboveMax, decide_eq_false_iff_not]
      · exact fun h => h.2.1 hx
      · exact fun h => h.2.1 hx
    have hrun : fltStep (.min x) r = (.ok ⟨⟩, ⟨x, r.hi⟩) := by
      change (ValueRange.setMin _ .debug x).run r = _
      unfold ValueRange.setMin
      rw [St.run_bind_ok (St.run_get r)]
      simp only
      rw [St.run_bind_ok (s' := r) (a := ⟨⟩) (by simp [debugAssert, ha])]
      rfl
    simp only [St.history, hrun]
  · have ha : s.belowMin x = false := by
      cases lb <;> simp only [ValueRange.belowMin, decide_eq_false_iff_not]
      · exact fun h => h.1 hx
      · exact fun h => h.1 hx
    have hrun : fltStep (.max x) s = (.ok ⟨⟩, ⟨s.lo, x⟩) := by
      change (ValueRange.setMax _ .debug x).run s = _
      unfold ValueRange.setMax
      rw [St.run_bind_ok (St.run_get s)]
      simp only
      rw [St.run_bind_ok (s' := s) (a := ⟨⟩) (by simp [debugAssert, ha])]
      rfl
    simp only [St.history, hrun]

/-- C109 is false for open bounds without NaN: the range `[0, 1)` accepts the negative number just below 0 as its maximum, and
`(-1, max]` accepts infinity as its minimum. -/
theorem c109_refuted_open :
    St.history fltStep [.max ⟨true, 1⟩] (⟨⟨false, 0⟩, ⟨false, 0x3FF0000000000000⟩⟩ : ValueRange Double .closed .opened) =
      some ⟨⟨false, 0⟩, ⟨true, 1⟩⟩ ∧ (⟨true, 1⟩ : Double) < ⟨false, 0⟩ ∧
    St.history fltStep [.min ⟨false, infMag Fmt.double⟩]
        (⟨⟨true, 0x3FF0000000000000⟩, Flt.max _⟩ : ValueRange Double .opened .closed) =
      some ⟨⟨false, infMag Fmt.double⟩, Flt.max _⟩ ∧ Flt.max Fmt.double < ⟨false, infMag Fmt.double⟩ := by decide +kernel

/-- C109 is false for open bounds of every format without NaN: every range `[lo, hi)` with `lo` at most
`numeric_limits<T>::min()`, all negative `lo` among them, accepts the number just below `lo` as its maximum, and every range
`(lo, max]` accepts infinity as its minimum. -/
theorem c109_refuted_open_everywhere (lo hi x : Flt F) :
    (lo.finite → lo ≤ Flt.min F → x.finite → x < lo → (∀ y : Flt F, y < lo → y ≤ x) →
      St.history fltStep [.max x] (⟨lo, hi⟩ : ValueRange (Flt F) .closed .opened) = some ⟨lo, x⟩ ∧ ¬ lo ≤ x) ∧
    (St.history fltStep [.min ⟨false, infMag F⟩] (⟨lo, Flt.max F⟩ : ValueRange (Flt F) .opened .closed) =
      some ⟨⟨false, infMag F⟩, Flt.max F⟩ ∧ ¬ (⟨false, infMag F⟩ : Flt F) ≤ Flt.max F) := by
  refine ⟨fun hlo hmin hx hlt hmost => ?_, ?_⟩
  · have hk : x.key < (Flt.min F).key := lt_of_lt_of_le hlt.2.2 hmin.2.2
    obtain ⟨h1, h2⟩ := nextToward_up hx (min_finite F) hk
    have hn : ¬ (prevFlt x < lo) := by
      intro hc
      have h3 := (hmost _ hc).2.2
      have h4 : (prevFlt x).key = x.key + 1 := h1
      omega
    have ha : (⟨lo, hi⟩ : ValueRange (Flt F) .closed .opened).belowMin (prevFlt x) = false := by
      simp only [ValueRange.belowMin, decide_eq_false_iff_not]; exact hn
    have hrun : fltStep (.max x) (⟨lo, hi⟩ : ValueRange (Flt F) .closed .opened) = (.ok ⟨⟩, ⟨lo, x⟩) := by
      change (ValueRange.setMax _ .debug x).run _ = _
      unfold ValueRange.setMax
      rw [St.run_bind_ok (St.run_get _)]
      simp only
      rw [St.run_bind_ok (St.run_lift _ _)]
      rw [St.run_bind_ok (s' := ⟨lo, hi⟩) (a := ⟨⟩) (by simp [debugAssert, ha])]
      rfl
    refine ⟨by simp only [St.history, hrun], fun hc => ?_⟩
    have := hc.2.2
    have := hlt.2.2
    omega
  · have hmx := max_finite F
    have hmk : (Flt.max F).key < ((⟨false, infMag F⟩ : Flt F)).key := by
      have : (Flt.max F).mag < infMag F := hmx
      unfold key; simp only [Flt.max, Bool.false_eq_true, if_false] at this ⊢; omega
    have hni : ¬ ((⟨false, infMag F⟩ : Flt F)).isNaN := Nat.lt_irrefl _
    have hnx : nextFlt (⟨false, infMag F⟩ : Flt F) = Flt.max F := by
      have hp : infMag F ≠ 0 := by have : (Flt.max F).mag < infMag F := hmx; omega
      unfold nextFlt nextToward
      rw [if_neg (by rintro (h | h); exacts [hni h, not_isNaN_of_finite hmx h]), if_neg (by omega), if_neg hp, if_neg (by omega)]
      simp [Flt.max]
    have ha : (⟨lo, Flt.max F⟩ : ValueRange (Flt F) .opened .closed).aboveMax (nextFlt ⟨false, infMag F⟩) = false := by
      rw [hnx]
      simp only [ValueRange.aboveMax, decide_eq_false_iff_not]
      intro hc
      have := hc.2.2
      omega
    have hrun : fltStep (.min ⟨false, infMag F⟩) (⟨lo, Flt.max F⟩ : ValueRange (Flt F) .opened .closed) =
        (.ok ⟨⟩, ⟨⟨false, infMag F⟩, Flt.max F⟩) := by
      change (ValueRange.setMin _ .debug _).run _ = _
      unfold ValueRange.setMin
      rw [St.run_bind_ok (St.run_get _)]
      simp only
      rw [St.run_bind_ok (St.run_lift _ _)]
      rw [St.run_bind_ok (s' := ⟨lo, Flt.max F⟩) (a := ⟨⟩) (by simp [debugAssert, ha])]
      rfl
    refine ⟨by simp only [St.history, hrun], fun hc => ?_⟩
    have := hc.2.2
    omega

/-- The range `[-2, 1)` and the number just below -2. -/
example : St.history fltStep [.max ⟨true, 0x4000000000000001⟩]
      (⟨⟨true, 0x4000000000000000⟩, ⟨false, 0x3FF0000000000000⟩⟩ : ValueRange Double .closed .opened) =
    some ⟨⟨true, 0x4000000000000000⟩, ⟨true, 0x4000000000000001⟩⟩ := by decide +kernel

/-- Histories in a small format: the range follows accepted calls and keeps its bounds where a call asserts. -/
example : St.history fltStep [.max ⟨false, 16⟩, .min ⟨false, 14⟩, .max ⟨false, 13⟩, .max ⟨false, 15⟩]
    (⟨⟨false, 12⟩, ⟨false, 20⟩⟩ : ValueRange (Flt .tiny) .closed .opened) = some ⟨⟨false, 14⟩, ⟨false, 15⟩⟩ := by
  decide +kernel

end Wite.Props
