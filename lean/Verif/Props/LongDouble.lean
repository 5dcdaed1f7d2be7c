import Verif.Props.FloatMaths

/-!
# C174: `interpolate` and `fraction` of `long double`
-/

namespace Wite.Props
open Wite Wite.Maths Wite.Maths.Flt

variable {F : Fmt}

private theorem one_spec (F : Fmt) : ∃ o : Flt F, o.finite ∧ o.value = 1 := by
  obtain ⟨n, hn⟩ := natCast_representable F 1 Nat.one_le_two_pow
  refine ⟨⟨false, n⟩, ?_, by simpa using exists_of_mag hn⟩
  refine finite_of_value_lt ?_
  rw [hn]
  have : (1 : ℚ) < 2 ^ (2 ^ (F.e - 1)) := one_lt_pow₀ (by norm_num) (by have := Nat.two_pow_pos (F.e - 1); omega)
  simpa using this

private theorem inf_pos (F : Fmt) : (0 : Int) < infMag F := by
  have := infMag_ge F
  have : 0 < 2 ^ F.m := Nat.two_pow_pos _
  omega

private theorem convert_nan {G : Fmt} {x : Flt F} (h : x.isNaN) : x.convert G = qNaN G := by
  unfold convert
  rw [if_pos h]

private theorem nan_nan (F : Fmt) : (qNaN F).isNaN := by
  have := Nat.two_pow_pos (F.m - 1)
  unfold isNaN qNaN
  simp only
  omega

private theorem add_nan {x y : Flt F} (h : y.isNaN) : x.add y = qNaN F := by
  unfold add
  rw [if_pos (Or.inr h)]

private theorem add_convert (x y : Flt F) : x.add (y.convert F) = x.add y := by
  by_cases h : y.isNaN
  · rw [convert_nan h, add_nan h, add_nan (nan_nan F)]
  · rw [convert_self h]

private theorem mul_convert (x y : Flt F) : x.mul (y.convert F) = x.mul y := by
  by_cases h : y.isNaN
  · have e : ∀ z : Flt F, z.isNaN → x.mul z = qNaN F := fun z hz => by unfold Flt.mul; simp only; rw [if_pos (Or.inr hz)]
    rw [convert_nan h, e _ h, e _ (nan_nan F)]
  · rw [convert_self h]

private theorem convert_mul (x y : Flt F) : (x.convert F).mul y = x.mul y := by
  by_cases h : x.isNaN
  · have e : ∀ z : Flt F, z.isNaN → z.mul y = qNaN F := fun z hz => by unfold Flt.mul; simp only; rw [if_pos (Or.inl hz)]
    rw [convert_nan h, e _ h, e _ (nan_nan F)]
  · rw [convert_self h]

private theorem div_convert (x y : Flt F) : x.div (y.convert F) = x.div y := by
  by_cases h : y.isNaN
  · have e : ∀ z : Flt F, z.isNaN → x.div z = qNaN F := fun z hz => by unfold Flt.div; simp only; rw [if_pos (Or.inr hz)]
    rw [convert_nan h, e _ h, e _ (nan_nan F)]
  · rw [convert_self h]

private theorem convert_div (x y : Flt F) : (x.convert F).div y = x.div y := by
  by_cases h : x.isNaN
  · have e : ∀ z : Flt F, z.isNaN → z.div y = qNaN F := fun z hz => by unfold Flt.div; simp only; rw [if_pos (Or.inl hz)]
    rw [convert_nan h, e _ h, e _ (nan_nan F)]
  · rw [convert_self h]

private theorem div_self_convert (x y : Flt F) : (x.div y).convert F = x.div y := by
  by_cases h : (x.div y).isNaN
  · rw [convert_nan h]
    revert h
    unfold Flt.div
    simp only
    split_ifs <;> first
      | exact fun _ => rfl
      | exact fun h => absurd h (ofRat_not_nan _ _)
      | exact fun h => absurd h (by simp [isNaN])
  · rw [convert_self h]

/-- C174: where `long double` is `double`, the functions for it do the same as those for `double`, NaN included. -/
theorem c174_double_partial (f a b x : Double) :
    interpolateWide f a b = interpolateFlt f a b ∧ fractionWide x a b = fractionFlt x a b := by
  constructor
  · unfold interpolateWide interpolateFlt
    rw [add_convert, mul_convert, convert_mul]
  · unfold fractionWide fractionFlt
    rw [div_convert, convert_div, div_self_convert]

/-- C174, what holds of `interpolate`: for finite ends with `a <= b` whose difference does not overflow and finite
fractions, the result is never NaN, is monotone in the fraction, `a` at 0 and not below `a` for fractions from 0. -/
theorem c174_interpolate_partial (hF : Wider Fmt.double F) (a b : Flt F) (ha : a.finite) (hb : b.finite) (hab : a ≤ b)
    (hd : (b.sub a).finite) :
    (∀ f g : Double, f.finite → g.finite → f ≤ g → interpolateWide f a b ≤ interpolateWide g a b) ∧
    (∀ s, (interpolateWide (⟨s, 0⟩ : Double) a b == a) = true) ∧
    ∀ f : Double, f.finite → 0 ≤ f.value → a ≤ interpolateWide f a b := by
  have h0 : 0 ≤ (b.sub a).value := sub_nonneg ha hb ((le_iff_value ha hb).1 hab)
  have mono : ∀ f g : Double, f.finite → g.finite → f ≤ g → interpolateWide f a b ≤ interpolateWide g a b := by
    intro f g hf hg hfg
    exact add_mono ha (mul_mono (convert_exact hF hf).1 (convert_exact hF hg).1 hd h0 (convert_mono hfg))
  have zero : ∀ s, (interpolateWide (⟨s, 0⟩ : Double) a b == a) = true := by
    intro s
    have hz := zero_finite Fmt.double s
    unfold interpolateWide
    rw [convert_finite hz, zero_value]
    unfold ofRat
    rw [if_pos rfl, mul_finite (zero_finite _ _) hd, zero_value, zero_mul]
    unfold ofRat
    rw [if_pos rfl, add_finite ha (zero_finite _ _), zero_value, add_zero]
    exact beq_def.2 ⟨ofRat_not_nan _ _, not_isNaN_of_finite ha, ofRat_value ha _⟩
  refine ⟨mono, zero, fun f hf hp => ?_⟩
  have hz := zero_finite Fmt.double false
  have h1 : (⟨false, 0⟩ : Double) ≤ f := (le_iff_value hz hf).2 (by rw [zero_value]; exact hp)
  have h2 := mono _ _ hz hf h1
  have h3 := beq_def.1 (zero false)
  exact ⟨h3.2.1, h2.2.1, by rw [← h3.2.2]; exact h2.2.2⟩

private theorem dbl_one' : (⟨false, 0x3FF0000000000000⟩ : Double).finite ∧ (⟨false, 0x3FF0000000000000⟩ : Double).value = 1 := by
  decide +kernel

/-- C174, what holds of `interpolate` at the upper end: if the difference of the ends is representable in the type,
`interpolate(1, a, b)` is `b` and fractions up to 1 do not lead above `b`. -/
theorem c174_upper_partial (hF : Wider Fmt.double F) (a b d : Flt F) (ha : a.finite) (hb : b.finite) (hab : a ≤ b)
    (hd : d.finite) (hdv : d.value = b.value - a.value) (f : Double) (hf : f.finite) :
    (f.value = 1 → (interpolateWide f a b == b) = true) ∧ (f.value ≤ 1 → interpolateWide f a b ≤ b) := by
  have hs : (b.sub a).finite ∧ (b.sub a).value = b.value - a.value := by
    rw [sub_finite hb ha]; exact ofRat_exact hd hdv _
  have hone : ∀ f : Double, f.finite → f.value = 1 → (interpolateWide f a b == b) = true := by
    intro f hf h1
    obtain ⟨c1, c2⟩ := convert_exact hF hf
    unfold interpolateWide
    rw [mul_finite c1 hs.1, c2, h1, one_mul]
    obtain ⟨e1, e2⟩ := ofRat_exact hs.1 rfl ((f.convert F).neg != (b.sub a).neg)
    rw [add_finite ha e1, e2, hs.2, add_sub_cancel]
    exact beq_def.2 ⟨ofRat_not_nan _ _, not_isNaN_of_finite hb, ofRat_value hb _⟩
  refine ⟨hone f hf, fun hle => ?_⟩
  obtain ⟨o1, o2⟩ := dbl_one'
  have h2 := (c174_interpolate_partial hF a b ha hb hab hs.1).1 f _ hf o1 ((le_iff_value hf o1).2 (by rw [o2]; exact hle))
  have h3 := beq_def.1 (hone _ o1 o2)
  exact ⟨h2.1, h3.2.1, by rw [← h3.2.2]; exact h2.2.2⟩

/-- C174, how far `interpolate` misses the upper end at most: as long as the result is finite, fractions between 0 and 1 lead
at most `2^-m` of the difference beyond `b`, and `interpolate(1, a, b)` is no further than that from `b`; `m` is 63 for the
`long double` of x86. -/
theorem c174_near_partial (hF : Wider Fmt.double F) (a b : Flt F) (f : Double) (ha : a.finite) (hb : b.finite)
    (hab : a ≤ b) (hd : (b.sub a).finite) (hf : f.finite) (h0 : 0 ≤ f.value) (h1 : f.value ≤ 1)
    (hr : (interpolateWide f a b).finite) :
    (interpolateWide f a b).value ≤ b.value + (b.value - a.value) / 2 ^ F.m ∧
    (f.value = 1 → |(interpolateWide f a b).value - b.value| ≤ (b.value - a.value) / 2 ^ F.m) := by
  have hv := (le_iff_value ha hb).1 hab
  have d0 := Flt.sub_nonneg ha hb hv
  obtain ⟨c1, c2⟩ := convert_exact hF hf
  have hz := zero_finite F false
  have hy : ((f.convert F).mul (b.sub a)).finite ∧ ((f.convert F).mul (b.sub a)).value ≤ (b.sub a).value ∧
      (f.value = 1 → ((f.convert F).mul (b.sub a)).value = (b.sub a).value) := by
    rw [mul_finite c1 hd, c2]
    generalize ((f.convert F).neg != (b.sub a).neg) = s
    have q0 : 0 ≤ f.value * (b.sub a).value := mul_nonneg h0 d0
    have q1 : f.value * (b.sub a).value ≤ (b.sub a).value := by
      have := mul_le_mul_of_nonneg_right h1 d0; linarith
    exact ⟨ofRat_finite hz hd (by rw [zero_value]; exact q0) q1 _, (value_le_iff _ _).2 (ofRat_le hd q1 _), fun h => by
      rw [h, one_mul]; exact (ofRat_exact hd rfl _).2⟩
  have hs := add_near ha hb hv hd hy.1 hy.2.1 hr
  exact ⟨hs.1, fun h => hs.2 (hy.2.2 h)⟩

private theorem neg_of_pos {d : Flt F} (hp : 0 < d.value) : d.neg = false := by
  by_contra h
  have hn : d.neg = true := by simpa using h
  unfold value at hp
  rw [if_pos hn] at hp
  have := magValue_nonneg F d.mag
  linarith

private theorem nonneg_of_key {x : Flt F} (h : 0 ≤ x.key) (hm : x.mag ≠ 0) : x.neg = false := by
  by_contra hn
  have hn : x.neg = true := by simpa using hn
  unfold key at h
  rw [if_pos hn] at h
  omega

/-- Division of a non-negative number (infinity included) by a positive finite one. -/
private theorem div_pos {x d : Flt F} (hx : ¬ x.isNaN) (h0 : 0 ≤ x.key) (hd : d.finite) (hp : 0 < d.value) :
    ¬ (x.div d).isNaN ∧ 0 ≤ (x.div d).key ∧ (¬ x.finite → x.div d = ⟨false, infMag F⟩) := by
  have hdn := neg_of_pos hp
  by_cases fx : x.finite
  · rw [div_finite fx hd (ne_of_gt hp)]
    refine ⟨ofRat_not_nan _ _, ?_, fun h => absurd fx h⟩
    have hv : 0 ≤ x.value := value_nonneg_of_key h0
    have := le_ofRat (zero_finite F false) (q := x.value / d.value) (by rw [zero_value]; exact div_nonneg hv (le_of_lt hp))
      (x.neg != d.neg)
    simpa [key] using this
  · have hxm : x.mag ≠ 0 := by
      intro h
      apply fx
      have := inf_pos F
      unfold finite
      omega
    have e : x.div d = ⟨false, infMag F⟩ := by
      unfold Flt.div
      rw [if_neg (by rintro (h | h); exact hx h; exact not_isNaN_of_finite hd h), if_pos fx, if_neg (by simpa using hd),
        nonneg_of_key h0 hxm, hdn]
      rfl
    rw [e]
    exact ⟨by simp [isNaN], by simp [key], fun _ => rfl⟩

private theorem div_mono {x y d : Flt F} (hxy : x ≤ y) (h0 : 0 ≤ x.key) (hd : d.finite) (hp : 0 < d.value) :
    x.div d ≤ y.div d := by
  obtain ⟨hx, hy, hk⟩ := hxy
  obtain ⟨a1, a2, a3⟩ := div_pos hx h0 hd hp
  obtain ⟨b1, b2, b3⟩ := div_pos hy (le_trans h0 hk) hd hp
  refine ⟨a1, b1, ?_⟩
  by_cases fy : y.finite
  · have fx : x.finite := by
      rw [finite_iff_key] at fy ⊢
      omega
    rw [div_finite fx hd (ne_of_gt hp), div_finite fy hd (ne_of_gt hp)]
    have := (value_le_iff x y).2 hk
    exact ofRat_mono (by gcongr) _ _
  · rw [b3 fy]
    have := (key_bounds a1).2
    simpa [key] using this

private theorem convert_nonneg {G : Fmt} {x : Flt F} (hx : ¬ x.isNaN) (h0 : 0 ≤ x.key) :
    ¬ (x.convert G).isNaN ∧ 0 ≤ (x.convert G).key := by
  have hz : (⟨false, 0⟩ : Flt F) ≤ x := ⟨not_isNaN_of_finite (zero_finite F false), hx, by simpa [key] using h0⟩
  have h := convert_mono (G := G) hz
  refine ⟨h.2.1, ?_⟩
  have e : ((⟨false, 0⟩ : Flt F).convert G).key = 0 := by
    rw [convert_finite (zero_finite F false), zero_value]
    unfold ofRat
    rw [if_pos rfl]
    simp [key]
  have := h.2.2
  rw [e] at this
  exact this

private theorem sub_mono {a x y : Flt F} (ha : a.finite) (hx : x.finite) (hy : y.finite) (hxy : x ≤ y) : x.sub a ≤ y.sub a := by
  rw [sub_finite hx ha, sub_finite hy ha]
  have := (le_iff_value hx hy).1 hxy
  exact ⟨ofRat_not_nan _ _, ofRat_not_nan _ _, ofRat_mono (by linarith) _ _⟩

private theorem wide_eq {a b : Flt F} (x : Flt F) (ha : a.finite) (hb : b.finite) (hab : a < b) :
    fractionWide x a b = ((((x.sub a).convert Fmt.double).convert F).div (b.sub a)).convert Fmt.double ∧ 0 < (b.sub a).value := by
  have v := (lt_iff_value ha hb).1 hab
  refine ⟨?_, sub_pos ha hb v⟩
  unfold fractionWide
  rw [if_neg]
  intro h
  have := (beq_iff_value hb ha).1 h
  linarith

private theorem diff_pos {a x : Flt F} (ha : a.finite) (hx : x.finite) (hax : a ≤ x) :
    ¬ (x.sub a).isNaN ∧ 0 ≤ (x.sub a).key := by
  have v := (le_iff_value ha hx).1 hax
  refine ⟨by rw [sub_finite hx ha]; exact ofRat_not_nan _ _, ?_⟩
  rw [sub_finite hx ha]
  have := le_ofRat (zero_finite F false) (q := x.value - a.value) (by rw [zero_value]; linarith) (x.neg && !a.neg)
  simpa [key] using this

/-- C174, what holds of `fraction`: for finite `a < b` whose difference does not overflow, and numbers from `a` on, it is
never NaN or negative, is monotone and 0 at `a`. -/
theorem c174_fraction_partial (a b : Flt F) (ha : a.finite) (hb : b.finite) (hab : a < b) (hd : (b.sub a).finite) :
    (∀ x, x.finite → a ≤ x → ¬ (fractionWide x a b).isNaN ∧ 0 ≤ (fractionWide x a b).key) ∧
    (∀ x y, x.finite → y.finite → a ≤ x → x ≤ y → fractionWide x a b ≤ fractionWide y a b) ∧
    (fractionWide a a b).value = 0 := by
  have hp := (wide_eq a ha hb hab).2
  refine ⟨fun x hx hax => ?_, fun x y hx hy hax hxy => ?_, ?_⟩
  · rw [(wide_eq x ha hb hab).1]
    obtain ⟨n1, n2⟩ := diff_pos ha hx hax
    obtain ⟨c1, c2⟩ := convert_nonneg (G := Fmt.double) n1 n2
    obtain ⟨d1, d2⟩ := convert_nonneg (G := F) c1 c2
    obtain ⟨q1, q2, _⟩ := div_pos d1 d2 hd hp
    exact convert_nonneg q1 q2
  · rw [(wide_eq x ha hb hab).1, (wide_eq y ha hb hab).1]
    obtain ⟨n1, n2⟩ := diff_pos ha hx hax
    obtain ⟨c1, c2⟩ := convert_nonneg (G := Fmt.double) n1 n2
    obtain ⟨d1, d2⟩ := convert_nonneg (G := F) c1 c2
    exact convert_mono (div_mono (convert_mono (convert_mono (sub_mono ha hx hy hxy))) d2 hd hp)
  · rw [(wide_eq a ha hb hab).1, sub_finite ha ha, sub_self]
    unfold ofRat
    rw [if_pos rfl, convert_finite (zero_finite _ _), zero_value]
    unfold ofRat
    rw [if_pos rfl, convert_finite (zero_finite _ _), zero_value]
    unfold ofRat
    rw [if_pos rfl, div_finite (zero_finite _ _) hd (ne_of_gt hp), zero_value, zero_div]
    unfold ofRat
    rw [if_pos rfl, convert_finite (zero_finite _ _), zero_value]
    unfold ofRat
    rw [if_pos rfl, zero_value]

private theorem unit_of_le {n d : Flt F} (hn : n.finite) (hd : d.finite) (h0 : 0 ≤ n.value) (h1 : n.value ≤ d.value)
    (hp : 0 < d.value) : (n.div d).finite ∧ 0 ≤ (n.div d).value ∧ (n.div d).value ≤ 1 := by
  have q0 : 0 ≤ n.value / d.value := div_nonneg h0 (le_of_lt hp)
  have q1 : n.value / d.value ≤ 1 := by rw [div_le_one hp]; exact h1
  obtain ⟨o, o1, o2⟩ := one_spec F
  have hz := zero_finite F false
  rw [div_finite hn hd (ne_of_gt hp)]
  refine ⟨ofRat_finite hz o1 (by rw [zero_value]; exact q0) (by rw [o2]; exact q1) _, ?_, ?_⟩
  · have := (value_le_iff _ _).2 (le_ofRat hz (q := n.value / d.value) (by rw [zero_value]; exact q0) (n.neg != d.neg))
    rwa [zero_value] at this
  · have := (value_le_iff _ _).2 (ofRat_le o1 (q := n.value / d.value) (by rw [o2]; exact q1) (n.neg != d.neg))
    rwa [o2] at this

private theorem convert_unit {x : Flt F} (hx : x.finite) (h0 : 0 ≤ x.value) (h1 : x.value ≤ 1) :
    (x.convert Fmt.double).finite ∧ 0 ≤ (x.convert Fmt.double).value ∧ (x.convert Fmt.double).value ≤ 1 := by
  obtain ⟨o1, o2⟩ := dbl_one'
  have hz := zero_finite Fmt.double false
  rw [convert_finite hx]
  refine ⟨ofRat_finite hz o1 (by rw [zero_value]; exact h0) (by rw [o2]; exact h1) _, ?_, ?_⟩
  · have := (value_le_iff _ _).2 (le_ofRat hz (q := x.value) (by rw [zero_value]; exact h0) x.neg)
    rwa [zero_value] at this
  · have := (value_le_iff _ _).2 (ofRat_le o1 (q := x.value) (by rw [o2]; exact h1) x.neg)
    rwa [o2] at this

/-- C174, what holds of `fraction` where the difference of the ends is a `double` (as for ends that are small integers, or
doubles near each other): between 0 and 1, and 1 at `b`. -/
theorem c174_unit_partial (hF : Wider Fmt.double F) (a b : Flt F) (ha : a.finite) (hb : b.finite) (hab : a < b)
    (hd : (b.sub a).finite) (d : Double) (hdf : d.finite) (hdv : d.value = (b.sub a).value) :
    (∀ x, x.finite → a ≤ x → x ≤ b → (fractionWide x a b).finite ∧ 0 ≤ (fractionWide x a b).value ∧ (fractionWide x a b).value ≤ 1) ∧
    (fractionWide b a b).value = 1 := by
  have hp := (wide_eq a ha hb hab).2
  have cb : ((b.sub a).convert Fmt.double).finite ∧ ((b.sub a).convert Fmt.double).value = (b.sub a).value := by
    rw [convert_finite hd]; exact ofRat_exact hdf hdv _
  obtain ⟨e1, e2⟩ := convert_exact hF cb.1
  refine ⟨fun x hx hax hxb => ?_, ?_⟩
  · rw [(wide_eq x ha hb hab).1]
    obtain ⟨n1, n2⟩ := diff_pos ha hx hax
    obtain ⟨c1, c2⟩ := convert_nonneg (G := Fmt.double) n1 n2
    have hle := convert_mono (G := Fmt.double) (sub_mono ha hx hb hxb)
    have cf : ((x.sub a).convert Fmt.double).finite := by
      have := cb.1
      rw [finite_iff_key] at this ⊢
      have := hle.2.2
      omega
    obtain ⟨f1, f2⟩ := convert_exact hF cf
    have q := unit_of_le f1 hd (by rw [f2]; exact value_nonneg_of_key c2)
      (by rw [f2, ← cb.2]; exact (value_le_iff _ _).2 hle.2.2) hp
    exact convert_unit q.1 q.2.1 q.2.2
  · rw [(wide_eq b ha hb hab).1, div_finite e1 hd (ne_of_gt hp), e2, cb.2, div_self (ne_of_gt hp)]
    obtain ⟨o, o1, o2⟩ := one_spec F
    obtain ⟨r1, r2⟩ := ofRat_exact o1 o2 ((((b.sub a).convert Fmt.double).convert F).neg != (b.sub a).neg)
    rw [convert_finite r1, r2]
    exact (ofRat_exact dbl_one'.1 dbl_one'.2 _).2

/-- Rounding changes a number in the normal range by at most a part in `2^(m+1)`. -/
private theorem round_rel (G : Fmt) {r : ℚ} (h : magValue G (2 ^ G.m) ≤ r) :
    magValue G (roundMag G r) ≤ r * (1 + 1 / 2 ^ (G.m + 1)) ∧ r * (1 - 1 / 2 ^ (G.m + 1)) ≤ magValue G (roundMag G r) := by
  have h0 : 0 ≤ r := le_trans (magValue_nonneg G _) h
  obtain ⟨s1, s2⟩ := floorMag_spec G r h0
  have hg : 2 ^ G.m ≤ floorMag G r := by
    have := (magValue_strictMono G).lt_iff_lt.1 (lt_of_le_of_lt h s2)
    omega
  have hpow : 0 < 2 ^ G.m := Nat.two_pow_pos _
  obtain ⟨k, j, hj1, hj2, hgk⟩ : ∃ k j, 2 ^ G.m ≤ j ∧ j + 1 ≤ 2 ^ (G.m + 1) ∧ floorMag G r = k * 2 ^ G.m + j := by
    refine ⟨floorMag G r / 2 ^ G.m - 1, 2 ^ G.m + floorMag G r % 2 ^ G.m, by omega, ?_, ?_⟩
    · have := Nat.mod_lt (floorMag G r) hpow
      rw [Nat.pow_succ]; omega
    · have h1 := Nat.div_add_mod (floorMag G r) (2 ^ G.m)
      have h2 : 1 ≤ floorMag G r / 2 ^ G.m := (Nat.one_le_div_iff hpow).2 hg
      obtain ⟨c, hc⟩ : ∃ c, floorMag G r / 2 ^ G.m = c + 1 := ⟨_, (Nat.sub_add_cancel h2).symm⟩
      rw [hc] at h1 ⊢
      rw [Nat.mul_add, Nat.mul_one, Nat.mul_comm] at h1
      rw [Nat.add_sub_cancel]
      omega
  have v1 : magValue G (floorMag G r) = j * (2 ^ k * tiniest G) := by
    rw [magValue_eq, hgk, scaled_at G k j (Or.inr hj1) (by omega)]; push_cast; ring
  have v2 : magValue G (floorMag G r + 1) = (j + 1) * (2 ^ k * tiniest G) := by
    rw [magValue_eq, hgk, Nat.add_assoc, scaled_at G k (j + 1) (Or.inr (by omega)) hj2]; push_cast; ring
  have hu : 0 < (2 ^ k * tiniest G : ℚ) := mul_pos (by positivity) (tiniest_pos G)
  obtain ⟨u, hu'⟩ : ∃ u : ℚ, u = 2 ^ k * tiniest G := ⟨_, rfl⟩
  rw [← hu'] at v1 v2 hu
  have hjq : (2 : ℚ) ^ G.m ≤ j := by exact_mod_cast hj1
  obtain ⟨t, ht⟩ : ∃ t : ℚ, t = 1 / 2 ^ (G.m + 1) := ⟨_, rfl⟩
  have htp : 0 < t := by rw [ht]; positivity
  have ht1 : 1 / 2 ≤ t * (j + 1 / 2) := by
    have e : t * 2 ^ G.m = 1 / 2 := by rw [ht, pow_succ]; field_simp
    nlinarith
  rw [← ht]
  rw [v1] at s1
  rw [v2] at s2
  rcases roundMag_near (F := G) r with hr | hr
  · have hmid : r ≤ (j + 1 / 2) * u := by
      unfold roundMag at hr
      simp only [v1, v2] at hr
      split_ifs at hr with c1 c2 c3
      · nlinarith
      · omega
      · nlinarith
      · omega
    rw [hr, v1]
    constructor
    · nlinarith
    · by_cases ht2 : t ≤ 1
      · nlinarith [mul_le_mul_of_nonneg_right hmid (show (0 : ℚ) ≤ 1 - t by linarith), mul_le_mul_of_nonneg_right ht1 (le_of_lt hu)]
      · have hj0 : (0 : ℚ) ≤ j := Nat.cast_nonneg j
        nlinarith [mul_nonneg h0 (show (0 : ℚ) ≤ t - 1 by linarith), mul_nonneg hj0 (le_of_lt hu)]
  · have hmid : (j + 1 / 2) * u ≤ r := by
      unfold roundMag at hr
      simp only [v1, v2] at hr
      split_ifs at hr with c1 c2 c3
      · omega
      · nlinarith
      · omega
      · nlinarith
    rw [hr, v2]
    constructor
    · nlinarith [mul_le_mul_of_nonneg_right hmid (show (0 : ℚ) ≤ 1 + t by linarith), mul_le_mul_of_nonneg_right ht1 (le_of_lt hu)]
    · nlinarith

private theorem dbl_above : (ofRat Fmt.double false (1 + 1 / 2 ^ 53)).value = 1 ∧ (ofRat Fmt.double false (1 + 1 / 2 ^ 53)).finite := by
  decide +kernel

private theorem dbl_under : (⟨false, 0x3FEFFFFFFFFFFFFF⟩ : Double).finite ∧
    (⟨false, 0x3FEFFFFFFFFFFFFF⟩ : Double).value = 1 - 1 / 2 ^ 53 := by
  decide +kernel

private theorem value_ofRat {G : Fmt} {s : Bool} {q : ℚ} (h0 : 0 ≤ q) (hf : (ofRat G s q).finite) :
    (ofRat G s q).value = magValue G (roundMag G q) := by
  by_cases hq : q = 0
  · subst hq
    have h : roundMag G 0 = 0 := by
      have := roundMag_exact G 0
      rwa [show magValue G 0 = 0 by simpa [value] using zero_value G false] at this
    unfold ofRat
    rw [if_pos rfl, zero_value, h]
    simpa [value] using (zero_value G false).symm
  · have hp : ¬ q < 0 := not_lt.2 h0
    have ha : |q| = q := abs_of_nonneg h0
    have e : ofRat G s q = ⟨false, Nat.min (roundMag G q) (infMag G)⟩ := by
      unfold ofRat
      rw [if_neg hq, ha, decide_eq_false hp]
    rw [e] at hf ⊢
    have hm : Nat.min (roundMag G q) (infMag G) = roundMag G q := by
      have hf' : Nat.min (roundMag G q) (infMag G) < infMag G := hf
      have e1 : Nat.min (roundMag G q) (infMag G) = roundMag G q ⊓ infMag G := rfl
      rw [e1] at hf' ⊢
      omega
    rw [hm]
    simp [value]

/-- C174, what holds of `fraction` in types of higher precision than `double`, where the difference of the ends is in the
range of normal doubles: between 0 and 1, and at `b` at least `1 - 2^-53`. -/
theorem c174_normal_partial (hF : Wider Fmt.double F) (hm : Fmt.double.m < F.m) (a b : Flt F) (ha : a.finite) (hb : b.finite)
    (hab : a < b) (hd : (b.sub a).finite) (hlow : (Flt.min Fmt.double).value ≤ (b.sub a).value)
    (hhigh : ((b.sub a).convert Fmt.double).finite) :
    (∀ x, x.finite → a ≤ x → x ≤ b → (fractionWide x a b).finite ∧ 0 ≤ (fractionWide x a b).value ∧ (fractionWide x a b).value ≤ 1) ∧
    1 - 1 / 2 ^ 53 ≤ (fractionWide b a b).value := by
  have hp := (wide_eq a ha hb hab).2
  have hmin : magValue Fmt.double (2 ^ Fmt.double.m) ≤ (b.sub a).value := hlow
  obtain ⟨u1, u2⟩ := round_rel Fmt.double hmin
  have eD : ((b.sub a).convert Fmt.double).value = magValue Fmt.double (roundMag Fmt.double (b.sub a).value) := by
    rw [convert_finite hd] at hhigh ⊢
    exact value_ofRat (le_of_lt hp) hhigh
  rw [← eD] at u1 u2
  -- the number above 1 to which quotients are rounded at most
  obtain ⟨w, w1, w2⟩ : ∃ w : Flt F, w.finite ∧ w.value = 1 + 1 / 2 ^ 53 := by
    have hm' : 53 ≤ F.m := hm
    have hb' : 0 ≤ bias F := by
      unfold bias
      have : (1 : Int) ≤ 2 ^ (F.e - 1) := by exact_mod_cast Nat.one_le_two_pow
      omega
    have hz : 1 - bias F - (F.m : Int) ≤ -53 := by
      have h11 : 11 ≤ F.e := hF.1
      have : (2 : Int) ≤ 2 ^ (F.e - 1) := by
        have : 2 ^ 1 ≤ 2 ^ (F.e - 1) := Nat.pow_le_pow_right (by omega) (by omega)
        exact_mod_cast this
      unfold bias
      omega
    obtain ⟨n, hn⟩ := representable F (2 ^ 53 + 1) (-53)
      (by have : 2 ^ 54 ≤ 2 ^ (F.m + 1) := Nat.pow_le_pow_right (by omega) (by omega)
          omega) hz
    have hv : magValue F n = 1 + 1 / 2 ^ 53 := by rw [hn]; norm_num
    refine ⟨⟨false, n⟩, finite_of_value_lt ?_, exists_of_mag hv⟩
    rw [hv]
    have h2 : 1 ≤ 2 ^ (F.e - 1) := Nat.one_le_two_pow
    have : (2 : ℚ) ^ 1 ≤ 2 ^ (2 ^ (F.e - 1)) := pow_le_pow_right₀ (by norm_num) h2
    exact lt_of_lt_of_le (by norm_num) this
  have hz := zero_finite F false
  have e53 : (1 : ℚ) / 2 ^ (Fmt.double.m + 1) = 1 / 2 ^ 53 := rfl
  rw [e53] at u1 u2
  refine ⟨fun x hx hax hxb => ?_, ?_⟩
  · rw [(wide_eq x ha hb hab).1]
    obtain ⟨n1, n2⟩ := diff_pos ha hx hax
    obtain ⟨c1, c2⟩ := convert_nonneg (G := Fmt.double) n1 n2
    have hle := convert_mono (G := Fmt.double) (sub_mono ha hx hb hxb)
    have cf : ((x.sub a).convert Fmt.double).finite := by
      have := hhigh
      rw [finite_iff_key] at this ⊢
      have := hle.2.2
      omega
    obtain ⟨f1, f2⟩ := convert_exact hF cf
    have hv := (value_le_iff _ _).2 hle.2.2
    have q0 : 0 ≤ (((x.sub a).convert Fmt.double).convert F).value / (b.sub a).value := by
      rw [f2]; exact div_nonneg (value_nonneg_of_key c2) (le_of_lt hp)
    have q1 : (((x.sub a).convert Fmt.double).convert F).value / (b.sub a).value ≤ 1 + 1 / 2 ^ 53 := by
      rw [f2, div_le_iff₀ hp, mul_comm]
      exact le_trans hv u1
    rw [div_finite f1 hd (ne_of_gt hp)]
    obtain ⟨Q, hQ⟩ : ∃ Q, ofRat F ((((x.sub a).convert Fmt.double).convert F).neg != (b.sub a).neg)
      ((((x.sub a).convert Fmt.double).convert F).value / (b.sub a).value) = Q := ⟨_, rfl⟩
    have Qf : Q.finite := by rw [← hQ]; exact ofRat_finite hz w1 (by rw [zero_value]; exact q0) (by rw [w2]; exact q1) _
    have Q1 : Q.value ≤ 1 + 1 / 2 ^ 53 := by
      rw [← hQ, ← w2]; exact (value_le_iff _ _).2 (ofRat_le w1 (by rw [w2]; exact q1) _)
    have Q0 : 0 ≤ Q.value := by
      have := (value_le_iff _ _).2 (le_ofRat hz (q := (((x.sub a).convert Fmt.double).convert F).value / (b.sub a).value)
        (by rw [zero_value]; exact q0) ((((x.sub a).convert Fmt.double).convert F).neg != (b.sub a).neg))
      rwa [zero_value, hQ] at this
    rw [hQ, convert_finite Qf]
    have k1 : (ofRat Fmt.double Q.neg Q.value).key ≤ (ofRat Fmt.double false (1 + 1 / 2 ^ 53)).key := ofRat_mono Q1 _ _
    have k0 := le_ofRat (zero_finite Fmt.double false) (q := Q.value) (by rw [zero_value]; exact Q0) Q.neg
    refine ⟨?_, ?_, ?_⟩
    · have h1 := (finite_iff_key _).1 dbl_above.2
      have h0 := (finite_iff_key _).1 (zero_finite Fmt.double false)
      rw [finite_iff_key]
      have : (⟨false, 0⟩ : Double).key = 0 := by simp [key]
      omega
    · have := (value_le_iff _ _).2 k0
      rwa [zero_value] at this
    · have := (value_le_iff _ _).2 k1
      rwa [dbl_above.1] at this
  · rw [(wide_eq b ha hb hab).1]
    obtain ⟨f1, f2⟩ := convert_exact hF hhigh
    rw [div_finite f1 hd (ne_of_gt hp), f2]
    have q1 : 1 - 1 / 2 ^ 53 ≤ ((b.sub a).convert Fmt.double).value / (b.sub a).value := by
      rw [le_div_iff₀ hp, mul_comm]; exact u2
    have q2 : ((b.sub a).convert Fmt.double).value / (b.sub a).value ≤ w.value := by
      rw [w2, div_le_iff₀ hp, mul_comm]; exact u1
    obtain ⟨l, l1, l2⟩ : ∃ l : Flt F, l.finite ∧ l.value = 1 - 1 / 2 ^ 53 :=
      ⟨_, (convert_exact hF dbl_under.1).1, (convert_exact hF dbl_under.1).2.trans dbl_under.2⟩
    obtain ⟨Q, hQ⟩ : ∃ Q, ofRat F ((((b.sub a).convert Fmt.double).convert F).neg != (b.sub a).neg)
      (((b.sub a).convert Fmt.double).value / (b.sub a).value) = Q := ⟨_, rfl⟩
    have Qf : Q.finite := by rw [← hQ]; exact ofRat_finite l1 w1 (by rw [l2]; exact q1) q2 _
    have Q1 : 1 - 1 / 2 ^ 53 ≤ Q.value := by
      rw [← hQ, ← l2]; exact (value_le_iff _ _).2 (le_ofRat l1 (by rw [l2]; exact q1) _)
    rw [hQ, convert_finite Qf]
    have := (value_le_iff _ _).2 (le_ofRat dbl_under.1 (q := Q.value) (by rw [dbl_under.2]; exact Q1) Q.neg)
    rwa [dbl_under.2] at this

/-- The formats with which C174 is about `long double`. -/
example : (Wider Fmt.double Fmt.extended ∧ Fmt.double.m < Fmt.extended.m) ∧
    (Wider Fmt.double Fmt.quad ∧ Fmt.double.m < Fmt.quad.m) := by unfold Wider; decide

-- `fraction(1.5L, 1.0L, 3.0L)` is 0.25, `interpolate(0.25, 1.0L, 3.0L)` is 1.5
example : fractionWide (F := Fmt.extended) ⟨false, 16383 * 2 ^ 63 + 2 ^ 62⟩ ⟨false, 16383 * 2 ^ 63⟩ ⟨false, 16384 * 2 ^ 63 + 2 ^ 62⟩ =
      ⟨false, 1021 * 2 ^ 52⟩ ∧
    interpolateWide ⟨false, 1021 * 2 ^ 52⟩ (⟨false, 16383 * 2 ^ 63⟩ : Flt Fmt.extended) ⟨false, 16384 * 2 ^ 63 + 2 ^ 62⟩ =
      ⟨false, 16383 * 2 ^ 63 + 2 ^ 62⟩ := by decide +kernel

/-- C174 is false for differences that no `double` can hold: `fraction` of the upper end is infinite, whatever the ends. -/
theorem c174_refuted_overflow (a b : Flt F) (ha : a.finite) (hb : b.finite) (hab : a < b) (hd : (b.sub a).finite)
    (ho : ¬ ((b.sub a).convert Fmt.double).finite) : fractionWide b a b = ⟨false, infMag Fmt.double⟩ := by
  obtain ⟨e, hp⟩ := wide_eq b ha hb hab
  obtain ⟨n1, n2⟩ := diff_pos ha hb ⟨hab.1, hab.2.1, le_of_lt hab.2.2⟩
  obtain ⟨c1, c2⟩ := convert_nonneg (G := Fmt.double) n1 n2
  obtain ⟨d1, d2⟩ := convert_nonneg (G := F) c1 c2
  have hni : ¬ (((b.sub a).convert Fmt.double).convert F).finite := by
    rw [show ((b.sub a).convert Fmt.double).convert F = ⟨((b.sub a).convert Fmt.double).neg, infMag F⟩ by
      rw [convert, if_neg c1, if_pos ho]]
    simp [finite]
  rw [e, (div_pos d1 d2 hd hp).2.2 hni, convert, if_neg (by simp [isNaN]), if_pos (by simp [finite])]

/-- C174 is false for ends so near each other that their difference is 0 as a `double`: `fraction` of the upper end is 0. -/
theorem c174_refuted_tiny (a b : Flt F) (ha : a.finite) (hb : b.finite) (hab : a < b) (hd : (b.sub a).finite)
    (hz : ((b.sub a).convert Fmt.double).mag = 0) : (fractionWide b a b).value = 0 := by
  obtain ⟨e, hp⟩ := wide_eq b ha hb hab
  obtain ⟨s, hs⟩ : ∃ s, (b.sub a).convert Fmt.double = ⟨s, 0⟩ := ⟨((b.sub a).convert Fmt.double).neg, by rw [← hz]⟩
  rw [e, hs, convert_finite (zero_finite _ _), zero_value]
  unfold ofRat
  rw [if_pos rfl, div_finite (zero_finite _ _) hd (ne_of_gt hp), zero_value, zero_div]
  unfold ofRat
  rw [if_pos rfl, convert_finite (zero_finite _ _), zero_value]
  unfold ofRat
  rw [if_pos rfl, zero_value]

/-- The witnesses: with `long double` of x86, ends 0 and `2^1024`; 0 and `2^-1076`. -/
example : fractionWide (F := Fmt.extended) ⟨false, (16383 + 1024) * 2 ^ 63⟩ ⟨false, 0⟩ ⟨false, (16383 + 1024) * 2 ^ 63⟩ =
      ⟨false, infMag Fmt.double⟩ ∧
    (fractionWide (F := Fmt.extended) ⟨false, (16383 - 1076) * 2 ^ 63⟩ ⟨false, 0⟩ ⟨false, (16383 - 1076) * 2 ^ 63⟩).value = 0 := by
  decide +kernel

/-- C174 is false also where no result is infinite or 0: with `long double` of x86, `fraction(x, 0, x)` is `1 - 2^-53` for
`x = 1 + 2^-53`, and above 1 for `x = 1.5 * 2^-1075`. -/
theorem c174_refuted_upper_end :
    (∃ x : Flt Fmt.extended, x.finite ∧ (⟨false, 0⟩ : Flt Fmt.extended) < x ∧
      (fractionWide x ⟨false, 0⟩ x).finite ∧ (fractionWide x ⟨false, 0⟩ x).value = 1 - 1 / 2 ^ 53) ∧
    (∃ x : Flt Fmt.extended, x.finite ∧ (⟨false, 0⟩ : Flt Fmt.extended) < x ∧
      (fractionWide x ⟨false, 0⟩ x).finite ∧ 1 < (fractionWide x ⟨false, 0⟩ x).value) :=
  ⟨⟨⟨false, 16383 * 2 ^ 63 + 2 ^ 10⟩, by decide +kernel⟩, ⟨⟨false, (16383 - 1075) * 2 ^ 63 + 2 ^ 62⟩, by decide +kernel⟩⟩

/-- C174 is false of `interpolate` at the upper end, as C104 is: with `long double` of x86, `interpolate(1, -1, x)` is above
`x` for `x = 1.5 * 2^-64`, and below `x` for `x = 2^-70`. -/
theorem c174_refuted_interpolate :
    (∃ a b : Flt Fmt.extended, a.finite ∧ b.finite ∧ a ≤ b ∧ (b.sub a).finite ∧
      (interpolateWide ⟨false, 0x3FF0000000000000⟩ a b).finite ∧ b < interpolateWide ⟨false, 0x3FF0000000000000⟩ a b) ∧
    (∃ a b : Flt Fmt.extended, a.finite ∧ b.finite ∧ a ≤ b ∧ (b.sub a).finite ∧
      interpolateWide ⟨false, 0x3FF0000000000000⟩ a b < b) :=
  ⟨⟨⟨true, 16383 * 2 ^ 63⟩, ⟨false, (16383 - 64) * 2 ^ 63 + 2 ^ 62⟩, by decide +kernel⟩,
    ⟨⟨true, 16383 * 2 ^ 63⟩, ⟨false, (16383 - 70) * 2 ^ 63⟩, by decide +kernel⟩⟩

/-- The bound of `c174_near_partial` for the first of these: the result is beyond the upper end, by no more than the bound. -/
example : ∃ a b : Flt Fmt.extended, b < interpolateWide ⟨false, 0x3FF0000000000000⟩ a b ∧
    (interpolateWide ⟨false, 0x3FF0000000000000⟩ a b).value ≤ b.value + (b.value - a.value) / 2 ^ 63 := by
  obtain ⟨⟨a, b, ha, hb, hab, hd, hr, hlt⟩, _⟩ := c174_refuted_interpolate
  exact ⟨a, b, hlt, (c174_near_partial (by unfold Wider; decide) a b _ ha hb hab hd dbl_one'.1
    (by rw [dbl_one'.2]; norm_num) (by rw [dbl_one'.2]) hr).1⟩

end Wite.Props
