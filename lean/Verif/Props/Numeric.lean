import Verif.Model.Numeric
import Verif.Lemmas.Float
import Verif.Lemmas.IntTy
import Mathlib.Algebra.Order.Floor.Ring
import Mathlib.Data.Rat.Floor
import Mathlib.Tactic.FieldSimp
import Mathlib.Data.Real.Basic
import Mathlib.Data.List.Perm.Basic

/-!
# Properties C73–C77: `next_value`, `prev_value`, `min`, `max`, `minmax`, `interpolate`, `fraction`
-/

namespace Wite.Props

open Wite Wite.Maths

/-! ## C73 -/

/-- C73, integers: unless `v` is the largest value of its type, `next_value(v)` is the least value of the type
above `v`. -/
theorem c73_int_next (t : IntTy) (ht : 0 < t.bits) (v : Int) (hv : t.holds v) (hm : v ≠ t.maxValue) :
    ∃ w, nextInt t v = .ok w ∧ t.holds w ∧ v < w ∧ ∀ u, t.holds u → v < u → w ≤ u := by
  have hw : t.holds (v + 1) := ⟨by have := hv.1; omega, by have := hv.2; omega⟩
  refine ⟨v + 1, ?_, hw, by omega, fun u _ h => by omega⟩
  rw [nextInt, IntTy.add_ok ht hw, Outcome.bind_ok, IntTy.wrap_of_holds ht hw]; rfl

/-- C73, integers: unless `v` is the smallest value of its type, `prev_value(v)` is the greatest value of the type
below `v`. -/
theorem c73_int_prev (t : IntTy) (ht : 0 < t.bits) (v : Int) (hv : t.holds v) (hm : v ≠ t.minValue) :
    ∃ w, prevInt t v = .ok w ∧ t.holds w ∧ w < v ∧ ∀ u, t.holds u → u < v → u ≤ w := by
  have hw : t.holds (v - 1) := ⟨by have := hv.1; omega, by have := hv.2; omega⟩
  refine ⟨v - 1, ?_, hw, by omega, fun u _ h => by omega⟩
  rw [prevInt, IntTy.sub_ok ht hw, Outcome.bind_ok, IntTy.wrap_of_holds ht hw]; rfl

/-- C73, integers: `prev_value(next_value(v)) == v`. -/
theorem c73_int_round (t : IntTy) (ht : 0 < t.bits) (v : Int) (hv : t.holds v) (hm : v ≠ t.maxValue) :
    (nextInt t v >>= prevInt t) = .ok v := by
  have hw : t.holds (v + 1) := ⟨by have := hv.1; omega, by have := hv.2; omega⟩
  have e : v + 1 - 1 = v := by omega
  rw [nextInt, IntTy.add_ok ht hw, Outcome.bind_ok, IntTy.wrap_of_holds ht hw, Outcome.pure_eq, Outcome.bind_ok,
    prevInt, IntTy.sub_ok ht (by rw [e]; exact hv), Outcome.bind_ok, e, IntTy.wrap_of_holds ht hv]; rfl

/-- C73, integers at the extreme: the call is undefined for signed types of at least 32 bits and yields the smallest
value for unsigned types and for signed types of fewer than 32 bits. -/
theorem c73_int_extreme (t : IntTy) (ht : 0 < t.bits) (h31 : t.bits ≠ 31) :
    nextInt t t.maxValue = if t.signed = true ∧ 32 ≤ t.bits then .ub else .ok t.minValue := by
  have hr := IntTy.range_eq t ht
  have hnot : ¬ t.holds (t.maxValue + 1) := fun h => by have := h.2; omega
  have hwrap : t.wrap (t.maxValue + 1) = t.minValue := by
    unfold IntTy.wrap
    have : t.maxValue + 1 - t.minValue = 2 ^ t.bits := by omega
    rw [this, Int.emod_self]; omega
  unfold nextInt IntTy.add
  by_cases hb : 32 ≤ t.bits
  · have hp : t.promote = t := IntTy.promote_wide hb
    rw [hp]
    by_cases hs : t.signed = true
    · rw [if_pos ⟨hs, hb⟩, IntTy.result_ub hs hnot]; rfl
    · rw [if_neg (fun h => hs h.1)]
      have e : t.result (t.maxValue + 1) = .ok t.minValue := by
        unfold IntTy.result; rw [if_neg hs, hwrap]
      rw [e, Outcome.bind_ok, Outcome.pure_eq,
        IntTy.wrap_of_holds ht ⟨Int.le_refl _, by have := t.minValue_nonpos; have := t.maxValue_nonneg; omega⟩]
  · rw [if_neg (fun h => hb h.2)]
    have hp : t.promote = IntTy.int := by
      unfold IntTy.promote; rw [if_pos]; have : IntTy.int.bits = 32 := rfl; omega
    have hh : IntTy.int.holds (t.maxValue + 1) := by
      have e1 : IntTy.int.minValue = -2 ^ 31 := rfl
      have e2 : IntTy.int.maxValue = 2 ^ 31 - 1 := rfl
      have h0 := t.maxValue_nonneg
      have h1 : t.maxValue ≤ 2 ^ t.bits - 1 := by have := t.minValue_nonpos; omega
      have h2 : (2 : Int) ^ t.bits ≤ 2 ^ 30 := by
        have := Nat.pow_le_pow_right (n := 2) (by omega) (show t.bits ≤ 30 by omega)
        exact_mod_cast this
      unfold IntTy.holds; rw [e1, e2]; omega
    rw [hp, IntTy.result_of_holds (by decide) hh, Outcome.bind_ok, hwrap]; rfl

example : nextInt ⟨8, true⟩ 126 = .ok 127 ∧ prevInt ⟨8, true⟩ (-127) = .ok (-128) ∧
    nextInt ⟨8, true⟩ 127 = .ok (-128) ∧ nextInt ⟨32, true⟩ (2 ^ 31 - 1) = .ub ∧
    nextInt ⟨64, false⟩ (2 ^ 64 - 1) = .ok 0 ∧ prevInt ⟨16, false⟩ 0 = .ok 65535 := by decide

/-- C73, floating point: for every finite `x` other than the largest number, of every sign, `next_value(x)` is the least
representable number above `x`. -/
theorem c73_flt_next {F : Fmt} (x : Flt F) (hx : x.finite) (hm : x.value ≠ (Flt.max F).value) :
    (nextFlt x).finite ∧ x.value < (nextFlt x).value ∧
      ∀ z : Flt F, z.finite → x.value < z.value → (nextFlt x).value ≤ z.value := by
  have hk : x.key ≠ (Flt.max F).key := fun h => hm ((Flt.value_eq_iff _ _).2 h)
  have hle := Flt.key_le_max hx
  have hkey := Flt.nextToward_up hx (Flt.max_finite F) (show x.key < (Flt.max F).key by omega)
  change (nextFlt x).key = _ ∧ (nextFlt x).finite at hkey
  refine ⟨hkey.2, (Flt.value_lt_iff _ _).2 (by omega), fun z _ hz => (Flt.value_le_iff _ _).2 ?_⟩
  have := (Flt.value_lt_iff _ _).1 hz
  omega

/-- C73, floating point, the part that holds for `prev_value`: for every finite `x` above `numeric_limits<T>::min()` (the
smallest positive normal number), `prev_value(x)` is the greatest representable number below `x`. -/
theorem c73_flt_prev_partial {F : Fmt} (x : Flt F) (hx : x.finite) (hm : (Flt.min F).value < x.value) :
    (prevFlt x).finite ∧ (prevFlt x).value < x.value ∧
      ∀ z : Flt F, z.finite → z.value < x.value → z.value ≤ (prevFlt x).value := by
  have hk := (Flt.value_lt_iff _ _).1 hm
  have hkey := Flt.nextToward_down hx (Flt.min_finite F) hk
  change (prevFlt x).key = _ ∧ (prevFlt x).finite at hkey
  refine ⟨hkey.2, (Flt.value_lt_iff _ _).2 (by omega), fun z _ hz => (Flt.value_le_iff _ _).2 ?_⟩
  have := (Flt.value_lt_iff _ _).1 hz
  omega

/-- C73 is false for `prev_value` below the smallest positive normal number: there `prev_value` moves *up*, for every
finite `x` (zero, all negative numbers, all subnormal numbers), to the least representable number above `x`; and it does
not move at all at the smallest positive normal number. -/
theorem c73_refuted_prev {F : Fmt} (x : Flt F) (hx : x.finite) (hm : x.value ≤ (Flt.min F).value) :
    (x.value = (Flt.min F).value → (prevFlt x).value = x.value) ∧
    (x.value < (Flt.min F).value → x.value < (prevFlt x).value ∧
      ∀ z : Flt F, z.finite → x.value < z.value → (prevFlt x).value ≤ z.value) := by
  constructor
  · intro h
    rw [prevFlt, Flt.nextToward_eq hx (Flt.min_finite F) ((Flt.value_eq_iff _ _).1 h)]
    exact h.symm
  · intro h
    have hkey := (Flt.nextToward_up hx (Flt.min_finite F) ((Flt.value_lt_iff _ _).1 h)).1
    change (prevFlt x).key = _ at hkey
    refine ⟨(Flt.value_lt_iff _ _).2 (by omega), fun z _ hz => (Flt.value_le_iff _ _).2 ?_⟩
    have := (Flt.value_lt_iff _ _).1 hz
    omega

/-- C73, floating point: `prev_value(next_value(x)) == x` holds exactly from the smallest positive normal number on. -/
theorem c73_flt_round_partial {F : Fmt} (x : Flt F) (hx : x.finite) (hm : x.value ≠ (Flt.max F).value) :
    (prevFlt (nextFlt x) == x) = true ↔ (Flt.min F).value ≤ x.value := by
  obtain ⟨hf, hlt, hleast⟩ := c73_flt_next x hx hm
  constructor
  · intro h
    by_contra hc
    have hx2 : x.value < (Flt.min F).value := not_le.1 hc
    have hle : (nextFlt x).value ≤ (Flt.min F).value := hleast _ (Flt.min_finite F) hx2
    obtain ⟨h1, h2⟩ := c73_refuted_prev (nextFlt x) hf hle
    have hgt : x.value < (prevFlt (nextFlt x)).value := by
      rcases lt_or_eq_of_le hle with hh | hh
      · exact lt_trans hlt (h2 hh).1
      · rw [h1 hh]; exact hlt
    have hk : (prevFlt (nextFlt x)).key = x.key := by
      have h' : decide (¬ (prevFlt (nextFlt x)).isNaN ∧ ¬ x.isNaN ∧ (prevFlt (nextFlt x)).key = x.key) = true := h
      exact (of_decide_eq_true h').2.2
    exact absurd ((Flt.value_eq_iff _ _).2 hk) (ne_of_gt hgt)
  · intro h
    obtain ⟨h1, h2, h3⟩ := c73_flt_prev_partial (nextFlt x) hf (lt_of_le_of_lt h hlt)
    rw [Flt.beq_iff_value h1 hx]
    refine le_antisymm ?_ (h3 x hx hlt)
    by_contra hc
    exact absurd (hleast _ h1 (not_le.1 hc)) (not_le.2 h2)

/-- 1.5, 0 and -1 in the small format: `prev_value` goes down from 1.5 and up from 0 and -1. -/
example : nextFlt (⟨false, 14⟩ : Flt .tiny) = ⟨false, 15⟩ ∧ prevFlt (⟨false, 14⟩ : Flt .tiny) = ⟨false, 13⟩ ∧
    prevFlt (⟨false, 0⟩ : Flt .tiny) = ⟨false, 1⟩ ∧ prevFlt (⟨true, 12⟩ : Flt .tiny) = ⟨true, 11⟩ ∧
    prevFlt (⟨false, 4⟩ : Flt .tiny) = ⟨false, 4⟩ := by decide

/-! ## C74 -/

section C74

variable {α β : Type}

private theorem vmin_first [LT α] [DecidableLT α] [LinearOrder β] (key : α → β) (hk : ∀ x y : α, x < y ↔ key x < key y)
    (a b : α) (rest : List α) : ∃ pre post, a :: b :: rest = pre ++ vmin a b rest :: post ∧
      (∀ x ∈ pre, key (vmin a b rest) < key x) ∧ ∀ x ∈ post, key (vmin a b rest) ≤ key x := by
  induction rest generalizing a b with
  | nil =>
    simp only [vmin, stdMin]
    by_cases h : b < a
    · exact ⟨[a], [], by simp [h], by simp [h, (hk _ _).1 h], by simp⟩
    · exact ⟨[], [b], by simp [h], by simp, by simp only [h, if_false, List.mem_singleton, forall_eq]; exact not_lt.1 (fun hc => h ((hk _ _).2 hc))⟩
  | cons c cs ih =>
    obtain ⟨pre, post, he, h1, h2⟩ := ih b c
    simp only [vmin, stdMin]
    by_cases h : vmin b c cs < a
    · refine ⟨a :: pre, post, by simp [h, he], ?_, by simpa [h] using h2⟩
      simp only [h, if_true, List.mem_cons, forall_eq_or_imp]
      exact ⟨(hk _ _).1 h, h1⟩
    · have hle : key a ≤ key (vmin b c cs) := not_lt.1 (fun hc => h ((hk _ _).2 hc))
      refine ⟨[], b :: c :: cs, by simp [h], by simp, ?_⟩
      simp only [h, if_false]
      intro x hx
      rw [he] at hx
      rcases List.mem_append.1 hx with hx | hx
      · exact le_trans hle (le_of_lt (h1 x hx))
      · rcases List.mem_cons.1 hx with rfl | hx
        · exact hle
        · exact le_trans hle (h2 x hx)

private theorem vmax_first [LT α] [DecidableLT α] [LinearOrder β] (key : α → β) (hk : ∀ x y : α, x < y ↔ key x < key y)
    (a b : α) (rest : List α) : ∃ pre post, a :: b :: rest = pre ++ vmax a b rest :: post ∧
      (∀ x ∈ pre, key x < key (vmax a b rest)) ∧ ∀ x ∈ post, key x ≤ key (vmax a b rest) := by
  induction rest generalizing a b with
  | nil =>
    simp only [vmax, stdMax]
    by_cases h : a < b
    · exact ⟨[a], [], by simp [h], by simp [h, (hk _ _).1 h], by simp⟩
    · exact ⟨[], [b], by simp [h], by simp, by simp only [h, if_false, List.mem_singleton, forall_eq]; exact not_lt.1 (fun hc => h ((hk _ _).2 hc))⟩
  | cons c cs ih =>
    obtain ⟨pre, post, he, h1, h2⟩ := ih b c
    simp only [vmax, stdMax]
    by_cases h : a < vmax b c cs
    · refine ⟨a :: pre, post, by simp [h, he], ?_, by simpa [h] using h2⟩
      simp only [h, if_true, List.mem_cons, forall_eq_or_imp]
      exact ⟨(hk _ _).1 h, h1⟩
    · have hle : key (vmax b c cs) ≤ key a := not_lt.1 (fun hc => h ((hk _ _).2 hc))
      refine ⟨[], b :: c :: cs, by simp [h], by simp, ?_⟩
      simp only [h, if_false]
      intro x hx
      rw [he] at hx
      rcases List.mem_append.1 hx with hx | hx
      · exact le_trans (le_of_lt (h1 x hx)) hle
      · rcases List.mem_cons.1 hx with rfl | hx
        · exact hle
        · exact le_trans (h2 x hx) hle

/-- C74: `min(a, b, rest...)` is one of the arguments and none is smaller. -/
theorem c74_min [LinearOrder α] (a b : α) (rest : List α) :
    vmin a b rest ∈ a :: b :: rest ∧ ∀ x ∈ a :: b :: rest, vmin a b rest ≤ x := by
  obtain ⟨pre, post, he, h1, h2⟩ := vmin_first (key := id) (fun _ _ => Iff.rfl) a b rest
  rw [he]
  refine ⟨by simp, fun x hx => ?_⟩
  rcases List.mem_append.1 hx with hx | hx
  · exact le_of_lt (h1 x hx)
  · rcases List.mem_cons.1 hx with hx | hx
    · exact le_of_eq hx.symm
    · exact h2 x hx

/-- C74: `max(a, b, rest...)` is one of the arguments and none is larger. -/
theorem c74_max [LinearOrder α] (a b : α) (rest : List α) :
    vmax a b rest ∈ a :: b :: rest ∧ ∀ x ∈ a :: b :: rest, x ≤ vmax a b rest := by
  obtain ⟨pre, post, he, h1, h2⟩ := vmax_first (key := id) (fun _ _ => Iff.rfl) a b rest
  rw [he]
  refine ⟨by simp, fun x hx => ?_⟩
  rcases List.mem_append.1 hx with hx | hx
  · exact le_of_lt (h1 x hx)
  · rcases List.mem_cons.1 hx with hx | hx
    · exact le_of_eq hx
    · exact h2 x hx

/-- C74: both forms of `minmax` return a smallest and a largest argument. -/
theorem c74_minmax [LinearOrder α] (a b : α) (rest : List α) :
    ((vminmax a b rest).1 ∈ a :: b :: rest ∧ (vminmax a b rest).2 ∈ a :: b :: rest ∧
      ∀ x ∈ a :: b :: rest, (vminmax a b rest).1 ≤ x ∧ x ≤ (vminmax a b rest).2) ∧
    minmax2 a b = vminmax a b [] := by
  refine ⟨⟨(c74_min a b rest).1, (c74_max a b rest).1, fun x hx => ⟨(c74_min a b rest).2 x hx, (c74_max a b rest).2 x hx⟩⟩, ?_⟩
  simp only [minmax2, vminmax, vmin, vmax, stdMin, stdMax]
  rcases lt_trichotomy a b with h | h | h
  · simp [h, le_of_lt h, not_lt_of_gt h]
  · simp [h]
  · simp [h, not_lt_of_gt h, not_le_of_gt h]

/-- C74: the order of the arguments makes no difference. -/
theorem c74_order [LinearOrder α] (a b a' b' : α) (rest rest' : List α)
    (h : (a :: b :: rest).Perm (a' :: b' :: rest')) : vminmax a b rest = vminmax a' b' rest' := by
  refine Prod.ext ?_ ?_
  · exact le_antisymm ((c74_min a b rest).2 _ (h.mem_iff.2 (c74_min a' b' rest').1))
      ((c74_min a' b' rest').2 _ (h.mem_iff.1 (c74_min a b rest).1))
  · exact le_antisymm ((c74_max a' b' rest').2 _ (h.mem_iff.1 (c74_max a b rest).1))
      ((c74_max a b rest).2 _ (h.mem_iff.2 (c74_max a' b' rest').1))

/-- C74: among arguments that compare equal (types whose `<` looks at a key only), `min` and `max` return the first,
and `minmax` of two returns them in the given order. -/
theorem c74_ties [LT α] [DecidableLT α] [LE α] [DecidableLE α] [LinearOrder β] (key : α → β)
    (hlt : ∀ x y : α, x < y ↔ key x < key y) (hle : ∀ x y : α, x ≤ y ↔ key x ≤ key y) (a b : α) (rest : List α) :
    (∃ pre post, a :: b :: rest = pre ++ vmin a b rest :: post ∧
      (∀ x ∈ pre, key (vmin a b rest) < key x) ∧ ∀ x ∈ post, key (vmin a b rest) ≤ key x) ∧
    (∃ pre post, a :: b :: rest = pre ++ vmax a b rest :: post ∧
      (∀ x ∈ pre, key x < key (vmax a b rest)) ∧ ∀ x ∈ post, key x ≤ key (vmax a b rest)) ∧
    (key a = key b → minmax2 a b = (a, b)) := by
  refine ⟨vmin_first key hlt a b rest, vmax_first key hlt a b rest, fun h => ?_⟩
  rw [minmax2, if_pos ((hle a b).2 (le_of_eq h))]

example : vminmax (5 : Int) 3 [9, -2, 7] = (-2, 9) ∧ minmax2 (4 : Int) 2 = (2, 4) := by decide

end C74

/-! ## C75 -/

section C75

variable {α : Type} [Field α] [LinearOrder α] [IsStrictOrderedRing α]

/-- C75, in exact arithmetic: `fraction` undoes `interpolate`. -/
theorem c75_fraction_interpolate (f a b : α) (h : a ≠ b) :
    fractionReal (interpolateReal f a b) a b = some f := by
  have hd : b - a ≠ 0 := sub_ne_zero.2 h.symm
  rw [fractionReal, if_neg h.symm, interpolateReal]
  congr 1; field_simp; ring

/-- C75, in exact arithmetic: `interpolate` undoes `fraction`. -/
theorem c75_interpolate_fraction (x a b : α) (h : a ≠ b) :
    (fractionReal x a b).map (fun f => interpolateReal f a b) = some x := by
  have hd : b - a ≠ 0 := sub_ne_zero.2 h.symm
  rw [fractionReal, if_neg h.symm, Option.map_some, interpolateReal]
  congr 1; field_simp; ring

/-- C75, in exact arithmetic: the ends, and `interpolate` is monotone, strictly if `a < b`. -/
theorem c75_ends_mono (a b : α) :
    interpolateReal 0 a b = a ∧ interpolateReal 1 a b = b ∧
    (a ≤ b → ∀ f g : α, f ≤ g → interpolateReal f a b ≤ interpolateReal g a b) ∧
    (a < b → ∀ f g : α, f < g → interpolateReal f a b < interpolateReal g a b) := by
  refine ⟨by simp [interpolateReal], by simp [interpolateReal], fun h f g hfg => ?_, fun h f g hfg => ?_⟩
  · unfold interpolateReal
    have := mul_le_mul_of_nonneg_right hfg (sub_nonneg.2 h)
    linarith
  · unfold interpolateReal
    have := mul_lt_mul_of_pos_right hfg (sub_pos.2 h)
    linarith

/-- The reals are an instance. -/
example (f a b : ℝ) (h : a ≠ b) : fractionReal (interpolateReal f a b) a b = some f :=
  c75_fraction_interpolate f a b h

example : interpolateReal (1 / 4 : ℚ) (-2) 6 = 0 ∧ fractionReal (0 : ℚ) (-2) 6 = some (1 / 4) := by decide +kernel

end C75

/-! ## C77 -/

/-- C77: for integers `a <= b` of any type whose difference the type can hold, and `0 <= f <= 1`, in exact arithmetic,
`interpolate(f, a, b)` is `a + floor(f * (b - a))` and lies between `a` and `b`. -/
theorem c77_floor (t : IntTy) (ht : 0 < t.bits) (f : ℚ) (a b : Int) (ha : t.holds a) (hb : t.holds b)
    (hd : t.holds (b - a)) (hab : a ≤ b) (h0 : 0 ≤ f) (h1 : f ≤ 1) :
    interpolateIntExact t f a b = .ok (a + ⌊f * (b - a : ℚ)⌋) ∧ a ≤ a + ⌊f * (b - a : ℚ)⌋ ∧ a + ⌊f * (b - a : ℚ)⌋ ≤ b := by
  have hd0 : (0 : ℚ) ≤ (b - a : ℚ) := by have : (a : ℚ) ≤ b := by exact_mod_cast hab
                                         linarith
  have hp0 : 0 ≤ f * (b - a : ℚ) := mul_nonneg h0 hd0
  have hf0 : 0 ≤ ⌊f * (b - a : ℚ)⌋ := Int.floor_nonneg.2 hp0
  have hf1 : ⌊f * (b - a : ℚ)⌋ ≤ b - a := by
    have h2 : f * (b - a : ℚ) ≤ ((b - a : Int) : ℚ) := by
      push_cast; have := mul_le_mul_of_nonneg_right h1 hd0; linarith
    have h3 := Int.floor_le_floor h2
    rwa [Int.floor_intCast] at h3
  have htr : (f * (b - a : ℚ)).num.tdiv (f * (b - a : ℚ)).den = ⌊f * (b - a : ℚ)⌋ := by
    rw [Rat.floor_def', Int.tdiv_eq_ediv_of_nonneg (Rat.num_nonneg.2 hp0)]
  have hq : t.holds ⌊f * (b - a : ℚ)⌋ := ⟨by have := t.minValue_nonpos; omega, by have := hd.2; omega⟩
  have hr : t.holds (a + ⌊f * (b - a : ℚ)⌋) := ⟨by have := ha.1; omega, by have := hb.2; omega⟩
  refine ⟨?_, by omega, by omega⟩
  unfold interpolateIntExact
  rw [IntTy.sub_ok ht hd, Outcome.bind_ok]
  have e : f * ((b - a : Int) : ℚ) = f * (b - a : ℚ) := by simp
  rw [e]
  have e2 : truncTo t (f * (b - a : ℚ)) = .ok ⌊f * (b - a : ℚ)⌋ := by
    unfold truncTo; simp only [htr]; rw [if_pos hq]
  rw [e2, Outcome.bind_ok, IntTy.add_ok ht hr, Outcome.bind_ok, IntTy.wrap_of_holds ht hr]; rfl

/-- C77: the two ends are exact. -/
theorem c77_ends (t : IntTy) (ht : 0 < t.bits) (a b : Int) (ha : t.holds a) (hb : t.holds b)
    (hd : t.holds (b - a)) (hab : a ≤ b) :
    interpolateIntExact t 0 a b = .ok a ∧ interpolateIntExact t 1 a b = .ok b := by
  have h0 := (c77_floor t ht 0 a b ha hb hd hab (by norm_num) (by norm_num)).1
  have h1 := (c77_floor t ht 1 a b ha hb hd hab (by norm_num) (by norm_num)).1
  refine ⟨by rw [h0]; simp, ?_⟩
  rw [h1]
  have : (1 : ℚ) * (b - a : ℚ) = ((b - a : Int) : ℚ) := by push_cast; ring
  rw [this, Int.floor_intCast]; congr 1; omega

/-- C77, why the difference must fit: for a signed type of at least 32 bits `interpolate` is undefined whenever it does
not, whatever the fraction. -/
theorem c77_overflow (t : IntTy) (hs : t.signed = true) (hb : 32 ≤ t.bits) (f : ℚ) (g : Double) (a b : Int)
    (hd : ¬ t.holds (b - a)) : interpolateIntExact t f a b = .ub ∧ interpolateInt t g a b = .ub := by
  unfold interpolateIntExact interpolateInt IntTy.sub
  rw [IntTy.promote_wide hb, IntTy.result_ub hs hd]; exact ⟨rfl, rfl⟩

example : interpolateIntExact ⟨32, true⟩ (3 / 7) (-3) 10 = .ok 2 ∧
    interpolateIntExact ⟨32, true⟩ 0 (-2000000000) 2000000000 = .ub ∧
    interpolateIntExact ⟨16, true⟩ 1 (-20000) 20000 = .ub := by decide +kernel

end Wite.Props
