import Verif.Props.FloatMaths

/-!
# C221: `fraction` and `interpolate` of integers are inverse
-/

namespace Wite.Props

open Wite Wite.Maths Wite.Maths.Flt

/-- Short numbers `j * 2^z` are `double`s. -/
private theorem exists_double (j : Nat) (z : Int) (hj : j ≤ 2 ^ 53) (hz : -1074 ≤ z) (hz' : z ≤ 0) :
    ∃ x : Double, x.finite ∧ x.value = j * 2 ^ z := by
  obtain ⟨g, hg⟩ := representable Fmt.double j z hj (by
    have : 1 - bias Fmt.double - (Fmt.double.m : Int) = -1074 := by decide
    omega)
  refine ⟨⟨false, g⟩, ?_, by simp only [value, hg, Bool.false_eq_true, if_false]⟩
  apply finite_of_value_lt
  rw [hg]
  have h1 : (j : ℚ) ≤ 2 ^ 53 := by exact_mod_cast hj
  have h2 : (2 : ℚ) ^ z ≤ 1 := zpow_le_one_of_nonpos₀ (by norm_num) hz'
  have h3 : (0 : ℚ) < 2 ^ z := by positivity
  have h4 : (j : ℚ) * 2 ^ z ≤ 2 ^ 53 * 1 := mul_le_mul h1 h2 (le_of_lt h3) (by positivity)
  refine lt_of_le_of_lt h4 ?_
  rw [mul_one]
  exact pow_lt_pow_right₀ (by norm_num) (by decide)

private theorem there_and_back {n d : Int} (h0 : 0 ≤ n) (hn : n ≤ d) (hd : 1 ≤ d) (h52 : d ≤ 2 ^ 52) :
    let q := (ofInt Fmt.double n).div (ofInt Fmt.double d)
    let p := q.mul (ofInt Fmt.double d)
    p.finite ∧ 0 ≤ p.value ∧ n - 1 ≤ ⌊p.value⌋ ∧ ⌊p.value⌋ ≤ n ∧ ((n = 0 ∨ n = d ∨ ∃ k : Nat, d = 2 ^ k) → ⌊p.value⌋ = n) := by
  obtain ⟨n1, n2⟩ := ofInt_exact (F := Fmt.double) (n := n) h0 (by show n ≤ 2 ^ 53; omega) (by decide)
  obtain ⟨d1, d2⟩ := ofInt_exact (F := Fmt.double) (n := d) (by omega) (by show d ≤ 2 ^ 53; omega) (by decide)
  have hdq : (0 : ℚ) < d := by exact_mod_cast (by omega : 0 < d)
  have hnq : (0 : ℚ) ≤ n := by exact_mod_cast h0
  have hle : (n : ℚ) / d ≤ 1 := by rw [div_le_one hdq]; exact_mod_cast hn
  have hr0 : 0 ≤ (n : ℚ) / d := by positivity
  have hz := zero_finite Fmt.double false
  obtain ⟨one, o1, o2⟩ := exists_double 1 0 (by decide) (by decide) (by decide)
  have o2 : one.value = 1 := by rw [o2]; norm_num
  simp only
  rw [div_finite n1 d1 (by rw [d2]; exact ne_of_gt hdq), n2, d2]
  generalize ((ofInt Fmt.double n).neg != (ofInt Fmt.double d).neg) = s
  have fin : (ofRat Fmt.double s ((n : ℚ) / d)).finite :=
    ofRat_finite hz o1 (by rw [zero_value]; exact hr0) (by rw [o2]; exact hle) s
  have q1 : (ofRat Fmt.double s ((n : ℚ) / d)).value ≤ 1 := by
    have := (value_le_iff _ _).2 (ofRat_le o1 (q := (n : ℚ) / d) (by rw [o2]; exact hle) s)
    rwa [o2] at this
  have q0 : 0 ≤ (ofRat Fmt.double s ((n : ℚ) / d)).value := by
    have := (value_le_iff _ _).2 (le_ofRat hz (q := (n : ℚ) / d) (by rw [zero_value]; exact hr0) s)
    rwa [zero_value] at this
  rw [mul_finite fin d1, d2]
  generalize ((ofRat Fmt.double s ((n : ℚ) / d)).neg != (ofInt Fmt.double d).neg) = s'
  have m0 : 0 ≤ (ofRat Fmt.double s ((n : ℚ) / d)).value * d := mul_nonneg q0 (le_of_lt hdq)
  have m1 : (ofRat Fmt.double s ((n : ℚ) / d)).value * d ≤ d := by
    have := mul_le_mul_of_nonneg_right q1 (le_of_lt hdq); linarith
  refine ⟨ofRat_finite hz d1 (by rw [zero_value]; exact m0) (by rw [d2]; exact m1) _, ?_, ?_⟩
  · have := (value_le_iff _ _).2 (le_ofRat hz (q := (ofRat Fmt.double s ((n : ℚ) / d)).value * d) (by rw [zero_value]; exact m0) s')
    rwa [zero_value] at this
  -- a quotient that is exact is undone exactly
  have exact : (∃ x : Double, x.finite ∧ x.value = (n : ℚ) / d) →
      ⌊(ofRat Fmt.double s' ((ofRat Fmt.double s ((n : ℚ) / d)).value * d)).value⌋ = n := by
    rintro ⟨x, x1, x2⟩
    rw [(ofRat_exact x1 x2 s).2, div_mul_cancel₀ _ (ne_of_gt hdq), (ofRat_exact n1 n2 s').2, Int.floor_intCast]
  have special : (n = 0 ∨ n = d ∨ ∃ k : Nat, d = 2 ^ k) →
      ⌊(ofRat Fmt.double s' ((ofRat Fmt.double s ((n : ℚ) / d)).value * d)).value⌋ = n := by
    intro h
    apply exact
    rcases h with h | h | ⟨k, h⟩
    · exact ⟨_, hz, by rw [zero_value, h]; simp⟩
    · exact ⟨one, o1, by rw [o2, h, div_self (ne_of_gt hdq)]⟩
    · have hk : k ≤ 52 := by
        by_contra hc
        have : (2 : Int) ^ 53 ≤ 2 ^ k := by exact_mod_cast Nat.pow_le_pow_right (n := 2) (by omega) (by omega : 53 ≤ k)
        omega
      obtain ⟨x, x1, x2⟩ := exists_double n.toNat (-(k : Int)) (by omega) (by omega) (by omega)
      refine ⟨x, x1, ?_⟩
      have e : ((n.toNat : Nat) : ℚ) = (n : ℚ) := by exact_mod_cast Int.toNat_of_nonneg h0
      rw [x2, e, h, zpow_neg, zpow_natCast, div_eq_mul_inv]; push_cast; rfl
  by_cases hs : n = 0 ∨ n = d
  · have := special (by tauto)
    exact ⟨by omega, by omega, special⟩
  have hn1 : 1 ≤ n := by omega
  have hnd : n ≤ 2 ^ 52 - 1 := by omega
  have hsmall : magValue Fmt.double (2 ^ Fmt.double.m) ≤ 1 / 2 ^ 52 := by decide +kernel
  have hlow : (1 : ℚ) / 2 ^ 52 ≤ (n : ℚ) / d := by
    rw [div_le_div_iff₀ (by positivity) hdq]
    have h1 : (1 : ℚ) ≤ n := by exact_mod_cast hn1
    have h2 : (d : ℚ) ≤ 2 ^ 52 := by exact_mod_cast h52
    nlinarith
  have err := round_error (le_trans hsmall hlow) fin
  have e52 : Fmt.double.m = 52 := rfl
  rw [e52] at err
  have hb := abs_le.1 (le_refl |(n : ℚ) / d - (ofRat Fmt.double s ((n : ℚ) / d)).value|)
  have hmul : (n : ℚ) / d * d = n := div_mul_cancel₀ _ (ne_of_gt hdq)
  generalize (ofRat Fmt.double s ((n : ℚ) / d)).value = v at *
  have hN : (n : ℚ) ≤ 2 ^ 52 - 1 := by exact_mod_cast hnd
  have close : 2 * (v * d) ≤ 2 * n + 1 ∧ 2 * n - 1 ≤ 2 * (v * d) := by
    have k1 : 2 * (v - (n : ℚ) / d) ≤ (n : ℚ) / d / 2 ^ 52 := by linarith [hb.1]
    have k2 : 2 * ((n : ℚ) / d - v) ≤ (n : ℚ) / d / 2 ^ 52 := by linarith [hb.2]
    have k3 := mul_le_mul_of_nonneg_right k1 (le_of_lt hdq)
    have k4 := mul_le_mul_of_nonneg_right k2 (le_of_lt hdq)
    have e1 : (n : ℚ) / d / 2 ^ 52 * d = n / 2 ^ 52 := by rw [div_mul_eq_mul_div, hmul]
    have e2 : (n : ℚ) / 2 ^ 52 ≤ 1 := by rw [div_le_one (by positivity)]; linarith
    rw [e1] at k3 k4
    constructor <;> nlinarith
  obtain ⟨u, u1, u2⟩ := exists_double (2 * n.toNat + 1) (-1) (by omega) (by decide) (by decide)
  obtain ⟨w, w1, w2⟩ := exists_double (2 * n.toNat - 1) (-1) (by omega) (by decide) (by decide)
  have e : ((n.toNat : Nat) : ℚ) = (n : ℚ) := by exact_mod_cast Int.toNat_of_nonneg h0
  have u2 : u.value = n + 1 / 2 := by rw [u2]; push_cast; rw [e]; norm_num; ring
  have w2 : w.value = n - 1 / 2 := by
    rw [w2, Nat.cast_sub (by omega)]; push_cast; rw [e]; norm_num; ring
  have top := (value_le_iff _ _).2 (ofRat_le u1 (q := v * d) (by rw [u2]; linarith [close.1]) s')
  have bot := (value_le_iff _ _).2 (le_ofRat w1 (q := v * d) (by rw [w2]; linarith [close.2]) s')
  rw [u2] at top
  rw [w2] at bot
  refine ⟨Int.le_floor.2 (by push_cast; linarith), ?_, special⟩
  have : ⌊(ofRat Fmt.double s' (v * d)).value⌋ < n + 1 := Int.floor_lt.2 (by push_cast; linarith)
  omega

private theorem trunc_floor {t : IntTy} {x : Double} (hx : x.finite) (h0 : 0 ≤ x.value) (hh : t.holds ⌊x.value⌋) :
    truncFlt t x = .ok ⌊x.value⌋ := by
  unfold truncFlt truncTo
  rw [if_pos hx]
  have e : x.value.num.tdiv x.value.den = ⌊x.value⌋ := by
    rw [Rat.floor_def', Int.tdiv_eq_ediv_of_nonneg (Rat.num_nonneg.2 h0)]
  simp only [e]; rw [if_pos hh]

/-- C221, the part that holds: for integers `a < b` at most `2^52` apart and every `x` between them, `fraction` returns a
number of which `interpolate` makes `x` or `x - 1`, and nothing below `a`. It makes `x` if `x` is one of the ends, and for
every `x` if the difference of the ends is a power of two. -/
theorem c221_partial (t : IntTy) (ht : 0 < t.bits) (a b x : Int) (ha : t.holds a) (hb : t.holds b) (hd : t.holds (b - a))
    (hab : a < b) (h52 : b - a ≤ 2 ^ 52) (hax : a ≤ x) (hxb : x ≤ b) :
    ∃ f r, fractionInt t x a b = .ok f ∧ interpolateInt t f a b = .ok r ∧ a ≤ r ∧ (r = x ∨ r = x - 1) ∧
      ((x = a ∨ x = b ∨ ∃ k : Nat, b - a = 2 ^ k) → r = x) := by
  have hx : t.holds (x - a) := ⟨by have := t.minValue_nonpos; omega, by have := hd.2; omega⟩
  obtain ⟨p1, p2, p3, p4, p5⟩ := there_and_back (n := x - a) (d := b - a) (by omega) (by omega) (by omega) h52
  have k0 := Int.floor_nonneg.2 p2
  generalize hf : (ofInt Fmt.double (x - a)).div (ofInt Fmt.double (b - a)) = f at *
  refine ⟨f, a + ⌊(f.mul (ofInt Fmt.double (b - a))).value⌋, ?_, ?_, by omega, by omega, fun h => ?_⟩
  · unfold fractionInt
    rw [if_neg (by omega), IntTy.sub_ok ht hx, Outcome.bind_ok, IntTy.sub_ok ht hd, Outcome.bind_ok, ← hf]; rfl
  · have hq : t.holds ⌊(f.mul (ofInt Fmt.double (b - a))).value⌋ := ⟨by have := t.minValue_nonpos; omega, by have := hd.2; omega⟩
    have hr : t.holds (a + ⌊(f.mul (ofInt Fmt.double (b - a))).value⌋) := ⟨by have := ha.1; omega, by have := hb.2; omega⟩
    unfold interpolateInt
    rw [IntTy.sub_ok ht hd, Outcome.bind_ok, trunc_floor p1 p2 hq, Outcome.bind_ok, IntTy.add_ok ht hr, Outcome.bind_ok,
      IntTy.wrap_of_holds ht hr]; rfl
  · have := p5 (by
      rcases h with h | h | h
      · left; omega
      · right; left; omega
      · right; right; exact h)
    omega

/-- 25 is a quarter of the way from 0 to 100 and found again. -/
example : fractionInt ⟨32, true⟩ 25 0 100 = .ok ⟨false, 0x3FD0000000000000⟩ ∧
    interpolateInt ⟨32, true⟩ ⟨false, 0x3FD0000000000000⟩ 0 100 = .ok 25 := by decide +kernel

/-- C221 the other way round: for integers `a < b` at most `2^52` apart and every fraction between 0 and 1, `fraction` of what
`interpolate` returns is less than two steps of the range away. -/
theorem c221_back_partial (t : IntTy) (ht : 0 < t.bits) (a b : Int) (ha : t.holds a) (hb : t.holds b) (hd : t.holds (b - a))
    (hab : a < b) (h52 : b - a ≤ 2 ^ 52) (f : Double) (hf : f.finite) (f0 : 0 ≤ f.value) (f1 : f.value ≤ 1) :
    ∃ x g, interpolateInt t f a b = .ok x ∧ a ≤ x ∧ x ≤ b ∧ fractionInt t x a b = .ok g ∧ g.finite ∧
      |g.value - f.value| * ((b - a : Int) : ℚ) < 2 := by
  obtain ⟨d, hde⟩ : ∃ d, d = b - a := ⟨_, rfl⟩
  obtain ⟨d1, d2⟩ := ofInt_exact (F := Fmt.double) (n := d) (by omega) (by show d ≤ 2 ^ 53; omega) (by decide)
  have hdq : (0 : ℚ) < d := by exact_mod_cast (by omega : 0 < d)
  have hd52 : (d : ℚ) ≤ 2 ^ 52 := by exact_mod_cast (by omega : d ≤ 2 ^ 52)
  have hz := zero_finite Fmt.double false
  have z0 : 0 ≤ f.value * d := mul_nonneg f0 (le_of_lt hdq)
  have z1 : f.value * d ≤ d := by have := mul_le_mul_of_nonneg_right f1 (le_of_lt hdq); linarith
  obtain ⟨p, hp⟩ : ∃ p, p = f.mul (ofInt Fmt.double d) := ⟨_, rfl⟩
  have hp' := hp
  rw [mul_finite hf d1, d2] at hp'
  have p1 : p.finite := by
    rw [hp']; exact ofRat_finite hz d1 (by rw [zero_value]; exact z0) (by rw [d2]; exact z1) _
  have p0 : 0 ≤ p.value := by
    have := (value_le_iff _ _).2 (le_ofRat hz (q := f.value * d) (by rw [zero_value]; exact z0)
      (f.neg != (ofInt Fmt.double d).neg))
    rw [zero_value] at this; rw [hp']; exact this
  have pd : p.value ≤ d := by
    have := (value_le_iff _ _).2 (ofRat_le d1 (q := f.value * d) (by rw [d2]; exact z1) (f.neg != (ofInt Fmt.double d).neg))
    rw [d2] at this; rw [hp']; exact this
  -- halves are numbers, so the product is at most a quarter away
  have near : |f.value * d - p.value| ≤ 1 / 4 := by
    have j0 : 0 ≤ ⌊2 * (f.value * d) + 1 / 2⌋ := Int.floor_nonneg.2 (by linarith)
    have j1 : ⌊2 * (f.value * d) + 1 / 2⌋ < 2 ^ 53 + 1 := Int.floor_lt.2 (by push_cast; linarith)
    have l1 := Int.floor_le (2 * (f.value * d) + 1 / 2)
    have l2 := Int.lt_floor_add_one (2 * (f.value * d) + 1 / 2)
    generalize ⌊2 * (f.value * d) + 1 / 2⌋ = j at *
    obtain ⟨u, u1, u2⟩ := exists_double j.toNat (-1) (by omega) (by decide) (by decide)
    have e : ((j.toNat : Nat) : ℚ) = (j : ℚ) := by exact_mod_cast Int.toNat_of_nonneg j0
    have u2 : u.value = j / 2 := by rw [u2, e]; norm_num; ring
    have := ofRat_nearest (hp' ▸ p1) u
    rw [← hp', u2] at this
    refine le_trans this ?_
    rw [abs_le]; constructor <;> linarith
  obtain ⟨m, hm⟩ : ∃ m, m = ⌊p.value⌋ := ⟨_, rfl⟩
  have m0 : 0 ≤ m := hm ▸ Int.floor_nonneg.2 p0
  have md : m ≤ d := by
    have := Int.floor_le_floor pd
    rw [Int.floor_intCast] at this; omega
  have l1 : (m : ℚ) ≤ p.value := hm ▸ Int.floor_le p.value
  have l2 : p.value < m + 1 := hm ▸ Int.lt_floor_add_one p.value
  have hmt : t.holds m := ⟨by have := t.minValue_nonpos; omega, by have := hd.2; omega⟩
  have hr : t.holds (a + m) := ⟨by have := ha.1; omega, by have := hb.2; omega⟩
  obtain ⟨m1, m2⟩ := ofInt_exact (F := Fmt.double) (n := m) m0 (by show m ≤ 2 ^ 53; omega) (by decide)
  have hmq : (0 : ℚ) ≤ m := by exact_mod_cast m0
  have hle : (m : ℚ) / d ≤ 1 := by rw [div_le_one hdq]; exact_mod_cast md
  have hr0 : 0 ≤ (m : ℚ) / d := by positivity
  have hmul : (m : ℚ) / d * d = m := div_mul_cancel₀ _ (ne_of_gt hdq)
  obtain ⟨one, o1, o2⟩ := exists_double 1 0 (by decide) (by decide) (by decide)
  have o2 : one.value = 1 := by rw [o2]; norm_num
  have am : a + m - a = m := by omega
  refine ⟨a + m, (ofInt Fmt.double m).div (ofInt Fmt.double d), ?_, by omega, by omega, ?_, ?_⟩
  · unfold interpolateInt
    rw [IntTy.sub_ok ht hd, Outcome.bind_ok, ← hde, ← hp, trunc_floor p1 p0 (hm ▸ hmt), ← hm, Outcome.bind_ok,
      IntTy.add_ok ht hr, Outcome.bind_ok, IntTy.wrap_of_holds ht hr]; rfl
  · unfold fractionInt
    rw [if_neg (by omega), IntTy.sub_ok ht (by rw [am]; exact hmt), Outcome.bind_ok, IntTy.sub_ok ht hd, Outcome.bind_ok, am, ← hde]
    rfl
  rw [div_finite m1 d1 (by rw [d2]; exact ne_of_gt hdq), m2, d2, ← hde]
  generalize ((ofInt Fmt.double m).neg != (ofInt Fmt.double d).neg) = s
  have fin : (ofRat Fmt.double s ((m : ℚ) / d)).finite :=
    ofRat_finite hz o1 (by rw [zero_value]; exact hr0) (by rw [o2]; exact hle) s
  refine ⟨fin, ?_⟩
  have err : 2 * |(m : ℚ) / d - (ofRat Fmt.double s ((m : ℚ) / d)).value| * d ≤ 1 := by
    by_cases hm0 : m = 0
    · rw [hm0]; unfold ofRat; rw [if_pos (by simp), zero_value]; simp
    · have hsmall : magValue Fmt.double (2 ^ Fmt.double.m) ≤ 1 / 2 ^ 52 := by decide +kernel
      have hlow : (1 : ℚ) / 2 ^ 52 ≤ (m : ℚ) / d := by
        rw [div_le_div_iff₀ (by positivity) hdq]
        have h1 : (1 : ℚ) ≤ m := by exact_mod_cast (by omega : 1 ≤ m)
        nlinarith
      have err := round_error (le_trans hsmall hlow) fin
      have e52 : Fmt.double.m = 52 := rfl
      rw [e52] at err
      have k3 := mul_le_mul_of_nonneg_right err (le_of_lt hdq)
      have e1 : (m : ℚ) / d / 2 ^ 52 * d = m / 2 ^ 52 := by rw [div_mul_eq_mul_div, hmul]
      have e2 : (m : ℚ) / 2 ^ 52 ≤ 1 := by
        rw [div_le_one (by positivity)]
        have : (m : ℚ) ≤ d := by exact_mod_cast md
        linarith
      rw [e1] at k3
      linarith
  have near := abs_le.1 near
  generalize (ofRat Fmt.double s ((m : ℚ) / d)).value = g at *
  have tri : |g - f.value| * d ≤ |(m : ℚ) / d - g| * d + |(m : ℚ) - f.value * d| := by
    have h1 : |g - f.value| ≤ |(m : ℚ) / d - g| + |(m : ℚ) / d - f.value| := by
      rw [abs_sub_comm ((m : ℚ) / d) g]; exact abs_sub_le _ _ _
    have h2 := mul_le_mul_of_nonneg_right h1 (le_of_lt hdq)
    have h3 : |(m : ℚ) / d - f.value| * d = |(m : ℚ) - f.value * d| := by
      rw [← abs_of_pos hdq, ← abs_mul, abs_of_pos hdq, sub_mul, hmul]
    rw [add_mul, h3] at h2
    exact h2
  have last : |(m : ℚ) - f.value * d| ≤ 5 / 4 := by
    rw [abs_le]; constructor <;> linarith [near.1, near.2]
  linarith

/-- A third of the way from 0 to 10 is 3, and 3 is 0.3 of the way (both to the nearest `double`). -/
example : interpolateInt ⟨32, true⟩ ⟨false, 0x3FD5555555555555⟩ 0 10 = .ok 3 ∧
    fractionInt ⟨32, true⟩ 3 0 10 = .ok ⟨false, 0x3FD3333333333333⟩ := by decide +kernel

/-- C221 is false: in every range of 49, of every type that has one, the number after the first is turned into the first, because
the quotient is rounded down and `interpolate` drops what is behind the point. -/
theorem c221_refuted (t : IntTy) (ht : 0 < t.bits) (a : Int) (ha : t.holds a) (_hb : t.holds (a + 49)) (hd : t.holds 49) :
    ∃ f, fractionInt t (a + 1) a (a + 49) = .ok f ∧ interpolateInt t f a (a + 49) = .ok a := by
  have h1 : t.holds 1 := ⟨by have := t.minValue_nonpos; omega, by have := hd.2; omega⟩
  have e1 : a + 1 - a = 1 := by omega
  have e49 : a + 49 - a = 49 := by omega
  have hx : t.holds (a + 1 - a) := by rw [e1]; exact h1
  have hd' : t.holds (a + 49 - a) := by rw [e49]; exact hd
  refine ⟨(ofInt Fmt.double 1).div (ofInt Fmt.double 49), ?_, ?_⟩
  · unfold fractionInt
    rw [if_neg (by omega), IntTy.sub_ok ht hx, Outcome.bind_ok, IntTy.sub_ok ht hd', Outcome.bind_ok, e1, e49]; rfl
  · have hp : (((ofInt Fmt.double 1).div (ofInt Fmt.double 49)).mul (ofInt Fmt.double 49)).finite ∧
        0 ≤ (((ofInt Fmt.double 1).div (ofInt Fmt.double 49)).mul (ofInt Fmt.double 49)).value ∧
        ⌊(((ofInt Fmt.double 1).div (ofInt Fmt.double 49)).mul (ofInt Fmt.double 49)).value⌋ = 0 := by decide +kernel
    have h0 : t.holds 0 := ⟨t.minValue_nonpos, by have := hd.2; omega⟩
    have hr : t.holds (a + 0) := by rw [Int.add_zero]; exact ha
    unfold interpolateInt
    rw [IntTy.sub_ok ht hd', Outcome.bind_ok, e49, trunc_floor hp.1 hp.2.1 (by rw [hp.2.2]; exact h0), Outcome.bind_ok, hp.2.2,
      IntTy.add_ok ht hr, Outcome.bind_ok, IntTy.wrap_of_holds ht hr, Int.add_zero]; rfl

/-- For `int`, from 0 to 49 and from -10 to 39. -/
example : interpolateInt ⟨32, true⟩ ((ofInt Fmt.double 1).div (ofInt Fmt.double 49)) 0 49 = .ok 0 ∧
    interpolateInt ⟨32, true⟩ ((ofInt Fmt.double 1).div (ofInt Fmt.double 49)) (-10) 39 = .ok (-10) ∧
    interpolateInt ⟨32, true⟩ ((ofInt Fmt.double 2).div (ofInt Fmt.double 49)) 0 49 = .ok 1 := by decide +kernel

end Wite.Props
