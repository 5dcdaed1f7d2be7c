import Verif.Model.RangeCalls
import Verif.Lemmas.NumTy
import Mathlib.Data.Rat.Floor
import Mathlib.Tactic.Push

/-!
# Property C185: ranges and numbers of other types
-/

namespace Wite.Props

open Wite Wite.Maths Wite.Maths.RangeCalls

variable {lb hb : Boundary}

/-! ## C185 -/

private theorem less_int (a b : Int) : NumTy.lessInt a b = true ↔ (a : ℚ) < b := by
  unfold NumTy.lessInt
  rw [decide_eq_true_iff, Int.cast_lt]

private theorem leq_int (a b : Int) : NumTy.leqInt a b = true ↔ (a : ℚ) ≤ b := by
  unfold NumTy.leqInt
  rw [decide_eq_true_iff, Int.cast_le]

private theorem less_num (t : NumTy) (a b : t.Val) (p q : ℚ) (ha : t.num a = some p) (hb : t.num b = some q) : a < b ↔ p < q := by
  cases t with
  | int t =>
    rw [← NumTy.num_int.1 ha, ← NumTy.num_int.1 hb]
    exact less_int a b
  | flt F =>
    obtain ⟨h1, h2⟩ := NumTy.num_flt.1 ha
    obtain ⟨h3, h4⟩ := NumTy.num_flt.1 hb
    rw [← h2, ← h4, ← Flt.lt_iff_value h1 h3]
    exact (decide_eq_true_iff (p := (show Flt F from a) < (show Flt F from b)))

private theorem leq_num (t : NumTy) (a b : t.Val) (p q : ℚ) (ha : t.num a = some p) (hb : t.num b = some q) : a ≤ b ↔ p ≤ q := by
  cases t with
  | int t =>
    rw [← NumTy.num_int.1 ha, ← NumTy.num_int.1 hb]
    exact leq_int a b
  | flt F =>
    obtain ⟨h1, h2⟩ := NumTy.num_flt.1 ha
    obtain ⟨h3, h4⟩ := NumTy.num_flt.1 hb
    rw [← h2, ← h4, ← Flt.le_iff_value h1 h3]
    exact (decide_eq_true_iff (p := (show Flt F from a) ≤ (show Flt F from b)))

/-- The number `q` lies between the bounds, open and closed ends respected. -/
def Within (lb hb : Boundary) (lo hi q : ℚ) : Prop :=
  (lo ≤ q ∧ (lb = .opened → lo ≠ q)) ∧ (q ≤ hi ∧ (hb = .opened → q ≠ hi))

private theorem below_num (t : NumTy) (r : ValueRange t.Val lb hb) (v : t.Val) (q lo : ℚ) (hv : t.num v = some q) (hlo : t.num r.lo = some lo) :
    r.belowMin v = true ↔ ¬ (lo ≤ q ∧ (lb = .opened → lo ≠ q)) := by
  unfold ValueRange.belowMin
  cases lb
  · simp [less_num t v r.lo q lo hv hlo]
  · simp only [decide_eq_true_eq, leq_num t v r.lo q lo hv hlo]
    constructor
    · rintro h ⟨h1, h2⟩; exact h2 (by simp) (le_antisymm h1 h)
    · intro h; by_contra hc
      exact h ⟨le_of_lt (not_le.1 hc), fun _ => ne_of_lt (not_le.1 hc)⟩

private theorem above_num (t : NumTy) (r : ValueRange t.Val lb hb) (v : t.Val) (q hi : ℚ) (hv : t.num v = some q) (hhi : t.num r.hi = some hi) :
    r.aboveMax v = true ↔ ¬ (q ≤ hi ∧ (hb = .opened → q ≠ hi)) := by
  unfold ValueRange.aboveMax
  cases hb
  · simp only [decide_eq_true_eq, gt_iff_lt, less_num t r.hi v hi q hhi hv]; simp
  · simp only [decide_eq_true_eq, ge_iff_le, leq_num t r.hi v hi q hhi hv]
    constructor
    · rintro h ⟨h1, h2⟩; exact h2 (by simp) (le_antisymm h1 h)
    · intro h; by_contra hc
      exact h ⟨le_of_lt (not_le.1 hc), fun _ => ne_of_lt (not_le.1 hc)⟩

private theorem contains_num (t : NumTy) (r : ValueRange t.Val lb hb) (v : t.Val) (q lo hi : ℚ) (hv : t.num v = some q)
    (hlo : t.num r.lo = some lo) (hhi : t.num r.hi = some hi) : r.contains v = true ↔ Within lb hb lo hi q := by
  have h1 := below_num t r v q lo hv hlo
  have h2 := above_num t r v q hi hv hhi
  unfold ValueRange.contains Within
  rw [Bool.not_eq_true', Bool.or_eq_false_iff, ← Bool.not_eq_true, ← Bool.not_eq_true, h1, h2, not_not, not_not]

private theorem clamp_num (t : NumTy) (r : ValueRange t.Val lb hb) (v : t.Val) (q lo hi : ℚ) (hv : t.num v = some q)
    (hlo : t.num r.lo = some lo) (hhi : t.num r.hi = some hi) (hle : lo ≤ hi) :
    ∃ y, r.clamp v = .ok y ∧ t.num y = some (max lo (min hi q)) := by
  unfold ValueRange.clamp ValueRange.stdClamp
  rw [if_neg (by rw [less_num t _ _ _ _ hhi hlo]; exact not_lt.2 hle)]
  by_cases h1 : v < r.lo
  · rw [if_pos h1]
    have := (less_num t _ _ _ _ hv hlo).1 h1
    exact ⟨_, rfl, by rw [hlo, max_eq_left (le_trans (min_le_right _ _) (le_of_lt this))]⟩
  · rw [if_neg h1]
    rw [less_num t _ _ _ _ hv hlo, not_lt] at h1
    by_cases h2 : r.hi < v
    · rw [if_pos h2]
      have := (less_num t _ _ _ _ hhi hv).1 h2
      exact ⟨_, rfl, by rw [hhi, min_eq_left (le_of_lt this), max_eq_right hle]⟩
    · rw [if_neg h2]
      rw [less_num t _ _ _ _ hhi hv, not_lt] at h2
      exact ⟨_, rfl, by rw [hv, min_eq_right h2, max_eq_right h1]⟩

/-- C185, the part that holds: with every number the type of the range has, whatever the type of the argument, `contains`,
`below_min` and `above_max` compare the numbers, `clamp` gives the nearest number between the bounds; and a range made of
two such numbers has them as bounds. -/
theorem c185_same_numbers_partial (s t : NumTy) (r : ValueRange t.Val lb hb) (x : s.Val) (q lo hi : ℚ) (hx : s.num x = some q) (hq : t.Holds q)
    (hlo : t.num r.lo = some lo) (hhi : t.num r.hi = some hi) :
    (∃ c, containsArg s t r x = .ok c ∧ (c = true ↔ Within lb hb lo hi q)) ∧
    (∃ c, belowMinArg s t r x = .ok c ∧ (c = true ↔ q < lo ∨ lb = .opened ∧ q = lo)) ∧
    (∃ c, aboveMaxArg s t r x = .ok c ∧ (c = true ↔ hi < q ∨ hb = .opened ∧ q = hi)) ∧
    (lo ≤ hi → ∃ y, clampArg s t r x = .ok y ∧ t.num y = some (max lo (min hi q))) ∧
    (∀ (b : Build) (s' : NumTy) (x' : s'.Val) (q' : ℚ), s'.num x' = some q' → t.Holds q' → q ≤ q' →
      ∃ r' : ValueRange t.Val lb hb, makeArg b s s' t x x' = .ok r' ∧ t.num r'.lo = some q ∧ t.num r'.hi = some q') := by
  obtain ⟨v, h1, h2, _⟩ := NumTy.convert_num s t x q hx hq
  refine ⟨⟨r.contains v, ?_, contains_num t r v q lo hi h2 hlo hhi⟩, ⟨r.belowMin v, ?_, ?_⟩, ⟨r.aboveMax v, ?_, ?_⟩, ?_, ?_⟩
  · simp only [containsArg, h1]; rfl
  · simp only [belowMinArg, h1]; rfl
  · rw [below_num t r v q lo h2 hlo]
    by_cases ho : lb = .opened
    · simp only [ho, true_imp_iff, true_and, not_and_or, not_le, not_not]
      exact or_congr_right eq_comm
    · simp [ho]
  · simp only [aboveMaxArg, h1]; rfl
  · rw [above_num t r v q hi h2 hhi]
    by_cases ho : hb = .opened
    · simp only [ho, true_imp_iff, true_and, not_and_or, not_le, not_not]
    · simp [ho]
  · intro hle
    obtain ⟨y, h3, h4⟩ := clamp_num t r v q lo hi h2 hlo hhi hle
    refine ⟨y, ?_, h4⟩
    simp only [clampArg, h1]; exact h3
  · intro b s' x' q' hx' hq' hle
    obtain ⟨v', h3, h4, _⟩ := NumTy.convert_num s' t x' q' hx' hq'
    refine ⟨⟨v, v'⟩, ?_, h2, h4⟩
    have hv : v ≤ v' := (leq_num t v v' q q' h2 h4).2 hle
    have hm : (ValueRange.make b v v' : Outcome (ValueRange t.Val lb hb)) = .ok ⟨v, v'⟩ := by
      unfold ValueRange.make; simp only [hv, decide_true]; cases b <;> rfl
    simp only [makeArg, h1, h3]; exact hm

private theorem setMin_closed (t : NumTy) (next : t.Val → Outcome t.Val) (b : Build) (r : ValueRange t.Val lb hb) (v : t.Val)
    (h : b = .release ∨ lb = .closed ∧ r.aboveMax v = false) : (ValueRange.setMin next b v).run r = (.ok ⟨⟩, { r with lo := v }) := by
  unfold ValueRange.setMin
  rcases h with rfl | ⟨rfl, h⟩
  · rfl
  · cases b with
    | release => rfl
    | debug => simp [St.run_bind, h, debugAssert]
    | aborting => simp [St.run_bind, h, debugAssert]

private theorem setMax_closed (t : NumTy) (prev : t.Val → Outcome t.Val) (b : Build) (r : ValueRange t.Val lb hb) (v : t.Val)
    (h : b = .release ∨ hb = .closed ∧ r.belowMin v = false) : (ValueRange.setMax prev b v).run r = (.ok ⟨⟩, { r with hi := v }) := by
  unfold ValueRange.setMax
  rcases h with rfl | ⟨rfl, h⟩
  · rfl
  · cases b with
    | release => rfl
    | debug => simp [St.run_bind, h, debugAssert]
    | aborting => simp [St.run_bind, h, debugAssert]

/-- C185, the part that holds, for the setters: with a number the type of the range has, `min(x)` and `max(x)` set the bound to this
number and leave the other one; in release builds always, in the others with a closed bound that does not pass the other one. -/
theorem c185_setters_partial (s t : NumTy) (next prev : t.Val → Outcome t.Val) (b : Build) (r : ValueRange t.Val lb hb) (x : s.Val)
    (q lo hi : ℚ) (hx : s.num x = some q) (hq : t.Holds q) (hlo : t.num r.lo = some lo) (hhi : t.num r.hi = some hi) :
    (b = .release ∨ lb = .closed ∧ (q < hi ∨ hb = .closed ∧ q = hi) →
      ∃ v, (setMinArg s t next b x).run r = (.ok ⟨⟩, ⟨v, r.hi⟩) ∧ t.num v = some q) ∧
    (b = .release ∨ hb = .closed ∧ (lo < q ∨ lb = .closed ∧ lo = q) →
      ∃ v, (setMaxArg s t prev b x).run r = (.ok ⟨⟩, ⟨r.lo, v⟩) ∧ t.num v = some q) := by
  obtain ⟨v, h1, h2, _⟩ := NumTy.convert_num s t x q hx hq
  constructor
  · intro h
    refine ⟨v, ?_, h2⟩
    unfold setMinArg
    rw [St.run_bind_ok (by rw [St.run_lift, h1])]
    refine setMin_closed t next b r v ?_
    rcases h with h | ⟨h, h'⟩
    · exact Or.inl h
    · refine Or.inr ⟨h, Bool.eq_false_iff.2 fun hc => (above_num t r v q hi h2 hhi).1 hc ?_⟩
      rcases h' with h' | ⟨h', rfl⟩
      · exact ⟨le_of_lt h', fun _ => ne_of_lt h'⟩
      · exact ⟨le_rfl, fun ho => by rw [h'] at ho; cases ho⟩
  · intro h
    refine ⟨v, ?_, h2⟩
    unfold setMaxArg
    rw [St.run_bind_ok (by rw [St.run_lift, h1])]
    refine setMax_closed t prev b r v ?_
    rcases h with h | ⟨h, h'⟩
    · exact Or.inl h
    · refine Or.inr ⟨h, Bool.eq_false_iff.2 fun hc => (below_num t r v q lo h2 hlo).1 hc ?_⟩
      rcases h' with h' | ⟨h', rfl⟩
      · exact ⟨le_of_lt h', fun _ => ne_of_lt h'⟩
      · exact ⟨le_rfl, fun ho => by rw [h'] at ho; cases ho⟩

/-- A range of `int`s and a `long`. -/
example : containsArg (.int ⟨64, true⟩) (.int .int) (⟨(0 : Int), (10 : Int)⟩ : ValueRange _ .closed .opened) (10 : Int) = .ok false ∧
    containsArg (.int ⟨64, true⟩) (.int .int) (⟨(0 : Int), (10 : Int)⟩ : ValueRange _ .closed .opened) (9 : Int) = .ok true := ⟨rfl, rfl⟩

/-- C185 fails for integers the type does not have: in every range of integers, every number the range contains is also found,
and left alone by `clamp`, when a multiple of the size of the type is added, although it lies beyond the bounds then. -/
theorem c185_refuted_wrap (s t : IntTy) (r : ValueRange (NumTy.int t).Val lb hb) (v m : Int) (ht : 0 < t.bits) (hv : t.holds v)
    (hlo : t.holds r.lo) (hhi : t.holds r.hi) (hm : m ≠ 0) :
    containsArg (.int s) (.int t) r (v + m * 2 ^ t.bits : Int) = .ok (r.contains v) ∧
    clampArg (.int s) (.int t) r (v + m * 2 ^ t.bits : Int) = r.clamp v ∧
    ((v + m * 2 ^ t.bits : Int) < (show Int from r.lo) ∨ (show Int from r.hi) < (v + m * 2 ^ t.bits : Int)) := by
  have hw : t.wrap (v + m * 2 ^ t.bits) = v := by
    have h := IntTy.wrap_of_holds ht hv
    unfold IntTy.wrap at h ⊢
    rw [show v + m * 2 ^ t.bits - t.minValue = (v - t.minValue) + m * 2 ^ t.bits by ring, Int.add_mul_emod_self_right]
    exact h
  have hc : NumTy.convert (.int s) (.int t) (v + m * 2 ^ t.bits : Int) = .ok (v : Int) := congrArg Outcome.ok hw
  refine ⟨?_, ?_, ?_⟩
  · unfold containsArg; rw [hc]; rfl
  · unfold clampArg; rw [hc]; rfl
  · have hr := IntTy.range_eq t ht
    have hp : (0 : Int) < 2 ^ t.bits := Int.pow_pos (by omega)
    obtain ⟨a1, a2⟩ := hv
    have b1 : t.minValue ≤ (show Int from r.lo) := hlo.1
    have b2 : (show Int from r.hi) ≤ t.maxValue := hhi.2
    rcases lt_or_gt_of_ne hm with h | h
    · left
      have : m * 2 ^ t.bits ≤ (-1) * 2 ^ t.bits := Int.mul_le_mul_of_nonneg_right (by omega) (le_of_lt hp)
      omega
    · right
      have : 1 * 2 ^ t.bits ≤ m * 2 ^ t.bits := Int.mul_le_mul_of_nonneg_right (by omega) (le_of_lt hp)
      omega

/-- C185 fails for the setters: in every build and range of integers, `min(x)` and `max(x)` with a multiple of the size of the type
added do what they do without it; so the bound becomes another number than the one given, without a complaint. -/
theorem c185_refuted_setters (s t : IntTy) (next prev : (NumTy.int t).Val → Outcome (NumTy.int t).Val) (b : Build)
    (r : ValueRange (NumTy.int t).Val lb hb) (v m : Int) (ht : 0 < t.bits) (hv : t.holds v) :
    (setMinArg (.int s) (.int t) next b (v + m * 2 ^ t.bits : Int)).run r = (ValueRange.setMin next b v).run r ∧
    (setMaxArg (.int s) (.int t) prev b (v + m * 2 ^ t.bits : Int)).run r = (ValueRange.setMax prev b v).run r ∧
    (lb = .closed → r.aboveMax v = false →
      (setMinArg (.int s) (.int t) next b (v + m * 2 ^ t.bits : Int)).run r = (.ok ⟨⟩, ⟨v, r.hi⟩)) ∧
    (hb = .closed → r.belowMin v = false →
      (setMaxArg (.int s) (.int t) prev b (v + m * 2 ^ t.bits : Int)).run r = (.ok ⟨⟩, ⟨r.lo, v⟩)) := by
  have hw : t.wrap (v + m * 2 ^ t.bits) = v := by
    have h := IntTy.wrap_of_holds ht hv
    unfold IntTy.wrap at h ⊢
    rw [show v + m * 2 ^ t.bits - t.minValue = (v - t.minValue) + m * 2 ^ t.bits by ring, Int.add_mul_emod_self_right]
    exact h
  have hc : NumTy.convert (.int s) (.int t) (v + m * 2 ^ t.bits : Int) = .ok (v : Int) := congrArg Outcome.ok hw
  have h1 : (setMinArg (.int s) (.int t) next b (v + m * 2 ^ t.bits : Int)).run r = (ValueRange.setMin next b v).run r := by
    unfold setMinArg
    rw [hc]; rfl
  have h2 : (setMaxArg (.int s) (.int t) prev b (v + m * 2 ^ t.bits : Int)).run r = (ValueRange.setMax prev b v).run r := by
    unfold setMaxArg
    rw [hc]; rfl
  exact ⟨h1, h2, fun hl h => h1.trans (setMin_closed _ next b r v (Or.inr ⟨hl, h⟩)),
    fun hl h => h2.trans (setMax_closed _ prev b r v (Or.inr ⟨hl, h⟩))⟩

/-- `min(4294967299)` of the range from 0 to 10 of `int`s gives the range from 3 to 10, even in a debug build. -/
example (next : Int → Outcome Int) :
    (setMinArg (.int ⟨64, true⟩) (.int .int) next .debug (4294967299 : Int)).run (⟨(0 : Int), (10 : Int)⟩ : ValueRange (NumTy.int .int).Val .closed .closed) =
      (.ok ⟨⟩, ⟨(3 : Int), (10 : Int)⟩) :=
  (c185_refuted_setters ⟨64, true⟩ .int next next .debug ⟨(0 : Int), (10 : Int)⟩ 3 1 (by decide) (by decide)).2.2.1 rfl rfl

/-- `value_range<int>(0, 10).contains(4294967299)` is true. -/
example : containsArg (.int ⟨64, true⟩) (.int .int) (⟨(0 : Int), (10 : Int)⟩ : ValueRange _ .closed .closed) (4294967299 : Int) = .ok true ∧
    clampArg (.int ⟨64, true⟩) (.int .int) (⟨(0 : Int), (10 : Int)⟩ : ValueRange _ .closed .closed) (4294967299 : Int) = .ok (3 : Int) := ⟨rfl, rfl⟩

/-- C185 fails for bounds the type does not have: the range is that of the remainders. -/
theorem c185_refuted_make (b : Build) (s₁ s₂ t : IntTy) (lo hi m n : Int) (ht : 0 < t.bits) (hlo : t.holds lo) (hhi : t.holds hi) (hle : lo ≤ hi) :
    (makeArg b (.int s₁) (.int s₂) (.int t) (lo + m * 2 ^ t.bits : Int) (hi + n * 2 ^ t.bits : Int) : Outcome (ValueRange (NumTy.int t).Val lb hb)) =
      .ok ⟨lo, hi⟩ := by
  have hw : ∀ v j : Int, t.holds v → t.wrap (v + j * 2 ^ t.bits) = v := by
    intro v j hv
    have h := IntTy.wrap_of_holds ht hv
    unfold IntTy.wrap at h ⊢
    rw [show v + j * 2 ^ t.bits - t.minValue = (v - t.minValue) + j * 2 ^ t.bits by ring, Int.add_mul_emod_self_right]
    exact h
  have h1 : NumTy.convert (.int s₁) (.int t) (lo + m * 2 ^ t.bits : Int) = .ok (lo : Int) := congrArg Outcome.ok (hw lo m hlo)
  have h2 : NumTy.convert (.int s₂) (.int t) (hi + n * 2 ^ t.bits : Int) = .ok (hi : Int) := congrArg Outcome.ok (hw hi n hhi)
  have hd : ((show (NumTy.int t).Val from lo) ≤ (show (NumTy.int t).Val from hi)) := decide_eq_true hle
  have hm : (ValueRange.make b (show (NumTy.int t).Val from lo) (show (NumTy.int t).Val from hi) : Outcome (ValueRange _ lb hb)) = .ok ⟨lo, hi⟩ := by
    unfold ValueRange.make
    rw [decide_eq_true hd]; cases b <;> rfl
  unfold makeArg
  rw [h1, h2]
  exact hm

/-- `value_range<int>(0, 5000000000)` ends at 705032704. -/
example : (makeArg .debug (.int .int) (.int ⟨64, true⟩) (.int .int) (0 : Int) (5000000000 : Int) : Outcome (ValueRange (NumTy.int .int).Val .closed .closed)) =
    .ok ⟨(0 : Int), (705032704 : Int)⟩ := rfl

/-- The number without its fraction. -/
private def towardZero (q : ℚ) : Int := if 0 ≤ q then ⌊q⌋ else ⌈q⌉

private theorem tdiv_eq (q : ℚ) : q.num.tdiv q.den = towardZero q := by
  unfold towardZero
  by_cases h : 0 ≤ q
  · rw [if_pos h, Rat.floor_def', Int.tdiv_eq_ediv_of_nonneg (Rat.num_nonneg.2 h)]
  · rw [if_neg h]
    have hn : q.num < 0 := Rat.num_neg.2 (not_le.1 h)
    have h1 : (-q).num.tdiv (-q).den = ⌊-q⌋ := by
      rw [Rat.floor_def', Int.tdiv_eq_ediv_of_nonneg (Rat.num_nonneg.2 (by linarith))]
    rw [Rat.num_neg_eq_neg_num, Rat.den_neg_eq_den, Int.neg_tdiv, Int.floor_neg] at h1
    omega

private theorem convert_fraction (F : Fmt) (t : IntTy) (x : Flt F) (hx : x.finite) (h : t.holds (towardZero x.value)) :
    NumTy.convert (.flt F) (.int t) x = .ok (towardZero x.value : Int) := by
  show truncFlt t x = _
  unfold truncFlt truncTo
  rw [if_pos hx, tdiv_eq]
  simp only
  rw [if_pos h]; rfl

/-- C185 fails for fractions beyond the bounds: every closed range of integers contains the numbers less than one above its upper
bound if that is not negative, and less than one below its lower bound if that is not positive. -/
theorem c185_refuted_fraction (F : Fmt) (t : IntTy) (r : ValueRange (NumTy.int t).Val .closed .closed) (x : Flt F) (lo hi : Int) (hx : x.finite)
    (elo : r.lo = lo) (ehi : r.hi = hi) (hlo : t.holds lo) (hhi : t.holds hi) (hle : lo ≤ hi) :
    (0 ≤ hi → (hi : ℚ) < x.value → x.value < hi + 1 → containsArg (.flt F) (.int t) r x = .ok true) ∧
    (lo ≤ 0 → (lo : ℚ) - 1 < x.value → x.value < lo → containsArg (.flt F) (.int t) r x = .ok true) := by
  have key : ∀ n : Int, lo ≤ n → n ≤ hi → towardZero x.value = n → containsArg (.flt F) (.int t) r x = .ok true := by
    intro n h1 h2 hn
    have hh : t.holds (towardZero x.value) := by
      rw [hn]; exact ⟨le_trans hlo.1 h1, le_trans h2 hhi.2⟩
    unfold containsArg
    rw [convert_fraction F t x hx hh, hn]
    refine congrArg Outcome.ok ?_
    refine (contains_num (.int t) r n n lo hi (NumTy.num_int.2 rfl) (by rw [elo]; exact NumTy.num_int.2 rfl) (by rw [ehi]; exact NumTy.num_int.2 rfl)).2 ?_
    exact ⟨⟨by exact_mod_cast h1, fun h => by cases h⟩, by exact_mod_cast h2, fun h => by cases h⟩
  refine ⟨fun h0 h1 h2 => key hi hle (le_refl _) ?_, fun h0 h1 h2 => key lo (le_refl _) hle ?_⟩
  · have : (0 : ℚ) ≤ x.value := le_of_lt (lt_of_le_of_lt (by exact_mod_cast h0) h1)
    unfold towardZero
    rw [if_pos this, Int.floor_eq_iff]
    exact ⟨le_of_lt h1, h2⟩
  · have : ¬ (0 : ℚ) ≤ x.value := not_le.2 (lt_of_lt_of_le h2 (by exact_mod_cast h0))
    unfold towardZero
    rw [if_neg this, Int.ceil_eq_iff]
    exact ⟨h1, le_of_lt h2⟩

private def tenAndAHalf : Outcome Bool :=
  containsArg (.flt .double) (.int .int) (⟨(0 : Int), (10 : Int)⟩ : ValueRange (NumTy.int .int).Val .closed .closed) (⟨false, 0x4025000000000000⟩ : Flt .double)

/-- `value_range<int>(0, 10).contains(10.5)` is true. -/
example : tenAndAHalf = .ok true := by decide +kernel

/-- C185 fails for fractions inside open bounds: a range of integers that is open at its lower end does not contain the numbers
less than one above it, if they are positive. -/
theorem c185_refuted_open (F : Fmt) (t : IntTy) (r : ValueRange (NumTy.int t).Val .opened hb) (x : Flt F) (lo hi : Int) (hx : x.finite)
    (elo : r.lo = lo) (ehi : r.hi = hi) (hlo : t.holds lo) (h0 : 0 ≤ lo) (h1 : (lo : ℚ) < x.value) (h2 : x.value < lo + 1) :
    containsArg (.flt F) (.int t) r x = .ok false := by
  have hn : towardZero x.value = lo := by
    have : (0 : ℚ) ≤ x.value := le_of_lt (lt_of_le_of_lt (by exact_mod_cast h0) h1)
    unfold towardZero
    rw [if_pos this, Int.floor_eq_iff]
    exact ⟨le_of_lt h1, h2⟩
  unfold containsArg
  rw [convert_fraction F t x hx (hn ▸ hlo), hn]
  refine congrArg Outcome.ok (Bool.eq_false_iff.2 fun hc => ?_)
  have := (contains_num (.int t) r lo lo lo hi (NumTy.num_int.2 rfl) (by rw [elo]; exact NumTy.num_int.2 rfl) (by rw [ehi]; exact NumTy.num_int.2 rfl)).1 hc
  exact this.1.2 rfl rfl

private def half : Outcome Bool :=
  containsArg (.flt .double) (.int .int) (⟨(0 : Int), (10 : Int)⟩ : ValueRange (NumTy.int .int).Val .opened .opened) (⟨false, 0x3fe0000000000000⟩ : Flt .double)

/-- An open range of `int`s from 0 to 10 does not contain 0.5. -/
example : half = .ok false := by decide +kernel

/-- C185, the part that holds for fractions and roundings: a closed range with finite bounds never rejects a number between its
bounds, whatever the types. -/
theorem c185_never_rejects_partial (s t : NumTy) (r : ValueRange t.Val .closed .closed) (x : s.Val) (q lo hi : ℚ) (hx : s.num x = some q)
    (ht : t.ok r.lo ∧ t.ok r.hi) (hlo : t.num r.lo = some lo) (hhi : t.num r.hi = some hi) (h1 : lo ≤ q) (h2 : q ≤ hi) :
    containsArg s t r x = .ok true := by
  cases t with
  | int t =>
    have elo := NumTy.num_int.1 hlo
    have ehi := NumTy.num_int.1 hhi
    obtain ⟨l, hl⟩ : ∃ l : Int, (show Int from r.lo) = l := ⟨_, rfl⟩
    obtain ⟨k, hk⟩ : ∃ k : Int, (show Int from r.hi) = k := ⟨_, rfl⟩
    have hl' : (l : ℚ) = lo := by rw [← hl]; exact elo
    have hk' : (k : ℚ) = hi := by rw [← hk]; exact ehi
    have hb1 : t.holds l := hl ▸ ht.1.2
    have hb2 : t.holds k := hk ▸ ht.2.2
    have fin : ∀ n : Int, l ≤ n → n ≤ k → r.contains (show (NumTy.int t).Val from n) = true := by
      intro n a b
      refine (contains_num (.int t) r n n lo hi (NumTy.num_int.2 rfl) hlo hhi).2 ⟨⟨?_, fun h => by cases h⟩, ?_, fun h => by cases h⟩
      · rw [← hl']; exact_mod_cast a
      · rw [← hk']; exact_mod_cast b
    cases s with
    | int s =>
      have hx' := NumTy.num_int.1 hx
      obtain ⟨v, hv⟩ : ∃ v : Int, (show Int from x) = v := ⟨_, rfl⟩
      have hv' : (v : ℚ) = q := by rw [← hv]; exact hx'
      have a : l ≤ v := by
        have : (l : ℚ) ≤ v := by rw [hl', hv']; exact h1
        exact_mod_cast this
      have b : v ≤ k := by
        have : (v : ℚ) ≤ k := by rw [hk', hv']; exact h2
        exact_mod_cast this
      have hw : t.wrap v = v := IntTy.wrap_of_holds ht.1.1 ⟨le_trans hb1.1 a, le_trans b hb2.2⟩
      have hc : NumTy.convert (.int s) (.int t) x = .ok (v : Int) := by
        show Outcome.ok (t.wrap (show Int from x)) = _
        rw [hv, hw]; rfl
      unfold containsArg
      rw [hc]
      exact congrArg Outcome.ok (fin v a b)
    | flt F =>
      obtain ⟨hf, hq⟩ := NumTy.num_flt.1 hx
      have hb : l ≤ towardZero q ∧ towardZero q ≤ k := by
        rw [← hl'] at h1; rw [← hk'] at h2
        unfold towardZero
        by_cases h0 : 0 ≤ q
        · rw [if_pos h0]
          exact ⟨Int.le_floor.2 h1, by exact_mod_cast le_trans (Int.floor_le q) h2⟩
        · rw [if_neg h0]
          exact ⟨by exact_mod_cast le_trans h1 (Int.le_ceil q), Int.ceil_le.2 h2⟩
      have hc := convert_fraction F t x hf (by
        rw [hq]; exact ⟨le_trans hb1.1 hb.1, le_trans hb.2 hb2.2⟩)
      rw [hq] at hc
      unfold containsArg
      rw [hc]
      exact congrArg Outcome.ok (fin _ hb.1 hb.2)
  | flt G =>
    obtain ⟨fl, vl⟩ := NumTy.num_flt.1 hlo
    obtain ⟨fh, vh⟩ := NumTy.num_flt.1 hhi
    have main : ∀ neg : Bool, r.contains (show (NumTy.flt G).Val from Flt.ofRat G neg q) = true := by
      intro neg
      have g1 := Flt.le_ofRat fl (vl.trans_le h1) neg
      have g2 := Flt.ofRat_le fh (h2.trans_eq vh.symm) neg
      have g3 := Flt.ofRat_finite fl fh (vl.trans_le h1) (h2.trans_eq vh.symm) neg
      refine (contains_num (.flt G) r _ _ lo hi (NumTy.num_flt.2 ⟨g3, rfl⟩) hlo hhi).2 ⟨⟨?_, fun h => by cases h⟩, ?_, fun h => by cases h⟩
      · rw [← vl]; exact (Flt.value_le_iff _ _).2 g1
      · rw [← vh]; exact (Flt.value_le_iff _ _).2 g2
    cases s with
    | int s =>
      have hx' := NumTy.num_int.1 hx
      have hc : NumTy.convert (.int s) (.flt G) x = .ok (Flt.ofRat G false q) := by
        rw [← hx']; rfl
      unfold containsArg
      rw [hc]
      exact congrArg Outcome.ok (main false)
    | flt F =>
      obtain ⟨hf, hq⟩ := NumTy.num_flt.1 hx
      have hc : NumTy.convert (.flt F) (.flt G) x = .ok (Flt.ofRat G (Flt.neg (F := F) x) q) := by
        rw [← hq]; exact congrArg Outcome.ok (Flt.convert_finite hf)
      unfold containsArg
      rw [hc]
      exact congrArg Outcome.ok (main _)

private def nineAndAHalf : Outcome Bool :=
  containsArg (.flt .double) (.int .int) (⟨(0 : Int), (10 : Int)⟩ : ValueRange (NumTy.int .int).Val .closed .closed) (⟨false, 0x4023000000000000⟩ : Flt .double)

example : nineAndAHalf = .ok true := by decide +kernel

end Wite.Props
