import Verif.Model.ValueRange
import Verif.Lemmas.Float
import Verif.Lemmas.IntTy
import Verif.Props.Numeric
import Mathlib.Order.Lattice
import Mathlib.Tactic.Linarith

/-!
# Properties C78–C84: `value_range` and `bounded_value`
-/

namespace Wite.Props

open Wite Wite.Maths

section Ranges

variable {α : Type} [LinearOrder α] {lb hb : Boundary}

/-! ## C78 -/

/-- C78: `contains(x)` means that `x` lies within the bounds, open and closed ends respected. -/
theorem c78_contains (r : ValueRange α lb hb) (x : α) :
    r.contains x = true ↔ (r.lo ≤ x ∧ (lb = .opened → r.lo ≠ x)) ∧ (x ≤ r.hi ∧ (hb = .opened → x ≠ r.hi)) := by
  have h1 : r.lo < x ↔ r.lo ≤ x ∧ r.lo ≠ x := lt_iff_le_and_ne
  have h2 : x < r.hi ↔ x ≤ r.hi ∧ x ≠ r.hi := lt_iff_le_and_ne
  cases lb <;> cases hb <;> simp [ValueRange.contains, ValueRange.belowMin, ValueRange.aboveMax, h1, h2]

/-- C78: in a range with `min < max`, or a closed one with `min <= max`, exactly one of `below_min(x)`, `contains(x)`
and `above_max(x)` holds. -/
theorem c78_exactly_one (r : ValueRange α lb hb) (x : α)
    (h : r.lo < r.hi ∨ (lb = .closed ∧ hb = .closed ∧ r.lo ≤ r.hi)) :
    (r.belowMin x = true ∧ r.contains x = false ∧ r.aboveMax x = false) ∨
    (r.belowMin x = false ∧ r.contains x = true ∧ r.aboveMax x = false) ∨
    (r.belowMin x = false ∧ r.contains x = false ∧ r.aboveMax x = true) := by
  have hle : r.lo ≤ r.hi := h.elim le_of_lt (fun h => h.2.2)
  have hnot : ¬ (r.belowMin x = true ∧ r.aboveMax x = true) := by
    rintro ⟨h1, h2⟩
    cases lb <;> cases hb <;> simp only [ValueRange.belowMin, ValueRange.aboveMax, decide_eq_true_eq] at h1 h2 <;>
      simp at h
    · exact absurd (lt_trans h2 h1) (not_lt.2 hle)
    · exact absurd (lt_of_le_of_lt h2 h1) (not_lt.2 hle)
    · exact absurd (lt_of_lt_of_le h2 h1) (not_lt.2 hle)
    · exact absurd (le_trans h2 h1) (not_le.2 h)
  unfold ValueRange.contains
  rcases h1 : r.belowMin x <;> rcases h2 : r.aboveMax x <;> simp_all

/-- C78: a range with `min == max` and an open end contains nothing. -/
theorem c78_empty_open (r : ValueRange α lb hb) (x : α) (h : r.lo = r.hi) (ho : lb = .opened ∨ hb = .opened) :
    r.contains x = false := by
  rw [← Bool.not_eq_true, c78_contains]
  rintro ⟨⟨h1, h2⟩, h3, h4⟩
  have e : r.lo = x := le_antisymm h1 (h ▸ h3)
  rcases ho with ho | ho
  · exact h2 ho e
  · exact h4 ho (e ▸ h)

example : (⟨1, 4⟩ : ValueRange Int .closed .opened).contains 1 = true ∧
    (⟨1, 4⟩ : ValueRange Int .closed .opened).contains 4 = false ∧
    (⟨1, 4⟩ : ValueRange Int .opened .closed).belowMin 1 = true ∧
    (⟨2, 2⟩ : ValueRange Int .closed .closed).contains 2 = true ∧
    (⟨2, 2⟩ : ValueRange Int .closed .opened).contains 2 = false := by decide

/-! ## C79 -/

/-- A range that has not been inverted. -/
private theorem overlap_eq (b : Build) (r s : ValueRange α lb hb) (hr : r.lo ≤ r.hi) (hs : s.lo ≤ s.hi) :
    r.overlap b s = .ok (if r.lo > s.hi ∨ r.hi < s.lo then none else some ⟨max r.lo s.lo, min r.hi s.hi⟩) := by
  have hmax : stdMax r.lo s.lo = max r.lo s.lo := by
    rw [stdMax]; rcases lt_or_ge r.lo s.lo with h | h
    · rw [if_pos h, max_eq_right (le_of_lt h)]
    · rw [if_neg (not_lt.2 h), max_eq_left h]
  have hmin : stdMin r.hi s.hi = min r.hi s.hi := by
    rw [stdMin]; rcases lt_or_ge s.hi r.hi with h | h
    · rw [if_pos h, min_eq_right (le_of_lt h)]
    · rw [if_neg (not_lt.2 h), min_eq_left h]
  have ha : ∀ p : Bool, p = true → ∀ msg, debugAssert b p msg = .ok () := by
    intro p hp msg; subst hp; cases b <;> rfl
  unfold ValueRange.overlap
  rw [ha _ (by simpa using hr), Outcome.bind_ok, ha _ (by simpa using hs), Outcome.bind_ok]
  split
  · rfl
  · rename_i h
    rw [not_or, not_lt, not_lt] at h
    rw [hmax, hmin, ValueRange.make, ha _ (by
      rw [decide_eq_true_eq]; exact max_le (le_min hr h.1) (le_min h.2 hs))]
    rfl

/-- C79, for every kind of bounds: the overlap never fails; if it is a range, that range contains exactly the values both
contain, and is not inverted; if there is none, no value is in both. -/
theorem c79_values (b : Build) (r s : ValueRange α lb hb) (hr : r.lo ≤ r.hi) (hs : s.lo ≤ s.hi) :
    ∃ o, r.overlap b s = .ok o ∧
      (∀ u, o = some u → u.lo ≤ u.hi ∧ ∀ x, u.contains x = true ↔ r.contains x = true ∧ s.contains x = true) ∧
      (o = none → ∀ x, ¬ (r.contains x = true ∧ s.contains x = true)) := by
  refine ⟨_, overlap_eq b r s hr hs, ?_, ?_⟩
  · intro u hu
    split at hu
    · cases hu
    · rename_i h
      rw [not_or, not_lt, not_lt] at h
      cases hu
      refine ⟨max_le (le_min hr h.1) (le_min h.2 hs), fun x => ?_⟩
      cases lb <;> cases hb <;>
        simp only [ValueRange.contains, ValueRange.belowMin, ValueRange.aboveMax, Bool.not_eq_true', Bool.or_eq_false_iff,
          decide_eq_false_iff_not, not_lt, not_le, max_le_iff, le_min_iff, max_lt_iff, lt_min_iff, ge_iff_le, gt_iff_lt] <;>
        tauto
  · intro ho x hx
    split at ho
    · rename_i h
      rw [c78_contains, c78_contains] at hx
      rcases h with h | h
      · exact absurd (le_trans hx.1.1.1 hx.2.2.1) (not_le.2 h)
      · exact absurd (le_trans hx.2.1.1 hx.1.2.1) (not_le.2 h)
    · cases ho

/-- C79, the part that holds: for closed ranges there is no overlap exactly if no value is in both. -/
theorem c79_none_partial (b : Build) (r s : ValueRange α .closed .closed) (hr : r.lo ≤ r.hi) (hs : s.lo ≤ s.hi) :
    r.overlap b s = .ok none ↔ ∀ x, ¬ (r.contains x = true ∧ s.contains x = true) := by
  obtain ⟨o, ho, h1, h2⟩ := c79_values b r s hr hs
  rw [ho]
  constructor
  · intro h; cases h; exact h2 rfl
  · intro h
    cases o with
    | none => rfl
    | some u =>
      obtain ⟨h3, h4⟩ := h1 u rfl
      exact absurd ((h4 u.lo).1 ((c78_contains u u.lo).2 ⟨⟨le_refl _, by simp⟩, h3, by simp⟩)) (h u.lo)

/-- C79 is false for ranges with an open end: ranges that only touch (`max` of one equals `min` of the other, one of the
two ends open) have no common value, yet their overlap is a range (an empty one), over every value type. -/
theorem c79_refuted_open (b : Build) (lo mid hi : α) (h1 : lo ≤ mid) (h2 : mid ≤ hi) (ho : lb = .opened ∨ hb = .opened) :
    let r : ValueRange α lb hb := ⟨lo, mid⟩
    let s : ValueRange α lb hb := ⟨mid, hi⟩
    r.overlap b s = .ok (some ⟨mid, mid⟩) ∧ ∀ x, ¬ (r.contains x = true ∧ s.contains x = true) := by
  intro r s
  have he := overlap_eq b r s h1 h2
  have hc : ¬ (r.lo > s.hi ∨ r.hi < s.lo) := by
    rintro (h | h)
    · exact absurd (le_trans h1 h2) (not_le.2 h)
    · exact lt_irrefl _ h
  rw [if_neg hc] at he
  have e1 : max r.lo s.lo = mid := max_eq_right h1
  have e2 : min r.hi s.hi = mid := min_eq_left h2
  rw [e1, e2] at he
  refine ⟨he, fun x hx => ?_⟩
  obtain ⟨o, ho', h3, _⟩ := c79_values b r s h1 h2
  rw [he] at ho'
  cases ho'
  have := ((h3 ⟨mid, mid⟩ rfl).2 x).2 hx
  rw [c78_empty_open _ x rfl ho] at this
  cases this

/-- C79: overlapping is commutative and idempotent. -/
theorem c79_algebra (b : Build) (r s : ValueRange α lb hb) (hr : r.lo ≤ r.hi) (hs : s.lo ≤ s.hi) :
    r.overlap b s = s.overlap b r ∧ r.overlap b r = .ok (some r) := by
  rw [overlap_eq b r s hr hs, overlap_eq b s r hs hr, overlap_eq b r r hr hr]
  refine ⟨?_, ?_⟩
  · rw [max_comm, min_comm]
    have : (r.lo > s.hi ∨ r.hi < s.lo) ↔ (s.lo > r.hi ∨ s.hi < r.lo) := by
      rw [or_comm]
    simp only [this]
  · rw [if_neg (by rintro (h | h) <;> exact absurd hr (not_le.2 h)), max_self, min_self]

example : (⟨1, 5⟩ : ValueRange Int .closed .closed).overlap .debug ⟨3, 9⟩ = .ok (some ⟨3, 5⟩) ∧
    (⟨1, 5⟩ : ValueRange Int .closed .closed).overlap .debug ⟨6, 9⟩ = .ok none ∧
    (⟨0, 1⟩ : ValueRange Int .opened .opened).overlap .debug ⟨1, 2⟩ = .ok (some ⟨1, 1⟩) := by decide

/-! ## C80 -/

/-- C80, for every kind of bounds: a value of the range is left alone, every other value becomes the bound it is beyond;
no value between the bounds is nearer (nothing lies strictly between the argument and the result on the side of the
range). -/
theorem c80_clamp (r : ValueRange α lb hb) (hr : r.lo ≤ r.hi) (x : α) :
    ∃ y, r.clamp x = .ok y ∧ r.lo ≤ y ∧ y ≤ r.hi ∧
      (r.contains x = true → y = x) ∧ (x < r.lo → y = r.lo) ∧ (r.hi < x → y = r.hi) ∧
      ∀ z, r.lo ≤ z → z ≤ r.hi → (x ≤ z → y ≤ z) ∧ (z ≤ x → z ≤ y) := by
  unfold ValueRange.clamp ValueRange.stdClamp
  rw [if_neg (not_lt.2 hr)]
  by_cases h1 : x < r.lo
  · rw [if_pos h1]
    refine ⟨r.lo, rfl, le_refl _, hr, fun h => ?_, fun _ => rfl, fun h => ?_, fun z hz1 hz2 => ⟨fun _ => hz1, fun h => le_trans h (le_of_lt h1)⟩⟩
    · exact absurd h1 (not_lt.2 ((c78_contains r x).1 h).1.1)
    · exact absurd (lt_trans h h1) (not_lt.2 hr)
  · rw [if_neg h1]
    by_cases h2 : r.hi < x
    · rw [if_pos h2]
      refine ⟨r.hi, rfl, hr, le_refl _, fun h => ?_, fun h => absurd h h1, fun _ => rfl, fun z hz1 hz2 => ⟨fun h => le_trans (le_of_lt h2) h, fun _ => hz2⟩⟩
      exact absurd h2 (not_lt.2 ((c78_contains r x).1 h).2.1)
    · rw [if_neg h2]
      exact ⟨x, rfl, not_lt.1 h1, not_lt.1 h2, fun _ => rfl, fun h => absurd h h1, fun h => absurd h h2, fun z _ _ => ⟨id, id⟩⟩

/-- C80, the part of membership that holds: for closed ranges the result is contained in the range. -/
theorem c80_contained_partial (r : ValueRange α .closed .closed) (hr : r.lo ≤ r.hi) (x : α) :
    ∃ y, r.clamp x = .ok y ∧ r.contains y = true := by
  obtain ⟨y, h1, h2, h3, _⟩ := c80_clamp r hr x
  exact ⟨y, h1, (c78_contains r y).2 ⟨⟨h2, by simp⟩, h3, by simp⟩⟩

/-- C80 is false for open ends: a value beyond an open end is clamped to a value outside the range, for every range. -/
theorem c80_refuted_open (r : ValueRange α lb hb) (hr : r.lo ≤ r.hi) (x : α)
    (h : (lb = .opened ∧ x < r.lo) ∨ (hb = .opened ∧ r.hi < x)) : ∃ y, r.clamp x = .ok y ∧ r.contains y = false := by
  obtain ⟨y, h1, _, _, _, h5, h6, _⟩ := c80_clamp r hr x
  refine ⟨y, h1, ?_⟩
  rw [← Bool.not_eq_true, c78_contains]
  rintro ⟨⟨_, h2⟩, _, h4⟩
  rcases h with ⟨ho, h⟩ | ⟨ho, h⟩
  · exact h2 ho (h5 h).symm
  · exact h4 ho (h6 h)

/-- C80: clamping is idempotent and monotone. -/
theorem c80_idempotent_monotone (r : ValueRange α lb hb) (hr : r.lo ≤ r.hi) (x y : α) :
    (r.clamp x >>= r.clamp) = r.clamp x ∧
    (x ≤ y → ∃ x' y', r.clamp x = .ok x' ∧ r.clamp y = .ok y' ∧ x' ≤ y') := by
  obtain ⟨x', h1, h2, h3, _, h5, h6, h7⟩ := c80_clamp r hr x
  obtain ⟨y', g1, g2, g3, _, g5, g6, g7⟩ := c80_clamp r hr y
  obtain ⟨z', k1, _, _, _, _, _, k7⟩ := c80_clamp r hr x'
  refine ⟨?_, fun hxy => ⟨x', y', h1, g1, ?_⟩⟩
  · rw [h1, Outcome.bind_ok, k1]
    congr 1
    exact le_antisymm ((k7 x' h2 h3).1 (le_refl _)) ((k7 x' h2 h3).2 (le_refl _))
  · rcases lt_or_ge y r.lo with h | h
    · rw [g5 h, h5 (lt_of_le_of_lt hxy h)]
    · rcases lt_or_ge r.hi y with h' | h'
      · rw [g6 h']; exact h3
      · have : y' = y := le_antisymm ((g7 y h h').1 (le_refl _)) ((g7 y h h').2 (le_refl _))
        rw [this]
        exact (h7 y h h').1 hxy

/-- C80: `bounded_value::clamp()` replaces the value by the clamped one, keeps the bounds, and with closed bounds the value
is in bounds afterwards. -/
theorem c80_bounded (v : BoundedValue α lb hb) (hr : v.bounds.lo ≤ v.bounds.hi) :
    ∃ y, v.bounds.clamp v.value = .ok y ∧ BoundedValue.clamp.run v = (.ok ⟨⟩, ⟨y, v.bounds⟩) ∧
      (lb = .closed → hb = .closed → (⟨y, v.bounds⟩ : BoundedValue α lb hb).isInBounds = true) ∧
      (v.isInBounds = true → y = v.value) := by
  obtain ⟨y, h1, h2, h3, h4, _⟩ := c80_clamp v.bounds hr v.value
  refine ⟨y, h1, ?_, fun hl hh => ?_, fun h => h4 h⟩
  · unfold BoundedValue.clamp
    rw [St.run_bind_ok (St.run_get v), h1, St.run_bind_ok (St.run_lift _ v), St.run_set]
  · exact (c78_contains v.bounds y).2 ⟨⟨h2, by simp [hl]⟩, h3, by simp [hh]⟩

/-- C80: with inverted bounds `clamp` is undefined. -/
theorem c80_inverted (r : ValueRange α lb hb) (hr : r.hi < r.lo) (x : α) : r.clamp x = .ub := by
  rw [ValueRange.clamp, ValueRange.stdClamp, if_pos hr]

example : (⟨1, 5⟩ : ValueRange Int .closed .closed).clamp 7 = .ok 5 ∧
    (⟨1, 5⟩ : ValueRange Int .closed .opened).clamp 7 = .ok 5 ∧
    (⟨1, 5⟩ : ValueRange Int .closed .opened).contains 5 = false ∧
    (BoundedValue.clamp.run (⟨-3, ⟨1, 5⟩⟩ : BoundedValue Int .closed .closed)).2 = ⟨1, ⟨1, 5⟩⟩ := by decide

/-! ## C81 -/

/-- The setters. -/
inductive SetOp (α : Type) where
  | min (x : α)
  | max (x : α)

/-- Call a setter in a debug build. -/
def SetOp.step (next prev : α → Outcome α) : SetOp α → St (ValueRange α lb hb) PUnit
  | .min x => ValueRange.setMin next .debug x
  | .max x => ValueRange.setMax prev .debug x

private theorem setMin_keeps (next : α → Outcome α) (x : α) (r : ValueRange α lb hb)
    (hn : lb = .opened → ∀ y, next x = .ok y → x ≤ y) (hr : r.lo ≤ r.hi) :
    ((ValueRange.setMin next .debug x).run r).2.lo ≤ ((ValueRange.setMin next .debug x).run r).2.hi := by
  have key : ∀ y : α, r.aboveMax y = false → y ≤ r.hi := by
    intro y hy
    cases hb
    · simpa [ValueRange.aboveMax] using hy
    · exact le_of_lt (by simpa [ValueRange.aboveMax] using hy)
  unfold ValueRange.setMin
  rw [St.run_bind_ok (St.run_get r)]
  cases lb with
  | closed =>
    simp only
    rcases h : r.aboveMax x
    · rw [St.run_bind_ok (s' := r) (a := ⟨⟩) (by simp [debugAssert])]
      simpa using key x h
    · rw [St.run_bind_throw (s' := r) (e := .assertion "value_range setting min > max") (by simp [debugAssert])]
      exact hr
  | opened =>
    simp only
    rcases hx : next x with y | e | _ | _ | _
    · rcases h : r.aboveMax y
      · rw [St.run_bind_ok (St.run_lift _ r), St.run_bind_ok (s' := r) (a := ⟨⟩) (by simp [debugAssert, h])]
        simpa using le_trans (hn rfl y hx) (key y h)
      · rw [St.run_bind_ok (St.run_lift _ r),
          St.run_bind_throw (s' := r) (e := .assertion "value_range setting min > max") (by simp [debugAssert, h])]
        exact hr
    all_goals exact hr

private theorem setMax_keeps (prev : α → Outcome α) (x : α) (r : ValueRange α lb hb)
    (hn : hb = .opened → ∀ y, prev x = .ok y → y ≤ x) (hr : r.lo ≤ r.hi) :
    ((ValueRange.setMax prev .debug x).run r).2.lo ≤ ((ValueRange.setMax prev .debug x).run r).2.hi := by
  have key : ∀ y : α, r.belowMin y = false → r.lo ≤ y := by
    intro y hy
    cases lb
    · simpa [ValueRange.belowMin] using hy
    · exact le_of_lt (by simpa [ValueRange.belowMin] using hy)
  unfold ValueRange.setMax
  rw [St.run_bind_ok (St.run_get r)]
  cases hb with
  | closed =>
    simp only
    rcases h : r.belowMin x
    · rw [St.run_bind_ok (s' := r) (a := ⟨⟩) (by simp [debugAssert])]
      simpa using key x h
    · rw [St.run_bind_throw (s' := r) (e := .assertion "value_range setting max < min") (by simp [debugAssert])]
      exact hr
  | opened =>
    simp only
    rcases hx : prev x with y | e | _ | _ | _
    · rcases h : r.belowMin y
      · rw [St.run_bind_ok (St.run_lift _ r), St.run_bind_ok (s' := r) (a := ⟨⟩) (by simp [debugAssert, h])]
        simpa using le_trans (key y h) (hn rfl y hx)
      · rw [St.run_bind_ok (St.run_lift _ r),
          St.run_bind_throw (s' := r) (e := .assertion "value_range setting max < min") (by simp [debugAssert, h])]
        exact hr
    all_goals exact hr

private theorem history_keeps (next prev : α → Outcome α) (ops : List (SetOp α)) (r s : ValueRange α lb hb)
    (hn : lb = .opened → ∀ x, SetOp.min x ∈ ops → ∀ y, next x = .ok y → x ≤ y)
    (hp : hb = .opened → ∀ x, SetOp.max x ∈ ops → ∀ y, prev x = .ok y → y ≤ x)
    (hr : r.lo ≤ r.hi) (h : St.history (SetOp.step next prev) ops r = some s) : s.lo ≤ s.hi := by
  induction ops generalizing r with
  | nil => cases h; exact hr
  | cons op ops ih =>
    have hn' : lb = .opened → ∀ x, SetOp.min x ∈ ops → ∀ y, next x = .ok y → x ≤ y :=
      fun hl x hx => hn hl x (List.mem_cons_of_mem _ hx)
    have hp' : hb = .opened → ∀ x, SetOp.max x ∈ ops → ∀ y, prev x = .ok y → y ≤ x :=
      fun hl x hx => hp hl x (List.mem_cons_of_mem _ hx)
    have hstep : ((SetOp.step next prev op).run r).2.lo ≤ ((SetOp.step next prev op).run r).2.hi := by
      cases op with
      | min x => exact setMin_keeps next x r (fun hl => hn hl x (by simp)) hr
      | max x => exact setMax_keeps prev x r (fun hl => hp hl x (by simp)) hr
    unfold St.history at h
    rcases he : SetOp.step next prev op r with ⟨o, r'⟩
    have hr' : r'.lo ≤ r'.hi := by
      have : (SetOp.step next prev op).run r = (o, r') := he
      rw [this] at hstep; exact hstep
    rw [he] at h
    cases o <;> simp only at h
    · exact ih r' hn' hp' hr' h
    · exact ih r' hn' hp' hr' h
    all_goals cases h

/-- C81 for closed ranges over any value type (any `next_value`, `prev_value`): in a debug build, after every history of
setter calls, `min() <= max()`. -/
theorem c81_closed_partial (next prev : α → Outcome α) (ops : List (SetOp α)) (r s : ValueRange α .closed .closed)
    (hr : r.lo ≤ r.hi) (h : St.history (SetOp.step next prev) ops r = some s) : s.lo ≤ s.hi :=
  history_keeps next prev ops r s (by simp) (by simp) hr h

/-- C81: a setter of a closed range in a debug build sets its bound if the result is not inverted; otherwise it throws and
leaves the range as it was.  In a release build it always sets the bound, whatever the kind of bounds. -/
theorem c81_effect (next prev : α → Outcome α) (x : α) (r : ValueRange α .closed .closed) (s : ValueRange α lb hb) :
    (ValueRange.setMin next .debug x).run r =
      (if x ≤ r.hi then (.ok ⟨⟩, ⟨x, r.hi⟩) else (.throw (.assertion "value_range setting min > max"), r)) ∧
    (ValueRange.setMax prev .debug x).run r =
      (if r.lo ≤ x then (.ok ⟨⟩, ⟨r.lo, x⟩) else (.throw (.assertion "value_range setting max < min"), r)) ∧
    (ValueRange.setMin next .release x).run s = (.ok ⟨⟩, ⟨x, s.hi⟩) ∧
    (ValueRange.setMax prev .release x).run s = (.ok ⟨⟩, ⟨s.lo, x⟩) := by
  refine ⟨?_, ?_, rfl, rfl⟩
  · unfold ValueRange.setMin
    rw [St.run_bind_ok (St.run_get r)]
    by_cases h : x ≤ r.hi
    · rw [if_pos h, St.run_bind_ok (s' := r) (a := ⟨⟩) (by simp [debugAssert, ValueRange.aboveMax, h])]; rfl
    · rw [if_neg h, St.run_bind_throw (s' := r) (e := .assertion "value_range setting min > max")
        (by simp [debugAssert, ValueRange.aboveMax, not_le.1 h])]
  · unfold ValueRange.setMax
    rw [St.run_bind_ok (St.run_get r)]
    by_cases h : r.lo ≤ x
    · rw [if_pos h, St.run_bind_ok (s' := r) (a := ⟨⟩) (by simp [debugAssert, ValueRange.belowMin, h])]; rfl
    · rw [if_neg h, St.run_bind_throw (s' := r) (e := .assertion "value_range setting max < min")
        (by simp [debugAssert, ValueRange.belowMin, not_le.1 h])]

end Ranges

/-- C81 for integer types and every kind of bounds, as long as no open lower bound is set to the largest value of the type
and no open upper bound to the smallest. -/
theorem c81_inner_partial {lb hb : Boundary} (t : IntTy) (ht : 0 < t.bits) (ops : List (SetOp Int)) (r s : ValueRange Int lb hb)
    (hops : ∀ x, (SetOp.min x ∈ ops → t.holds x ∧ (lb = .opened → x ≠ t.maxValue)) ∧
      (SetOp.max x ∈ ops → t.holds x ∧ (hb = .opened → x ≠ t.minValue)))
    (hr : r.lo ≤ r.hi) (h : St.history (SetOp.step (nextInt t) (prevInt t)) ops r = some s) : s.lo ≤ s.hi := by
  refine history_keeps (nextInt t) (prevInt t) ops r s ?_ ?_ hr h
  · intro hl x hx y hy
    obtain ⟨h1, h2⟩ := (hops x).1 hx
    obtain ⟨w, hw, _, h3, _⟩ := c73_int_next t ht x h1 (h2 hl)
    rw [hw] at hy; cases hy; omega
  · intro hl x hx y hy
    obtain ⟨h1, h2⟩ := (hops x).2 hx
    obtain ⟨w, hw, _, h3, _⟩ := c73_int_prev t ht x h1 (h2 hl)
    rw [hw] at hy; cases hy; omega

/-- C81 for signed types of at least 32 bits and every kind of bounds: every history without undefined behaviour. -/
theorem c81_signed_partial {lb hb : Boundary} (t : IntTy) (hs : t.signed = true) (hb32 : 32 ≤ t.bits) (ops : List (SetOp Int))
    (r s : ValueRange Int lb hb) (hops : ∀ x, (SetOp.min x ∈ ops → t.holds x) ∧ (SetOp.max x ∈ ops → t.holds x))
    (hr : r.lo ≤ r.hi) (h : St.history (SetOp.step (nextInt t) (prevInt t)) ops r = some s) : s.lo ≤ s.hi := by
  have ht : 0 < t.bits := by omega
  refine history_keeps (nextInt t) (prevInt t) ops r s ?_ ?_ hr h
  · intro hl x hx y hy
    by_cases hm : x = t.maxValue
    · have := c73_int_extreme t ht (by omega)
      rw [if_pos ⟨hs, hb32⟩, ← hm, hy] at this; cases this
    · obtain ⟨w, hw, _, h3, _⟩ := c73_int_next t ht x ((hops x).1 hx) hm
      rw [hw] at hy; cases hy; omega
  · intro hl x hx y hy
    by_cases hm : x = t.minValue
    · have : ¬ t.holds (x - 1) := fun h => by have := h.1; omega
      rw [prevInt, IntTy.sub, IntTy.promote_wide hb32, IntTy.result_ub hs this] at hy; cases hy
    · obtain ⟨w, hw, _, h3, _⟩ := c73_int_prev t ht x ((hops x).2 hx) hm
      rw [hw] at hy; cases hy; omega

/-- C81 is false for unsigned types and open bounds: `min(x)` with the largest value of the type is accepted by an open range
of every width, leaving `min() > max()`. -/
theorem c81_refuted_min {hb : Boundary} (t : IntTy) (ht : 0 < t.bits) (hs : t.signed = false) (h31 : t.bits ≠ 31)
    (r : ValueRange Int .opened hb) (hr : 0 < r.hi) (hm : r.hi < t.maxValue) :
    ∃ s, St.history (SetOp.step (nextInt t) (prevInt t)) [.min t.maxValue] r = some s ∧ s.hi < s.lo := by
  have hn := c73_int_extreme t ht h31
  rw [if_neg (by simp [hs])] at hn
  have h0 : t.minValue = 0 := by simp [IntTy.minValue, hs]
  have ha : r.aboveMax t.minValue = false := by
    cases hb <;> simp [ValueRange.aboveMax, h0] <;> omega
  refine ⟨⟨t.maxValue, r.hi⟩, ?_, hm⟩
  have hrun : SetOp.step (nextInt t) (prevInt t) (.min t.maxValue) r = (.ok ⟨⟩, ⟨t.maxValue, r.hi⟩) := by
    change (ValueRange.setMin (nextInt t) .debug t.maxValue).run r = _
    unfold ValueRange.setMin
    rw [St.run_bind_ok (St.run_get r)]
    simp only
    rw [hn, St.run_bind_ok (St.run_lift _ r), St.run_bind_ok (s' := r) (a := ⟨⟩) (by simp [debugAssert, ha])]
    rfl
  simp only [St.history, hrun]

/-- C81 is false for open upper bounds and every integer type that is unsigned or has fewer than 32 bits: `max(x)` with the
smallest value of the type is accepted by a range of every width, leaving `max() < min()`. -/
theorem c81_refuted_max {lb : Boundary} (t : IntTy) (ht : 0 < t.bits) (hs : t.signed = false ∨ t.bits < 32)
    (r : ValueRange Int lb .opened) (hm : t.minValue < r.lo) (hr : r.lo < t.maxValue) :
    ∃ s, St.history (SetOp.step (nextInt t) (prevInt t)) [.max t.minValue] r = some s ∧ s.hi < s.lo := by
  have hn : prevInt t t.minValue = .ok t.maxValue := by
    have hr := IntTy.range_eq t ht
    have hwrap : t.wrap (t.minValue - 1) = t.maxValue := by
      unfold IntTy.wrap
      have : t.minValue - 1 - t.minValue = -1 := by omega
      have hp : (0 : Int) < 2 ^ t.bits := by positivity
      rw [this, show (-1 : Int) = (2 ^ t.bits - 1) - 2 ^ t.bits by omega, Int.sub_emod_right,
        Int.emod_eq_of_lt (by omega) (by omega)]
      omega
    have h1 : 1 ≤ t.maxValue := by
      have hw : t.minValue + 2 ≤ t.maxValue := by omega
      unfold IntTy.minValue IntTy.maxValue at hw
      unfold IntTy.maxValue
      split at hw <;> rename_i h <;> simp only [h, if_true, if_false, Bool.false_eq_true] at hw ⊢ <;> omega
    rw [prevInt, IntTy.sub_wrap ht hs ⟨Int.le_refl _, by omega⟩ ⟨by have := t.minValue_nonpos; omega, h1⟩, hwrap]
  have ha : r.belowMin t.maxValue = false := by
    cases lb <;> simp [ValueRange.belowMin] <;> omega
  refine ⟨⟨r.lo, t.minValue⟩, ?_, hm⟩
  have hrun : SetOp.step (nextInt t) (prevInt t) (.max t.minValue) r = (.ok ⟨⟩, ⟨r.lo, t.minValue⟩) := by
    change (ValueRange.setMax (prevInt t) .debug t.minValue).run r = _
    unfold ValueRange.setMax
    rw [St.run_bind_ok (St.run_get r)]
    simp only
    rw [hn, St.run_bind_ok (St.run_lift _ r), St.run_bind_ok (s' := r) (a := ⟨⟩) (by simp [debugAssert, ha])]
    rfl
  simp only [St.history, hrun]

example : St.history (SetOp.step (nextInt ⟨8, false⟩) (prevInt ⟨8, false⟩)) [.max 0]
      (⟨5, 9⟩ : ValueRange Int .closed .opened) = some ⟨5, 0⟩ ∧
    St.history (SetOp.step (nextInt ⟨8, true⟩) (prevInt ⟨8, true⟩)) [.max (-128)]
      (⟨5, 9⟩ : ValueRange Int .closed .opened) = some ⟨5, -128⟩ := by
  decide

example : St.history (SetOp.step (nextInt ⟨8, false⟩) (prevInt ⟨8, false⟩)) [.max 20, .min 15, .max 15, .max 16]
    (⟨5, 9⟩ : ValueRange Int .closed .opened) = some ⟨15, 16⟩ := by decide

/-! ## C82 -/

/-- C82, the part that holds: for every integer range whose size the type can hold (every unsigned range, for one), `mid()`
lies between `min()` and `max()`, within half a unit of the centre. -/
theorem c82_mid_partial {lb hb : Boundary} (b : Build) (t : IntTy) (ht : 0 < t.bits) (r : ValueRange Int lb hb)
    (hl : t.holds r.lo) (hh : t.holds r.hi) (hr : r.lo ≤ r.hi) (hd : t.holds (r.hi - r.lo)) :
    ∃ m, r.midInt t b = .ok m ∧ r.lo ≤ m ∧ m ≤ r.hi ∧ r.lo + r.hi ≤ 2 * m ∧ 2 * m ≤ r.lo + r.hi + 1 := by
  have ha : debugAssert b (decide (r.lo ≤ r.hi)) "value_range min should be <= max" = .ok () := by
    cases b <;> simp [debugAssert, hr]
  have hs : r.sizeInt t b = .ok (r.hi - r.lo) := by
    rw [ValueRange.sizeInt, ha, Outcome.bind_ok, IntTy.sub_ok ht hd, Outcome.bind_ok, IntTy.wrap_of_holds ht hd]; rfl
  have he : (r.hi - r.lo).tdiv 2 = (r.hi - r.lo) / 2 := Int.tdiv_eq_ediv_of_nonneg (by omega)
  have hm : t.holds (r.hi - (r.hi - r.lo) / 2) := ⟨by have := hl.1; omega, by have := hh.2; omega⟩
  refine ⟨r.hi - (r.hi - r.lo) / 2, ?_, by omega, by omega, by omega, by omega⟩
  rw [ValueRange.midInt, hs, Outcome.bind_ok, he, IntTy.sub_ok ht hm, Outcome.bind_ok, IntTy.wrap_of_holds ht hm]; rfl

/-- The hypothesis is met by every unsigned range. -/
theorem c82_unsigned_partial {lb hb : Boundary} (b : Build) (t : IntTy) (ht : 0 < t.bits) (hu : t.signed = false) (r : ValueRange Int lb hb)
    (hl : t.holds r.lo) (hh : t.holds r.hi) (hr : r.lo ≤ r.hi) :
    ∃ m, r.midInt t b = .ok m ∧ r.lo ≤ m ∧ m ≤ r.hi ∧ r.lo + r.hi ≤ 2 * m ∧ 2 * m ≤ r.lo + r.hi + 1 := by
  have h0 : t.minValue = 0 := by simp [IntTy.minValue, hu]
  refine c82_mid_partial b t ht r hl hh hr ⟨by omega, ?_⟩
  have := hh.2; have := hl.1; omega

/-- C82 is false for every signed type and every range whose size the type cannot hold: with at least 32 bits, `mid()` is
undefined; with fewer, it lies outside the range or, for the range of all values of the type, is `max()`. -/
theorem c82_refuted {lb hb : Boundary} (b : Build) (t : IntTy) (ht : 0 < t.bits) (hs : t.signed = true)
    (r : ValueRange Int lb hb) (hl : t.holds r.lo) (hh : t.holds r.hi) (hr : r.lo ≤ r.hi) (hd : ¬ t.holds (r.hi - r.lo)) :
    (32 ≤ t.bits → r.midInt t b = .ub) ∧
    (t.bits < 32 → ∃ m, r.midInt t b = .ok m ∧
      (m < r.lo ∨ r.hi < m ∨ (r.lo = t.minValue ∧ r.hi = t.maxValue ∧ m = r.hi))) := by
  have ha : debugAssert b (decide (r.lo ≤ r.hi)) "value_range min should be <= max" = .ok () := by
    cases b <;> simp [debugAssert, hr]
  constructor
  · intro hb32
    rw [ValueRange.midInt, ValueRange.sizeInt, ha, Outcome.bind_ok, IntTy.sub, IntTy.promote_wide hb32, IntTy.result_ub hs hd]
    rfl
  · intro hn
    have hsize : r.sizeInt t b = .ok (t.wrap (r.hi - r.lo)) := by
      rw [ValueRange.sizeInt, ha, Outcome.bind_ok, IntTy.sub_wrap ht (.inr hn) hh hl]
    have hrange := IntTy.range_eq t ht
    have h0 := t.minValue_nonpos
    have h1 := t.maxValue_nonneg
    have hbig : t.maxValue < r.hi - r.lo := by
      by_contra h; exact hd ⟨by omega, by omega⟩
    have hp : (0 : Int) < 2 ^ t.bits := Int.pow_pos (by omega)
    have hmin : t.minValue = -(t.maxValue + 1) := by
      unfold IntTy.minValue IntTy.maxValue; rw [if_pos hs, if_pos hs]; omega
    obtain ⟨l1, l2⟩ := hl
    obtain ⟨u1, u2⟩ := hh
    have near : ∀ v, t.minValue ≤ v → v ≤ t.maxValue → t.wrap v = v := fun v a c => IntTy.wrap_of_holds ht ⟨a, c⟩
    have above : ∀ v, t.maxValue < v → v ≤ t.maxValue + 2 ^ t.bits → t.wrap v = v - 2 ^ t.bits := fun v a c => by
      rw [← near (v - 2 ^ t.bits) (by omega) (by omega)]
      unfold IntTy.wrap
      rw [show v - 2 ^ t.bits - t.minValue = v - t.minValue - 2 ^ t.bits by omega, Int.sub_emod_right]
    have hw := above (r.hi - r.lo) hbig (by omega)
    have htd : (t.wrap (r.hi - r.lo)).tdiv 2 = -((2 ^ t.bits - (r.hi - r.lo)) / 2) := by
      rw [hw, show r.hi - r.lo - 2 ^ t.bits = -(2 ^ t.bits - (r.hi - r.lo)) by omega, Int.neg_tdiv,
        Int.tdiv_eq_ediv_of_nonneg (by omega)]
    have hm : r.midInt t b = .ok (t.wrap (r.hi + (2 ^ t.bits - (r.hi - r.lo)) / 2)) := by
      rw [ValueRange.midInt, hsize, Outcome.bind_ok, htd,
        IntTy.sub_wrap ht (.inr hn) ⟨u1, u2⟩ ⟨by omega, by omega⟩, Int.sub_neg]
      rfl
    refine ⟨_, hm, ?_⟩
    by_cases hf : r.hi + (2 ^ t.bits - (r.hi - r.lo)) / 2 ≤ t.maxValue
    · rw [near _ (by omega) hf]; omega
    · rw [above _ (by omega) (by omega)]; omega

example : (⟨-32768, 1⟩ : ValueRange Int .closed .closed).midInt ⟨16, true⟩ .debug = .ok 16384 ∧
    (⟨-100, 100⟩ : ValueRange Int .closed .closed).midInt ⟨8, true⟩ .debug = .ok (-128) ∧
    (⟨-27, 101⟩ : ValueRange Int .closed .closed).midInt ⟨8, true⟩ .debug = .ok (-91) ∧
    (⟨-128, 127⟩ : ValueRange Int .closed .closed).midInt ⟨8, true⟩ .debug = .ok 127 := by decide

example : (⟨-3, 6⟩ : ValueRange Int .closed .closed).midInt ⟨32, true⟩ .debug = .ok 2 ∧
    (⟨0, 2 ^ 64 - 1⟩ : ValueRange Int .closed .closed).midInt ⟨64, false⟩ .debug = .ok (2 ^ 63) ∧
    (⟨-2 ^ 31, 2 ^ 31 - 1⟩ : ValueRange Int .closed .closed).midInt ⟨32, true⟩ .release = .ub := by decide

/-! ## C83 -/

section C83

variable {α : Type} [LinearOrder α] {lb hb : Boundary}

private theorem make_ok (b : Build) {x y : α} (h : x ≤ y) :
    noexcept (ValueRange.make b x y : Outcome (ValueRange α lb hb)) = .ok ⟨x, y⟩ := by
  cases b <;> simp [ValueRange.make, debugAssert, noexcept, h]

/-- C83: `envelope(values...)` never fails, contains every argument, and lies in every closed range that contains them
all. -/
theorem c83_values (b : Build) (x y : α) (rest : List α) :
    ∃ r, ValueRange.envelopeV b x y rest = .ok r ∧ (∀ v ∈ x :: y :: rest, r.contains v = true) ∧
      ∀ s : ValueRange α .closed .closed, (∀ v ∈ x :: y :: rest, s.contains v = true) →
        ∀ v, r.contains v = true → s.contains v = true := by
  obtain ⟨h1, h2⟩ := c74_min x y rest
  obtain ⟨h3, h4⟩ := c74_max x y rest
  refine ⟨⟨vmin x y rest, vmax x y rest⟩, make_ok b (h2 _ h3), fun v hv => ?_, fun s hs v hv => ?_⟩
  · exact (c78_contains _ _).2 ⟨⟨h2 v hv, by simp⟩, h4 v hv, by simp⟩
  · have a := (c78_contains _ _).1 (hs _ h1)
    have c := (c78_contains _ _).1 (hs _ h3)
    have d := (c78_contains _ _).1 hv
    exact (c78_contains _ _).2 ⟨⟨le_trans a.1.1 d.1.1, by simp⟩, le_trans d.2.1 c.2.1, by simp⟩

private theorem rangesMinmax_spec (x : α) (xs : List α) :
    ∃ m, ValueRange.rangesMinmax (x :: xs) = .ok m ∧ m.1 ∈ x :: xs ∧ m.2 ∈ x :: xs ∧ ∀ v ∈ x :: xs, m.1 ≤ v ∧ v ≤ m.2 := by
  suffices h : ∀ (ys : List α) (m : α × α), m.1 ≤ m.2 →
      let m' := ys.foldl (fun (m : α × α) y => if y < m.1 then (y, m.2) else if y < m.2 then m else (m.1, y)) m
      m'.1 ≤ m.1 ∧ m.2 ≤ m'.2 ∧ (m'.1 = m.1 ∨ m'.1 ∈ ys) ∧ (m'.2 = m.2 ∨ m'.2 ∈ ys) ∧ ∀ v ∈ ys, m'.1 ≤ v ∧ v ≤ m'.2 by
    obtain ⟨a, c, d, e, f⟩ := h xs (x, x) (le_refl _)
    refine ⟨_, rfl, ?_, ?_, ?_⟩
    · rcases d with d | d
      · rw [d]; simp
      · exact List.mem_cons_of_mem _ d
    · rcases e with e | e
      · rw [e]; simp
      · exact List.mem_cons_of_mem _ e
    · intro v hv
      rcases List.mem_cons.1 hv with rfl | hv
      · exact ⟨a, c⟩
      · exact f v hv
  intro ys
  induction ys with
  | nil => intro m _; simp
  | cons y ys ih =>
    intro m hm
    simp only [List.foldl_cons]
    by_cases h1 : y < m.1
    · rw [if_pos h1]
      obtain ⟨a, c, d, e, f⟩ := ih (y, m.2) (le_trans (le_of_lt h1) hm)
      refine ⟨le_trans a (le_of_lt h1), c, ?_, ?_, ?_⟩
      · rcases d with d | d
        · right; rw [d]; simp
        · right; exact List.mem_cons_of_mem _ d
      · rcases e with e | e
        · left; exact e
        · right; exact List.mem_cons_of_mem _ e
      · intro v hv
        rcases List.mem_cons.1 hv with rfl | hv
        · exact ⟨a, le_trans (le_trans (le_of_lt h1) hm) c⟩
        · exact f v hv
    · rw [if_neg h1]
      have h1' := not_lt.1 h1
      by_cases h2 : y < m.2
      · rw [if_pos h2]
        obtain ⟨a, c, d, e, f⟩ := ih m hm
        refine ⟨a, c, d.imp id (List.mem_cons_of_mem _), e.imp id (List.mem_cons_of_mem _), ?_⟩
        intro v hv
        rcases List.mem_cons.1 hv with rfl | hv
        · exact ⟨le_trans a h1', le_trans (le_of_lt h2) c⟩
        · exact f v hv
      · rw [if_neg h2]
        have h2' := not_lt.1 h2
        obtain ⟨a, c, d, e, f⟩ := ih (m.1, y) h1'
        refine ⟨a, le_trans h2' c, d.imp id (List.mem_cons_of_mem _), ?_, ?_⟩
        · rcases e with e | e
          · right; rw [e]; simp
          · right; exact List.mem_cons_of_mem _ e
        · intro v hv
          rcases List.mem_cons.1 hv with rfl | hv
          · exact ⟨le_trans a h1', c⟩
          · exact f v hv

/-- C83: `envelope(range)` of a range of values likewise if the range is not empty; for an empty range it is undefined. -/
theorem c83_range (b : Build) (xs : List α) :
    (xs = [] → ValueRange.envelopeL b xs = .ub) ∧
    (xs ≠ [] → ∃ r, ValueRange.envelopeL b xs = .ok r ∧ (∀ v ∈ xs, r.contains v = true) ∧
      ∀ s : ValueRange α .closed .closed, (∀ v ∈ xs, s.contains v = true) →
        ∀ v, r.contains v = true → s.contains v = true) := by
  refine ⟨fun h => by subst h; rfl, fun h => ?_⟩
  cases xs with
  | nil => exact absurd rfl h
  | cons x xs =>
    obtain ⟨m, h0, h1, h3, h5⟩ := rangesMinmax_spec x xs
    refine ⟨⟨m.1, m.2⟩, ?_, fun v hv => ?_, fun s hs v hv => ?_⟩
    · rw [ValueRange.envelopeL, h0, Outcome.bind_ok]
      exact make_ok b (h5 _ h3).1
    · exact (c78_contains _ _).2 ⟨⟨(h5 v hv).1, by simp⟩, (h5 v hv).2, by simp⟩
    · have a := (c78_contains _ _).1 (hs _ h1)
      have c := (c78_contains _ _).1 (hs _ h3)
      have d := (c78_contains _ _).1 hv
      exact (c78_contains _ _).2 ⟨⟨le_trans a.1.1 d.1.1, by simp⟩, le_trans d.2.1 c.2.1, by simp⟩

private theorem vminR_eq (r s : ValueRange α lb hb) (rest : List (ValueRange α lb hb)) :
    ValueRange.vminR r s rest = vmin r.lo s.lo (rest.map (·.lo)) := by
  induction rest generalizing r s with
  | nil => rfl
  | cons u us ih => simp only [ValueRange.vminR, List.map_cons, vmin, ih]

private theorem vmaxR_eq (r s : ValueRange α lb hb) (rest : List (ValueRange α lb hb)) :
    ValueRange.vmaxR r s rest = vmax r.hi s.hi (rest.map (·.hi)) := by
  induction rest generalizing r s with
  | nil => rfl
  | cons u us ih => simp only [ValueRange.vmaxR, List.map_cons, vmax, ih]

/-- C83: `envelope(ranges...)` of ranges that are not inverted, of every kind of bounds, never fails and contains every value
of every argument; its bounds are bounds of arguments; and if the ranges are closed, it lies in every closed range that
contains all values of all arguments. -/
theorem c83_ranges (b : Build) (r s : ValueRange α lb hb) (rest : List (ValueRange α lb hb))
    (hr : ∀ u ∈ r :: s :: rest, u.lo ≤ u.hi) :
    ∃ e, ValueRange.envelopeR b r s rest = .ok e ∧
      (∀ u ∈ r :: s :: rest, ∀ v, u.contains v = true → e.contains v = true) ∧
      (∃ u ∈ r :: s :: rest, u.lo = e.lo) ∧ (∃ u ∈ r :: s :: rest, u.hi = e.hi) ∧
      (lb = .closed → hb = .closed → ∀ w : ValueRange α .closed .closed,
        (∀ u ∈ r :: s :: rest, ∀ v, u.contains v = true → w.contains v = true) →
        ∀ v, e.contains v = true → w.contains v = true) := by
  have hlo := c74_min r.lo s.lo (rest.map (·.lo))
  have hhi := c74_max r.hi s.hi (rest.map (·.hi))
  rw [← vminR_eq] at hlo
  rw [← vmaxR_eq] at hhi
  have hlo1 : ∀ u ∈ r :: s :: rest, ValueRange.vminR r s rest ≤ u.lo := by
    intro u hu
    refine hlo.2 _ ?_
    have := List.mem_map_of_mem (f := fun u : ValueRange α lb hb => u.lo) hu
    simpa using this
  have hhi1 : ∀ u ∈ r :: s :: rest, u.hi ≤ ValueRange.vmaxR r s rest := by
    intro u hu
    refine hhi.2 _ ?_
    have := List.mem_map_of_mem (f := fun u : ValueRange α lb hb => u.hi) hu
    simpa using this
  have hlo2 : ∃ u ∈ r :: s :: rest, u.lo = ValueRange.vminR r s rest := by
    have : ValueRange.vminR r s rest ∈ (r :: s :: rest).map (·.lo) := by simpa using hlo.1
    simpa using List.mem_map.1 this
  have hhi2 : ∃ u ∈ r :: s :: rest, u.hi = ValueRange.vmaxR r s rest := by
    have : ValueRange.vmaxR r s rest ∈ (r :: s :: rest).map (·.hi) := by simpa using hhi.1
    simpa using List.mem_map.1 this
  refine ⟨⟨ValueRange.vminR r s rest, ValueRange.vmaxR r s rest⟩, make_ok b ?_, ?_, hlo2, hhi2, ?_⟩
  · exact le_trans (hlo1 r (by simp)) (le_trans (hr r (by simp)) (hhi1 r (by simp)))
  · intro u hu v hv
    obtain ⟨⟨a1, a2⟩, a3, a4⟩ := (c78_contains _ _).1 hv
    refine (c78_contains _ _).2 ⟨⟨le_trans (hlo1 u hu) a1, fun ho h => ?_⟩, le_trans a3 (hhi1 u hu), fun ho h => ?_⟩
    · exact a2 ho (le_antisymm a1 (h ▸ hlo1 u hu))
    · exact a4 ho (le_antisymm a3 (h ▸ hhi1 u hu))
  · intro hl hh w hw v hv
    subst hl; subst hh
    obtain ⟨u, hu, eu⟩ := hlo2
    obtain ⟨u', hu', eu'⟩ := hhi2
    obtain ⟨⟨a1, _⟩, a3, _⟩ := (c78_contains _ _).1 hv
    have c := (c78_contains _ _).1 (hw u hu u.lo ((c78_contains _ _).2 ⟨⟨le_refl _, by simp⟩, hr u hu, by simp⟩))
    have d := (c78_contains _ _).1 (hw u' hu' u'.hi ((c78_contains _ _).2 ⟨⟨hr u' hu', by simp⟩, le_refl _, by simp⟩))
    refine (c78_contains _ _).2 ⟨⟨le_trans c.1.1 (le_trans (le_of_eq eu) a1), by simp⟩, le_trans a3 (le_trans (le_of_eq eu'.symm) d.2.1), by simp⟩

example : ValueRange.envelopeV .debug (4 : Int) 2 [7, 3] = .ok ⟨2, 7⟩ ∧
    ValueRange.envelopeL .debug [(4 : Int), 2, 7, 3] = .ok ⟨2, 7⟩ ∧
    ValueRange.envelopeR .debug (⟨4, 5⟩ : ValueRange Int .opened .opened) ⟨1, 2⟩ [⟨3, 9⟩] = .ok ⟨1, 9⟩ := by decide

end C83

/-! ## C84 -/

/-- C84 for integer types: a bounded value with the default bounds is in bounds and `clamp()` leaves it unchanged. -/
theorem c84_int (b : Build) (t : IntTy) (x : Int) (hx : t.holds x) :
    ∃ v, (BoundedValue.makeInt b t x : Outcome (BoundedValue Int .closed .closed)) = .ok v ∧ v.value = x ∧
      v.isInBounds = true ∧ BoundedValue.clamp.run v = (.ok ⟨⟩, v) := by
  have hr : t.minValue ≤ t.maxValue := le_trans hx.1 hx.2
  have hin : (⟨x, ⟨t.minValue, t.maxValue⟩⟩ : BoundedValue Int .closed .closed).isInBounds = true :=
    (c78_contains _ _).2 ⟨⟨hx.1, by simp⟩, hx.2, by simp⟩
  refine ⟨⟨x, ⟨t.minValue, t.maxValue⟩⟩, ?_, rfl, hin, ?_⟩
  · cases b <;> simp [BoundedValue.makeInt, ValueRange.make, debugAssert, hr]
  · obtain ⟨y, _, h2, _, h4⟩ := c80_bounded (⟨x, ⟨t.minValue, t.maxValue⟩⟩ : BoundedValue Int .closed .closed) hr
    rw [h2, h4 hin]

/-- C84 for floating-point types, the part that holds: exactly the finite numbers from `numeric_limits<T>::min()` (the smallest
positive normal number) on are in bounds and left unchanged by `clamp()`; every other finite number becomes
`numeric_limits<T>::min()`. -/
theorem c84_flt_partial {F : Fmt} (b : Build) (x : Flt F) (hx : x.finite) :
    ∃ v, (BoundedValue.makeFlt b x : Outcome (BoundedValue (Flt F) .closed .closed)) = .ok v ∧ v.value = x ∧
      (v.isInBounds = true ↔ (Flt.min F).value ≤ x.value) ∧
      BoundedValue.clamp.run v = (.ok ⟨⟩, if (Flt.min F).value ≤ x.value then v else ⟨Flt.min F, v.bounds⟩) := by
  have hmin := Flt.min_finite F
  have hmax := Flt.max_finite F
  have hle : Flt.min F ≤ Flt.max F :=
    (Flt.le_iff_value hmin hmax).2 ((Flt.value_le_iff _ _).2 (Flt.key_le_max hmin))
  have hn1 : ¬ Flt.max F < Flt.min F := by
    rw [Flt.lt_iff_value hmax hmin, not_lt]; exact (Flt.le_iff_value hmin hmax).1 hle
  have hn2 : ¬ Flt.max F < x := by
    rw [Flt.lt_iff_value hmax hx, not_lt]; exact (Flt.value_le_iff _ _).2 (Flt.key_le_max hx)
  have hlt : x < Flt.min F ↔ x.value < (Flt.min F).value := Flt.lt_iff_value hx hmin
  refine ⟨⟨x, ⟨Flt.min F, Flt.max F⟩⟩, ?_, rfl, ?_, ?_⟩
  · cases b <;> simp [BoundedValue.makeFlt, ValueRange.make, debugAssert, hle]
  · simp only [BoundedValue.isInBounds, ValueRange.contains, ValueRange.belowMin, ValueRange.aboveMax, gt_iff_lt, hn2, hlt,
      decide_false, Bool.or_false, Bool.not_eq_true', decide_eq_false_iff_not, not_lt]
  · unfold BoundedValue.clamp
    rw [St.run_bind_ok (St.run_get _)]
    have : ValueRange.clamp (⟨Flt.min F, Flt.max F⟩ : ValueRange (Flt F) .closed .closed) x =
        .ok (if (Flt.min F).value ≤ x.value then x else Flt.min F) := by
      unfold ValueRange.clamp ValueRange.stdClamp
      rw [if_neg hn1]
      by_cases h : x < Flt.min F
      · rw [if_pos h, if_neg (not_le.2 (hlt.1 h))]
      · rw [if_neg h, if_neg hn2, if_pos (not_lt.1 (fun hc => h (hlt.2 hc)))]
    simp only [this]
    rw [St.run_bind_ok (St.run_lift _ _), St.run_set]
    split <;> rfl

/-- C84 is false for floating-point types: zero and every negative number are out of the default bounds and `clamp()` turns
them into the smallest positive normal number. -/
theorem c84_refuted {F : Fmt} (b : Build) (x : Flt F) (hx : x.finite) (h : x.value ≤ 0) :
    ∃ v, (BoundedValue.makeFlt b x : Outcome (BoundedValue (Flt F) .closed .closed)) = .ok v ∧
      v.isInBounds = false ∧ (BoundedValue.clamp.run v).2.value = Flt.min F ∧ 0 < (Flt.min F).value := by
  have hpos : 0 < (Flt.min F).value := Flt.magValue_pos (Nat.two_pow_pos _)
  obtain ⟨v, h1, _, h3, h4⟩ := c84_flt_partial b x hx
  refine ⟨v, h1, ?_, ?_, hpos⟩
  · rw [← Bool.not_eq_true, h3, not_le]; exact lt_of_le_of_lt h hpos
  · rw [h4, if_neg (not_le.2 (lt_of_le_of_lt h hpos))]

/-- `bounded_value{-1.0}` and `bounded_value{0.0}` in the small format. -/
example : ((BoundedValue.makeFlt .debug (⟨true, 12⟩ : Flt .tiny) : Outcome (BoundedValue (Flt .tiny) .closed .closed)) >>=
      fun v => .ok (v.isInBounds, (BoundedValue.clamp.run v).2.value)) = .ok (false, ⟨false, 4⟩) ∧
    (⟨true, 12⟩ : Flt .tiny).value = -1 := by decide +kernel

end Wite.Props
