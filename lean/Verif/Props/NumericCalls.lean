import Verif.Model.NumericCalls
import Mathlib.Tactic.ByContra

/-!
# Property C213: which calls of `min`, `max`, `minmax` and `envelope` compile
-/

namespace Wite.Props

open Wite.Maths Wite.Maths.Calls

private def main (t : Ty) : Fn := if t.plain then .values else .refs

private theorem candidates_many (t : Ty) (s : Site) (ps : List Pass) (hn : 4 ≤ ps.length ∨ 2 ≤ ps.length ∧ (s = .user ∨ t.std = false))
    (ho : t.ordered = true) (hm : s = .numeric ∨ (t.minMax && t.valueType) = false) : candidates t s ps = [main t] := by
  obtain ⟨p, o, st, mm, vt, vo, ft⟩ := t
  simp only at ho
  subst ho
  have h2 : 2 ≤ ps.length := by omega
  have h1 : 1 ≤ ps.length := by omega
  have hr : (found ⟨p, true, st, mm, vt, vo, ft⟩ s .ranges && viable ⟨p, true, st, mm, vt, vo, ft⟩ ps.length .ranges) = false := by
    rcases hm with rfl | hm
    · rfl
    · simp only [viable, Bool.and_assoc]
      simp only at hm
      rw [hm, Bool.and_false, Bool.and_false]
  have hs2 : (found ⟨p, true, st, mm, vt, vo, ft⟩ s .stdTwo && viable ⟨p, true, st, mm, vt, vo, ft⟩ ps.length .stdTwo) = false := by
    rcases hn with hn | ⟨_, rfl | hn⟩
    · simp only [viable, decide_eq_false (show ps.length ≠ 2 by omega), Bool.and_false]
    · rfl
    · simp only at hn; subst hn; cases s <;> rfl
  have hs3 : (found ⟨p, true, st, mm, vt, vo, ft⟩ s .stdThree && viable ⟨p, true, st, mm, vt, vo, ft⟩ ps.length .stdThree) = false := by
    rcases hn with hn | ⟨_, rfl | hn⟩
    · simp only [viable, decide_eq_false (show ps.length ≠ 3 by omega), Bool.and_false]
    · rfl
    · simp only at hn; subst hn; cases s <;> rfl
  rw [candidates, all]
  simp only [List.filter_cons, hr, hs2, hs3, List.filter_nil]
  cases p <;> simp [main, found, viable, h2]

private theorem pick_many (t : Ty) (s : Site) (ps : List Pass) (hn : 4 ≤ ps.length ∨ 2 ≤ ps.length ∧ (s = .user ∨ t.std = false))
    (ho : t.ordered = true) (hm : s = .numeric ∨ (t.minMax && t.valueType) = false) : pick t s ps = some (main t) := by
  rw [pick, candidates_many t s ps hn ho hm]
  simp

private theorem pick_few (t : Ty) (p : Pass) (n : Nat) (hn : n = 2 ∨ n = 3) (ho : t.ordered = true) (hs : t.std = true) :
    pick t .numeric (List.replicate n p) =
      some (if t.plain = false ∧ p ≠ .constVar then .refs else if n = 2 then .stdTwo else .stdThree) := by
  obtain ⟨pl, o, st, mm, vt, vo, ft⟩ := t
  simp only at ho hs
  subst ho hs
  rcases hn with rfl | rfl <;> cases pl <;> cases p <;> rfl

private theorem all_replicate (n : Nat) (p : Pass) (h : n ≠ 0) :
    (List.replicate n p).tail.all (fun q => some q == (List.replicate n p).head?) = true := by
  cases n with
  | zero => exact absurd rfl h
  | succ n => simp [List.replicate_succ]

private theorem tail_map (n : Nat) (p q : Pass) : (List.replicate (n + 1) p).tail.map (fun _ => q) = List.replicate n q := by
  simp [List.replicate_succ]

private theorem step_values (t : Ty) (k : Nat) (s : Site) (n : Nat) (p : Pass) (h : pick t s (List.replicate (n + 1) p) = some .values) :
    compiles t (k + 1) s (List.replicate (n + 1) p) = (decide (n = 1) || compiles t k .numeric (List.replicate n .var)) := by
  rw [compiles, h]
  simp only [tail_map, List.length_replicate]
  congr 1
  rw [decide_eq_decide]
  omega

private theorem step_refs (t : Ty) (k : Nat) (s : Site) (n : Nat) (p : Pass) (h : pick t s (List.replicate (n + 1) p) = some .refs)
    (hp : p ≠ .var) :
    compiles t (k + 1) s (List.replicate (n + 1) p) = (decide (n = 1) || compiles t k .numeric (List.replicate n p)) := by
  rw [compiles, h]
  simp only [all_replicate (n + 1) p (by omega), List.length_replicate, Bool.true_and]
  have h1 : (List.replicate (n + 1) p).head? = some p := by simp [List.replicate_succ]
  have h2 : (List.replicate (n + 1) p).tail = List.replicate n p := by simp [List.replicate_succ]
  rw [h1, h2, decide_eq_true (by simpa using hp), Bool.true_and]
  congr 1
  rw [decide_eq_decide]
  omega

/-- Inside maths/numeric.hpp. -/
private theorem inner (t : Ty) (ho : t.ordered = true) (p : Pass) (hp : t.plain = true ∧ p = .var ∨ t.plain = false ∧ p ≠ .var) (n : Nat)
    (hn : 2 ≤ n) (k : Nat) (hk : n ≤ k) :
    compiles t k .numeric (List.replicate n p) = (!t.std || decide (n = 2) || (!t.plain && decide (p = .temp))) := by
  induction n generalizing k with
  | zero => omega
  | succ n ih =>
    obtain ⟨k, rfl⟩ : ∃ j, k = j + 1 := ⟨k - 1, by omega⟩
    by_cases hs : t.std = true
    · rcases (by omega : n = 1 ∨ n = 2 ∨ 3 ≤ n) with rfl | rfl | h3
      · have h := pick_few t p 2 (Or.inl rfl) ho hs
        rcases hp with ⟨h1, rfl⟩ | ⟨h1, h2⟩
        · rw [compiles, h]; simp [h1, ho]
        · cases p with
          | var => exact absurd rfl h2
          | constVar => rw [compiles, h]; simp [ho]
          | temp =>
            rw [step_refs t k .numeric 1 .temp (by rw [h]; simp [h1]) h2]
            simp
      · have h := pick_few t p 3 (Or.inr rfl) ho hs
        rcases hp with ⟨h1, rfl⟩ | ⟨h1, h2⟩
        · rw [compiles, h]; simp [h1, hs]
        · cases p with
          | var => exact absurd rfl h2
          | constVar => rw [compiles, h]; simp [hs]
          | temp =>
            rw [step_refs t k .numeric 2 .temp (by rw [h]; simp [h1]) h2, ih (by omega) k (by omega)]
            simp [h1]
      · have h := pick_many t .numeric (List.replicate (n + 1) p) (Or.inl (by simp; omega)) ho (Or.inl rfl)
        have e2 : decide (n = 2) = false := by simp; omega
        have e3 : decide (n + 1 = 2) = false := by simp; omega
        have e1 : decide (n = 1) = false := by simp; omega
        rcases hp with ⟨h1, rfl⟩ | ⟨h1, h2⟩
        · rw [main, h1, if_pos rfl] at h
          rw [step_values t k .numeric n .var h, ih (by omega) k (by omega), e1, e2, e3, Bool.false_or]
        · rw [main, h1, if_neg (by simp)] at h
          rw [step_refs t k .numeric n p h h2, ih (by omega) k (by omega), e1, e2, e3, Bool.false_or]
    · have hs' : t.std = false := by simpa using hs
      have h := pick_many t .numeric (List.replicate (n + 1) p) (Or.inr ⟨by simp; omega, Or.inr hs'⟩) ho (Or.inl rfl)
      rw [hs', Bool.not_false, Bool.true_or, Bool.true_or]
      rcases hp with ⟨h1, rfl⟩ | ⟨h1, h2⟩
      · rw [main, h1, if_pos rfl] at h
        rw [step_values t k .numeric n .var h]
        by_cases h1 : n = 1
        · simp [h1]
        · rw [ih (by omega) k (by omega), hs']; simp
      · rw [main, h1, if_neg (by simp)] at h
        rw [step_refs t k .numeric n p h h2]
        by_cases h1 : n = 1
        · simp [h1]
        · rw [ih (by omega) k (by omega), hs']; simp

/-- C213, exactly which calls of `min` and `max` with values of an ordered type compile: the type is plain, or all arguments are `const`
variables, or all are temporaries; and if `std` is an associated namespace, there are at most three arguments, or they are temporaries of
a type that is not plain. -/
theorem c213_min_partial (t : Ty) (ho : t.ordered = true) (hm : ¬ (t.minMax = true ∧ t.valueType = true)) (ps : List Pass)
    (hn : 2 ≤ ps.length) :
    minCompiles t ps = true ↔
      (t.plain = true ∨ (∀ p ∈ ps, p = .constVar) ∨ ∀ p ∈ ps, p = .temp) ∧
      (t.std = true → ps.length ≤ 3 ∨ t.plain = false ∧ ∀ p ∈ ps, p = .temp) := by
  have hm' : (t.minMax && t.valueType) = false := by
    cases h1 : t.minMax <;> cases h2 : t.valueType <;> simp_all
  have h := pick_many t .user ps (Or.inr ⟨hn, Or.inl rfl⟩) ho (Or.inr hm')
  obtain ⟨a, b, rest, rfl⟩ : ∃ a b rest, ps = a :: b :: rest := by
    match ps, hn with
    | a :: b :: rest, _ => exact ⟨a, b, rest, rfl⟩
  rw [minCompiles, List.length_cons, compiles, h, main]
  by_cases hp : t.plain = true
  · rw [if_pos hp]
    have e : ((a :: b :: rest).tail.map (fun _ => Pass.var)) = List.replicate (rest.length + 1) .var := by
      simp [List.replicate_succ, List.map_const']
    simp only [e, List.length_cons]
    by_cases hr : rest = []
    · subst hr; simp [hp]
    · have hl : 0 < rest.length := List.length_pos_iff.2 hr
      rw [inner t ho .var (Or.inl ⟨hp, rfl⟩) (rest.length + 1) (by omega) _ (by omega)]
      cases hs : t.std
      · simp [hp]
      · simp only [hp, Bool.not_true, Bool.false_or, Bool.false_and, Bool.or_false, Bool.or_eq_true, decide_eq_true_eq, true_or, true_and,
          forall_const, Bool.true_eq_false, false_and, or_false]
        omega
  · have hp' : t.plain = false := by simpa using hp
    rw [if_neg hp]
    simp only [hp', Bool.false_eq_true, false_or, true_and, List.tail_cons, List.head?_cons, List.length_cons]
    by_cases hall : ∀ p ∈ b :: rest, p = a
    · have e : ∀ k, compiles t k .numeric (b :: rest) = compiles t k .numeric (List.replicate (rest.length + 1) a) := by
        intro k
        congr 1
        rw [List.eq_replicate_iff]; exact ⟨by simp, hall⟩
      have h1 : (b :: rest).all (fun p => some p == some a) = true := by
        rw [List.all_eq_true]; intro p hp; rw [hall p hp]; simp
      rw [h1, Bool.true_and]
      have hiff : ∀ q : Pass, (∀ p ∈ a :: b :: rest, p = q) ↔ a = q := by
        intro q
        constructor
        · intro h; exact h a (by simp)
        · rintro rfl p hp
          rcases List.mem_cons.1 hp with rfl | hp
          · rfl
          · exact hall p hp
      rw [hiff, hiff]
      cases a with
      | var => simp
      | constVar =>
        by_cases hr : rest = []
        · subst hr; simp
        · have hl : 0 < rest.length := List.length_pos_iff.2 hr
          rw [e, inner t ho .constVar (Or.inr ⟨hp', by simp⟩) (rest.length + 1) (by omega) _ (by simp)]
          cases hs : t.std
          · simp
          · simp only [hp', ne_eq, Option.some.injEq, reduceCtorEq, not_false_eq_true, decide_true, Bool.true_and, Bool.not_true, Bool.false_or,
              Bool.not_false, decide_false, Bool.or_false, Bool.or_eq_true, decide_eq_true_eq, or_false, true_and, forall_const]
            omega
      | temp =>
        by_cases hr : rest = []
        · subst hr; simp
        · have hl : 0 < rest.length := List.length_pos_iff.2 hr
          rw [e, inner t ho .temp (Or.inr ⟨hp', by simp⟩) (rest.length + 1) (by omega) _ (by simp)]
          simp [hp']
    · have h1 : (b :: rest).all (fun p => some p == some a) = false := by
        rw [← Bool.not_eq_true, List.all_eq_true]
        intro h
        exact hall (fun p hp => by simpa using h p hp)
      rw [h1]
      have hno : ∀ q : Pass, ¬ ∀ p ∈ a :: b :: rest, p = q := by
        intro q h
        exact hall (fun p hp => (h p (by simp [hp])).trans (h a (by simp)).symm)
      rw [Bool.false_and]
      constructor
      · intro h; cases h
      · rintro ⟨h | h, _⟩
        · exact absurd h (hno _)
        · exact absurd h (hno _)

/-- Types of the examples: `int`, `std::byte`, `std::string`, a user's class with an order, `std::chrono::seconds`. -/
private def int : Ty := ⟨true, true, false, false, false, false, false⟩
private def stdByte : Ty := ⟨true, true, true, false, false, false, false⟩
private def stdString : Ty := ⟨false, true, true, false, true, false, false⟩
private def ownClass : Ty := ⟨false, true, false, false, false, false, false⟩
private def seconds : Ty := ⟨true, true, true, true, false, false, false⟩

example : minCompiles int [.var, .temp, .constVar, .var, .temp] = true ∧ minCompiles stdByte [.var, .var, .var] = true ∧
    minCompiles stdByte [.var, .var, .var, .var] = false ∧ minCompiles stdString [.temp, .temp, .temp, .temp, .temp] = true ∧
    minCompiles stdString [.constVar, .constVar, .constVar, .constVar] = false ∧
    minCompiles ownClass [.constVar, .constVar, .constVar, .constVar] = true ∧ minCompiles ownClass [.var, .var] = false := by decide

/-- C213 fails for `min` and `max`: with four or more arguments of a plain type with `std` among its associated namespaces no call compiles,
however they are passed; nor with variables of any such type. -/
theorem c213_refuted_min (t : Ty) (ho : t.ordered = true) (hs : t.std = true) (hm : ¬ (t.minMax = true ∧ t.valueType = true))
    (ps : List Pass) (hn : 4 ≤ ps.length) (hp : t.plain = true ∨ ∃ p ∈ ps, p ≠ .temp) : minCompiles t ps = false := by
  by_contra h
  have h := (c213_min_partial t ho hm ps (by omega)).1 (by simpa using h)
  rcases h.2 hs with h1 | ⟨h1, h2⟩
  · omega
  · rcases hp with hp | ⟨p, hp, hq⟩
    · rw [h1] at hp; cases hp
    · exact hq (h2 p hp)

/-- C213, exactly which calls of `minmax` with values of an ordered type compile: all, however the arguments are passed, unless `std` is an
associated namespace; then those with two arguments. -/
theorem c213_minmax_partial (t : Ty) (ho : t.ordered = true) (ps : List Pass) (hn : 2 ≤ ps.length) :
    minmaxCompiles t ps = true ↔ (t.std = true → ps.length = 2) := by
  obtain ⟨a, b, rest, rfl⟩ : ∃ a b rest, ps = a :: b :: rest := by
    match ps, hn with
    | a :: b :: rest, _ => exact ⟨a, b, rest, rfl⟩
  rw [minmaxCompiles, ho, Bool.true_and]
  have e : ∀ q : Pass, (a :: b :: rest).map (fun _ => q) = List.replicate (rest.length + 2) q := by
    intro q; simp [List.replicate_succ, List.map_const']
  cases hf : Ref.form t.plain a.arg b.arg (rest.map Pass.arg) with
  | two =>
    have hr : rest = [] := by
      rw [Ref.form] at hf
      split at hf
      · rename_i h; simpa using h.1
      · split at hf <;> cases hf
    simp [hr]
  | values =>
    have hp : t.plain = true := by
      rw [Ref.form] at hf
      split at hf
      · cases hf
      · split at hf
        · assumption
        · cases hf
    simp only [e]
    rw [inner t ho .var (Or.inl ⟨hp, rfl⟩) _ (by omega) _ (by omega)]
    cases hs : t.std <;> simp [hp]
  | refs =>
    have hp : t.plain = false := by
      rw [Ref.form] at hf
      split at hf
      · cases hf
      · split at hf
        · cases hf
        · rename_i h; simpa using h
    simp only [e]
    rw [inner t ho .constVar (Or.inr ⟨hp, by simp⟩) _ (by omega) _ (by omega)]
    cases hs : t.std <;> simp

example : minmaxCompiles int [.var, .temp, .var] = true ∧ minmaxCompiles stdString [.var, .temp] = true ∧
    minmaxCompiles stdString [.var, .var, .var] = false ∧ minmaxCompiles stdByte [.temp, .temp, .temp] = false := by decide

/-- C213 fails for `minmax`: no call with three or more arguments of a type with `std` among its associated namespaces compiles. -/
theorem c213_refuted_minmax (t : Ty) (ho : t.ordered = true) (hs : t.std = true) (ps : List Pass) (hn : 3 ≤ ps.length) :
    minmaxCompiles t ps = false := by
  by_contra h
  have := (c213_minmax_partial t ho ps (by omega)).1 (by simpa using h) hs
  omega

/-- C213, exactly which calls of `envelope` with values of an ordered type without members `min()` and `max()` compile. -/
theorem c213_envelope_partial (t : Ty) (ho : t.ordered = true) (hm : t.minMax = false) (n : Nat) (hn : 2 ≤ n) :
    envelopeCompiles t n = true ↔ (t.std = true → n = 2) := by
  rw [envelopeCompiles, decide_eq_true hn, Bool.true_and, hm, if_neg (by simp), c213_minmax_partial t ho _ (by simpa using hn)]
  simp

example : envelopeCompiles int 5 = true ∧ envelopeCompiles stdString 2 = true ∧ envelopeCompiles stdString 3 = false := by decide

/-- C213 fails for `envelope`: no call with values of a type that has members `min()` and `max()` but no `value_type`, as the durations and
time points of `std::chrono`, compiles, although `minmax` of two of them does. -/
theorem c213_refuted_members (t : Ty) (ho : t.ordered = true) (hm : t.minMax = true) (hv : t.valueType = false) :
    (∀ n, envelopeCompiles t n = false) ∧ ∀ p q, minmaxCompiles t [p, q] = true := by
  constructor
  · intro n
    rw [envelopeCompiles, hm, if_pos rfl]
    have : pick t .valueRange (List.replicate n .var) ≠ some .ranges := by
      intro h
      have := List.mem_of_find?_eq_some h
      rw [candidates, List.mem_filter] at this
      simp [viable, hv] at this
    simp [this]
  · intro p q
    exact (c213_minmax_partial t ho [p, q] (by simp)).2 (fun _ => rfl)

example : envelopeCompiles seconds 2 = false ∧ minmaxCompiles seconds [.var, .var] = true := by decide

private theorem range_pick (t : Ty) (s : Site) (hs : s ≠ .numeric) (n : Nat) (hn : 1 ≤ n) (h : s = .user ∨ t.std = false ∨ 4 ≤ n) (p : List Pass)
    (hp : p.length = n) : pick (rangeOf t) s p = some .ranges := by
  have hc : candidates (rangeOf t) s p = [.ranges] := by
    rw [candidates, all, hp]
    have h0 : (found (rangeOf t) s .ranges && viable (rangeOf t) n .ranges) = true := by
      cases s
      · simp [found, viable, rangeOf, hn]
      · exact absurd rfl hs
      · simp [found, viable, rangeOf, hn]
    have h1 : ∀ f, f = Fn.stdTwo ∨ f = Fn.stdThree → (found (rangeOf t) s f && viable (rangeOf t) n f) = false := by
      rintro f hf
      rcases h with rfl | h | h
      · rcases hf with rfl | rfl <;> rfl
      · rcases hf with rfl | rfl <;> cases s <;> simp [found, rangeOf, h]
      · rcases hf with rfl | rfl <;> simp [viable] <;> omega
    simp only [List.filter_cons, h0, h1 .stdTwo (Or.inl rfl), h1 .stdThree (Or.inr rfl), List.filter_nil]
    simp [viable, rangeOf]
  rw [pick, hc]
  simp

private theorem range_std (t : Ty) (hs : t.std = true) (n : Nat) (hn : 2 ≤ n) (h3 : n ≤ 3) :
    pick (rangeOf t) .valueRange (List.replicate n .var) = some (if n = 2 then .stdTwo else .stdThree) := by
  obtain ⟨pl, o, st, mm, vt, vo, ft⟩ := t
  simp only at hs
  subst hs
  rcases (by omega : n = 2 ∨ n = 3) with rfl | rfl <;> cases pl <;> cases o <;> rfl

private theorem step_ranges (t : Ty) (k : Nat) (s : Site) (ps : List Pass) (n : Nat) (hl : ps.length = n + 1)
    (h : pick (rangeOf t) s ps = some .ranges) (ho : t.ordered = true) :
    compiles (rangeOf t) (k + 1) s ps = (decide (n = 1) ||
      (decide (pick (rangeOf t) .valueRange (List.replicate n .var) = some .ranges) &&
        compiles (rangeOf t) k .valueRange (List.replicate n .var))) := by
  have e : ps.tail.map (fun _ => Pass.var) = List.replicate n .var := by
    rw [List.map_const', List.length_tail, hl, Nat.add_sub_cancel]
  rw [compiles, h]
  simp only [e, hl]
  rw [show (rangeOf t).valueOrdered = true from ho, Bool.true_and]
  congr 1
  rw [decide_eq_decide]
  omega

private theorem range_inner (t : Ty) (ho : t.ordered = true) (n : Nat) (hn : 2 ≤ n) (k : Nat) (hk : n ≤ k) :
    compiles (rangeOf t) k .valueRange (List.replicate n .var) = !t.std := by
  induction n generalizing k with
  | zero => omega
  | succ n ih =>
    obtain ⟨k, rfl⟩ : ∃ j, k = j + 1 := ⟨k - 1, by omega⟩
    by_cases hs : t.std = true
    · rw [hs]
      by_cases h3 : n + 1 ≤ 3
      · rw [compiles, range_std t hs (n + 1) hn h3]
        by_cases h2 : n + 1 = 2
        · simp [h2, rangeOf]
        · simp [h2]
      · rw [step_ranges t k .valueRange _ n (by simp) (range_pick t .valueRange (by simp) (n + 1) (by omega) (Or.inr (Or.inr (by omega))) _
          (by simp)) ho, ih (by omega) k (by omega), hs, decide_eq_false (show n ≠ 1 by omega)]
        simp
    · have hs' : t.std = false := by simpa using hs
      rw [step_ranges t k .valueRange _ n (by simp) (range_pick t .valueRange (by simp) (n + 1) (by omega) (Or.inr (Or.inl hs')) _
        (by simp)) ho, hs']
      by_cases h1 : n = 1
      · simp [h1]
      · rw [ih (by omega) k (by omega), hs', range_pick t .valueRange (by simp) n (by omega) (Or.inr (Or.inl hs')) _ (by simp)]
        simp

/-- C213, exactly which calls with ranges of an ordered type compile: `min` and `max` of two, and of any greater number, and `envelope` of any
number greater than one, unless `std` is an associated namespace of the type. -/
theorem c213_ranges_partial (t : Ty) (ho : t.ordered = true) :
    (∀ ps, minCompiles (rangeOf t) ps = true ↔ ps.length = 2 ∨ 3 ≤ ps.length ∧ t.std = false) ∧
    ∀ n, envelopeCompiles (rangeOf t) n = true ↔ 2 ≤ n ∧ t.std = false := by
  constructor
  · intro ps
    rw [minCompiles]
    match hps : ps with
    | [] => simp [compiles]
    | a :: rest =>
      rw [List.length_cons, step_ranges t rest.length .user (a :: rest) rest.length (by simp)
        (range_pick t .user (by simp) _ (by simp) (Or.inl rfl) _ rfl) ho]
      rcases (by omega : rest.length = 0 ∨ rest.length = 1 ∨ 2 ≤ rest.length) with h | h | h
      · rw [h]; simp [compiles]
      · simp [h]
      · rw [range_inner t ho _ h _ (Nat.le_refl _)]
        cases hs : t.std
        · rw [range_pick t .valueRange (by simp) rest.length (by omega) (Or.inr (Or.inl hs)) _ (by simp)]
          simp; omega
        · simp
  · intro n
    by_cases hn : 2 ≤ n
    · rw [envelopeCompiles, decide_eq_true hn, Bool.true_and, show (rangeOf t).minMax = true from rfl, if_pos rfl,
        range_inner t ho n hn n (Nat.le_refl _), show (rangeOf t).fromTwo = true from rfl, Bool.and_true]
      cases hs : t.std
      · rw [range_pick t .valueRange (by simp) n (by omega) (Or.inr (Or.inl hs)) _ (by simp)]
        simp [hn]
      · simp
    · simp [envelopeCompiles, hn]

example : envelopeCompiles (rangeOf int) 4 = true ∧ minCompiles (rangeOf seconds) [.var, .var] = true ∧
    minCompiles (rangeOf seconds) [.var, .var, .var] = false ∧ envelopeCompiles (rangeOf seconds) 2 = false := by decide

/-- C213 fails for ranges: the envelope of ranges of a type with `std` among its associated namespaces never compiles. -/
theorem c213_refuted_ranges (t : Ty) (ho : t.ordered = true) (hs : t.std = true) (n : Nat) : envelopeCompiles (rangeOf t) n = false := by
  by_contra h
  have := (((c213_ranges_partial t ho).2 n).1 (by simpa using h)).2
  rw [hs] at this
  cases this

/-- C213: without an order nothing compiles. -/
theorem c213_unordered (t : Ty) (ho : t.ordered = false) (hm : ¬ (t.minMax = true ∧ t.valueType = true)) (ps : List Pass) (n : Nat) :
    minCompiles t ps = false ∧ minmaxCompiles t ps = false ∧ envelopeCompiles t n = false := by
  have hno : ∀ (s : Site) (ps : List Pass) f, pick t s ps = some f → f = .stdTwo ∨ f = .stdThree := by
    intro s ps f h
    have h := List.mem_of_find?_eq_some h
    rw [candidates, List.mem_filter] at h
    cases f with
    | values => simp [viable, ho] at h
    | refs => simp [viable, ho] at h
    | ranges => simp only [viable, Bool.and_eq_true] at h; exact absurd ⟨h.2.2.1.2, h.2.2.2⟩ hm
    | stdTwo => exact Or.inl rfl
    | stdThree => exact Or.inr rfl
  have hc : ∀ k s ps, compiles t k s ps = false := by
    intro k s ps
    cases k with
    | zero => rfl
    | succ k =>
      rw [compiles]
      cases h : pick t s ps with
      | none => rfl
      | some f => rcases hno s ps f h with rfl | rfl <;> simp [ho]
  have hmm : ∀ ps, minmaxCompiles t ps = false := by
    intro ps
    match ps with
    | [] => rfl
    | [_] => rfl
    | a :: b :: rest => simp [minmaxCompiles, ho]
  refine ⟨hc _ _ _, hmm _, ?_⟩
  rw [envelopeCompiles, hmm, hc]
  simp

/-- C213: where `std` is no associated namespace, this is what Model/NumericRef.lean says of `min` and `max` (C141). -/
theorem c213_agrees (t : Ty) (ho : t.ordered = true) (hs : t.std = false) (hm : ¬ (t.minMax = true ∧ t.valueType = true)) (a b : Pass)
    (rest : List Pass) : minCompiles t (a :: b :: rest) = Ref.oneCompiles t.plain a.arg b.arg (rest.map Pass.arg) := by
  rw [Bool.eq_iff_iff, c213_min_partial t ho hm _ (by simp), hs]
  cases hp : t.plain
  · simp only [Bool.false_eq_true, false_or, false_implies, and_true, Ref.oneCompiles, Bool.and_eq_true, Bool.or_eq_true, List.all_eq_true,
      beq_iff_eq, List.mem_cons, List.mem_map, forall_eq_or_imp]
    have key : ∀ p q : Pass, (p.arg.temporary = q.arg.temporary ∧ p.arg.isConst = q.arg.isConst) ↔ p = q := by
      intro p q; cases p <;> cases q <;> decide
    constructor
    · rintro (⟨rfl, rfl, h⟩ | ⟨rfl, rfl, h⟩)
      · exact ⟨⟨⟨rfl, rfl⟩, fun x ⟨p, hp, e⟩ => by rw [← e, h p hp]; exact ⟨rfl, rfl⟩⟩, Or.inr rfl⟩
      · exact ⟨⟨⟨rfl, rfl⟩, fun x ⟨p, hp, e⟩ => by rw [← e, h p hp]; exact ⟨rfl, rfl⟩⟩, Or.inl rfl⟩
    · rintro ⟨⟨h1, h2⟩, h3⟩
      have hb : b = a := (key b a).1 h1
      have hr : ∀ p ∈ rest, p = a := fun p hp => (key p a).1 (h2 p.arg ⟨p, hp, rfl⟩)
      subst hb
      cases b with
      | var => rcases h3 with h3 | h3 <;> cases h3
      | constVar => exact Or.inl ⟨rfl, rfl, hr⟩
      | temp => exact Or.inr ⟨rfl, rfl, hr⟩
  · simp [Ref.oneCompiles]

end Wite.Props
