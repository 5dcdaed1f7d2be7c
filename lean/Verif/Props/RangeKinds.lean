import Verif.Model.RangeKinds
import Verif.Props.ValueRange

/-!
# Property C186: the envelope of ranges with bounds of different kinds
-/

namespace Wite.Props

open Wite Wite.Maths

variable {α : Type} [LinearOrder α]

/-! ## C186 -/

private theorem vmin_spec (r s : AnyRange α) (rest : List (AnyRange α)) :
    (∃ u ∈ r :: s :: rest, u.range.lo = AnyRange.vmin r s rest) ∧ ∀ u ∈ r :: s :: rest, AnyRange.vmin r s rest ≤ u.range.lo := by
  have e : AnyRange.vmin r s rest = vmin r.range.lo s.range.lo (rest.map (·.range.lo)) := by
    induction rest generalizing r s with
    | nil => rfl
    | cons u us ih => simp only [AnyRange.vmin, List.map_cons, vmin, ih]
  have h := c74_min r.range.lo s.range.lo (rest.map (·.range.lo))
  rw [← e] at h
  refine ⟨?_, fun u hu => h.2 _ ?_⟩
  · have : AnyRange.vmin r s rest ∈ (r :: s :: rest).map (·.range.lo) := by simpa using h.1
    simpa using List.mem_map.1 this
  · have := List.mem_map_of_mem (f := fun u : AnyRange α => u.range.lo) hu
    simpa using this

private theorem vmax_spec (r s : AnyRange α) (rest : List (AnyRange α)) :
    (∃ u ∈ r :: s :: rest, u.range.hi = AnyRange.vmax r s rest) ∧ ∀ u ∈ r :: s :: rest, u.range.hi ≤ AnyRange.vmax r s rest := by
  have e : AnyRange.vmax r s rest = vmax r.range.hi s.range.hi (rest.map (·.range.hi)) := by
    induction rest generalizing r s with
    | nil => rfl
    | cons u us ih => simp only [AnyRange.vmax, List.map_cons, vmax, ih]
  have h := c74_max r.range.hi s.range.hi (rest.map (·.range.hi))
  rw [← e] at h
  refine ⟨?_, fun u hu => h.2 _ ?_⟩
  · have : AnyRange.vmax r s rest ∈ (r :: s :: rest).map (·.range.hi) := by simpa using h.1
    simpa using List.mem_map.1 this
  · have := List.mem_map_of_mem (f := fun u : AnyRange α => u.range.hi) hu
    simpa using this

/-- C186, the part that holds: the envelope of ranges that are not inverted exists in every build; its bounds are the least and
the greatest bound; their kinds are those of the first argument alone. -/
theorem c186_bounds_partial (b : Build) (r s : AnyRange α) (rest : List (AnyRange α)) (h : ∀ u ∈ r :: s :: rest, u.range.lo ≤ u.range.hi) :
    ∃ e : AnyRange α, AnyRange.envelope b r s rest = .ok e ∧ e.lb = r.lb ∧ e.hb = r.hb ∧
      (∃ u ∈ r :: s :: rest, u.range.lo = e.range.lo) ∧ (∀ u ∈ r :: s :: rest, e.range.lo ≤ u.range.lo) ∧
      (∃ u ∈ r :: s :: rest, u.range.hi = e.range.hi) ∧ (∀ u ∈ r :: s :: rest, u.range.hi ≤ e.range.hi) := by
  obtain ⟨h1, h2⟩ := vmin_spec r s rest
  obtain ⟨h3, h4⟩ := vmax_spec r s rest
  refine ⟨⟨r.lb, r.hb, ⟨AnyRange.vmin r s rest, AnyRange.vmax r s rest⟩⟩, ?_, rfl, rfl, h1, h2, h3, h4⟩
  have hle : AnyRange.vmin r s rest ≤ AnyRange.vmax r s rest :=
    le_trans (h2 r (by simp)) (le_trans (h r (by simp)) (h4 r (by simp)))
  unfold AnyRange.envelope ValueRange.make
  simp only [hle, decide_true]
  cases b <;> rfl

private theorem mem_iff (u : AnyRange α) (x : α) : u.contains x = true ↔
    (u.range.lo ≤ x ∧ (u.lb = .opened → u.range.lo ≠ x)) ∧ (x ≤ u.range.hi ∧ (u.hb = .opened → x ≠ u.range.hi)) :=
  c78_contains u.range x

/-- C186, exactly when the envelope contains all values of its arguments: unless the first argument is open at an end and
another argument contains the bound itself. -/
theorem c186_contains_partial (b : Build) (r s : AnyRange α) (rest : List (AnyRange α)) (e : AnyRange α)
    (h : ∀ u ∈ r :: s :: rest, u.range.lo ≤ u.range.hi) (he : AnyRange.envelope b r s rest = .ok e) :
    (∀ u ∈ r :: s :: rest, ∀ x, u.contains x = true → e.contains x = true) ↔
      (r.lb = .opened → ∀ u ∈ r :: s :: rest, u.contains e.range.lo = false) ∧
      (r.hb = .opened → ∀ u ∈ r :: s :: rest, u.contains e.range.hi = false) := by
  obtain ⟨e', he', k1, k2, _, h2, _, h4⟩ := c186_bounds_partial b r s rest h
  rw [he] at he'; cases he'
  constructor
  · intro hall
    refine ⟨fun ho u hu => Bool.eq_false_iff.2 fun hc => ?_, fun ho u hu => Bool.eq_false_iff.2 fun hc => ?_⟩
    · exact ((mem_iff e _).1 (hall u hu _ hc)).1.2 (k1.trans ho) rfl
    · exact ((mem_iff e _).1 (hall u hu _ hc)).2.2 (k2.trans ho) rfl
  · rintro ⟨ho1, ho2⟩ u hu x hx
    obtain ⟨⟨a1, _⟩, a3, _⟩ := (mem_iff u x).1 hx
    refine (mem_iff e x).2 ⟨⟨le_trans (h2 u hu) a1, fun ho hc => ?_⟩, le_trans a3 (h4 u hu), fun ho hc => ?_⟩
    · have := ho1 (k1.symm.trans ho) u hu
      rw [hc, hx] at this; cases this
    · have := ho2 (k2.symm.trans ho) u hu
      rw [← hc, hx] at this; cases this

private def closed (a b : α) : AnyRange α := ⟨.closed, .closed, ⟨a, b⟩⟩
private def opened (a b : α) : AnyRange α := ⟨.opened, .opened, ⟨a, b⟩⟩

/-- C186 fails: whenever an open range comes first and a closed one reaches at least as far up, the envelope does not contain the
upper bound of the closed one; with the arguments exchanged it does. -/
theorem c186_refuted_contains (b : Build) (lo₁ hi₁ lo₂ hi₂ : α) (h₁ : lo₁ ≤ hi₁) (h₂ : lo₂ ≤ hi₂) (h : hi₁ ≤ hi₂) :
    (⟨.closed, .closed, ⟨lo₂, hi₂⟩⟩ : AnyRange α).contains hi₂ = true ∧
    (∃ e, AnyRange.envelope b ⟨.opened, .opened, ⟨lo₁, hi₁⟩⟩ ⟨.closed, .closed, ⟨lo₂, hi₂⟩⟩ [] = .ok e ∧ e.contains hi₂ = false) ∧
    (∃ e, AnyRange.envelope b ⟨.closed, .closed, ⟨lo₂, hi₂⟩⟩ ⟨.opened, .opened, ⟨lo₁, hi₁⟩⟩ [] = .ok e ∧ e.contains hi₂ = true) := by
  have hall : ∀ u ∈ [opened lo₁ hi₁, closed lo₂ hi₂], u.range.lo ≤ u.range.hi := by
    intro u hu
    simp only [List.mem_cons, List.not_mem_nil, or_false] at hu
    rcases hu with rfl | rfl
    · exact h₁
    · exact h₂
  refine ⟨(mem_iff (closed lo₂ hi₂) hi₂).2 ⟨⟨h₂, by simp [closed]⟩, le_refl _, by simp [closed]⟩, ?_, ?_⟩
  · obtain ⟨e, he, _, k2, _, _, ⟨u, hu, hu1⟩, h4⟩ := c186_bounds_partial b (opened lo₁ hi₁) (closed lo₂ hi₂) [] hall
    refine ⟨e, he, Bool.eq_false_iff.2 fun hc => ?_⟩
    obtain ⟨_, a3, a4⟩ := (mem_iff e hi₂).1 hc
    have hge : e.range.hi ≤ hi₂ := by
      simp only [List.mem_cons, List.not_mem_nil, or_false] at hu
      rcases hu with rfl | rfl
      · exact hu1 ▸ h
      · exact le_of_eq hu1.symm
    exact a4 k2 (le_antisymm a3 hge)
  · obtain ⟨e, he, k1, k2, _, h2, _, h4⟩ := c186_bounds_partial b (closed lo₂ hi₂) (opened lo₁ hi₁) [] (by
      intro u hu; exact hall u (by simp only [List.mem_cons, List.not_mem_nil, or_false] at hu ⊢; exact hu.symm))
    refine ⟨e, he, (mem_iff e hi₂).2 ⟨⟨le_trans (h2 (closed lo₂ hi₂) (by simp)) h₂, ?_⟩, h4 (closed lo₂ hi₂) (by simp), ?_⟩⟩
    · exact fun hc => absurd (k1.symm.trans hc) (by simp [closed])
    · exact fun hc => absurd (k2.symm.trans hc) (by simp [closed])

/-- The envelope of `(0, 1)` and `[5, 6]` is `(0, 6)`, that of `[5, 6]` and `(0, 1)` is `[0, 6]`. -/
example : (match AnyRange.envelope .debug (⟨.opened, .opened, ⟨0, 1⟩⟩ : AnyRange Int) ⟨.closed, .closed, ⟨5, 6⟩⟩ [] with
    | .ok e => (e.contains 6, e.contains 1)
    | _ => (true, false)) = (false, true) ∧
    (match AnyRange.envelope .debug (⟨.closed, .closed, ⟨5, 6⟩⟩ : AnyRange Int) ⟨.opened, .opened, ⟨0, 1⟩⟩ [] with
    | .ok e => (e.contains 6, e.contains 0)
    | _ => (false, false)) = (true, true) := by decide

/-- C186 fails: whenever a closed range comes first and an open one lies around it, the envelope contains bounds that no argument
contains, although the open argument alone is a smaller range with all the values. -/
theorem c186_refuted_smallest (b : Build) (lo₁ hi₁ lo₂ hi₂ : α) (h₁ : lo₁ ≤ hi₁) (hl : lo₂ < lo₁) (hh : hi₁ < hi₂) :
    ∃ e, AnyRange.envelope b ⟨.closed, .closed, ⟨lo₁, hi₁⟩⟩ ⟨.opened, .opened, ⟨lo₂, hi₂⟩⟩ [] = .ok e ∧
      e.contains lo₂ = true ∧ e.contains hi₂ = true ∧
      ∀ x, ((⟨.closed, .closed, ⟨lo₁, hi₁⟩⟩ : AnyRange α).contains x = true → (⟨.opened, .opened, ⟨lo₂, hi₂⟩⟩ : AnyRange α).contains x = true) ∧
        ((⟨.opened, .opened, ⟨lo₂, hi₂⟩⟩ : AnyRange α).contains x = true → x ≠ lo₂ ∧ x ≠ hi₂) := by
  have h₂ : lo₂ ≤ hi₂ := le_of_lt (lt_of_lt_of_le hl (le_trans h₁ (le_of_lt hh)))
  obtain ⟨e, he, k1, k2, _, h2, _, h4⟩ := c186_bounds_partial b (closed lo₁ hi₁) (opened lo₂ hi₂) [] (by
    intro u hu
    simp only [List.mem_cons, List.not_mem_nil, or_false] at hu
    rcases hu with rfl | rfl
    · exact h₁
    · exact h₂)
  have hlo : e.range.lo ≤ lo₂ := h2 (opened lo₂ hi₂) (by simp)
  have hhi : hi₂ ≤ e.range.hi := h4 (opened lo₂ hi₂) (by simp)
  refine ⟨e, he, (mem_iff e lo₂).2 ⟨⟨hlo, ?_⟩, le_trans h₂ hhi, ?_⟩, (mem_iff e hi₂).2 ⟨⟨le_trans hlo h₂, ?_⟩, hhi, ?_⟩, fun x => ⟨fun hx => ?_, fun hx => ?_⟩⟩
  · exact fun hc => absurd (k1.symm.trans hc) (by simp [closed])
  · exact fun hc => absurd (k2.symm.trans hc) (by simp [closed])
  · exact fun hc => absurd (k1.symm.trans hc) (by simp [closed])
  · exact fun hc => absurd (k2.symm.trans hc) (by simp [closed])
  · obtain ⟨⟨a1, _⟩, a3, _⟩ := (mem_iff (closed lo₁ hi₁) x).1 hx
    have b1 := lt_of_lt_of_le hl a1
    have b2 := lt_of_le_of_lt a3 hh
    exact (mem_iff (opened lo₂ hi₂) x).2 ⟨⟨le_of_lt b1, fun _ => ne_of_lt b1⟩, le_of_lt b2, fun _ => ne_of_lt b2⟩
  · obtain ⟨⟨_, a2⟩, _, a4⟩ := (mem_iff (opened lo₂ hi₂) x).1 hx
    exact ⟨fun hc => a2 rfl hc.symm, a4 rfl⟩

/-- The envelope of `[1, 2]` and `(0, 3)` is `[0, 3]`. -/
example : (match AnyRange.envelope .debug (⟨.closed, .closed, ⟨1, 2⟩⟩ : AnyRange Int) ⟨.opened, .opened, ⟨0, 3⟩⟩ [] with
    | .ok e => (e.contains 0, e.contains 3)
    | _ => (false, false)) = (true, true) := by decide

/-- C186 fails for containers kept in variables: `envelope(values)` does not compile, whatever the container; of a temporary it
compiles exactly if the type has a member `value_type`. -/
theorem c186_refuted_variable (t : ExprTy) :
    envelopeAccepts t true = false ∧ (envelopeAccepts t false = true ↔ t = .cls true) := by
  refine ⟨rfl, ?_⟩
  cases t with
  | cls h => cases h <;> simp [envelopeAccepts, ExprTy.deduce, ExprTy.hasMember]
  | ref t => simp [envelopeAccepts, ExprTy.deduce, ExprTy.hasMember]

example : envelopeAccepts (.cls true) true = false ∧ envelopeAccepts (.cls true) false = true := by decide

end Wite.Props
