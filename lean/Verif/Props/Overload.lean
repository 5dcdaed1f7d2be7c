import Verif.Model.Overload
import Mathlib.Tactic.ByContra
import Mathlib.Data.List.Nodup

/-!
# Property C191: functions for the alternatives of a variant
-/

namespace Wite.Props

open Wite Wite.Maths Wite.ResultCalls Wite.Overload

variable {C : Nat → Type} {R : Type}

private theorem one_of_length {α : Type} {l : List α} {a : α} (h : l.length = 1) (ha : a ∈ l) : ∀ b ∈ l, b = a := by
  obtain ⟨c, rfl⟩ := List.length_eq_one_iff.1 h
  intro b hb
  simp only [List.mem_singleton] at ha hb
  rw [ha, hb]

private theorem best_iff (s : HeldTy) (fns : List (OverFn C R)) (f : OverFn C R) :
    best s fns = some f ↔ f ∈ fns ∧ ∃ r, fit s (param f) = some r ∧ (fns.filter (fitsWithin s r)).length = 1 := by
  have good : ∀ f : OverFn C R, isBest s fns f = true ↔
      ∃ r, fit s (param f) = some r ∧ (fns.filter (fitsWithin s r)).length = 1 := by
    intro f
    unfold isBest
    cases fit s (param f) with
    | none => simp
    | some r => simp
  constructor
  · intro h
    exact ⟨List.mem_of_find?_eq_some h, (good f).1 (List.find?_some h)⟩
  · rintro ⟨hf, r, hr, hl⟩
    have hin : f ∈ fns.filter (fitsWithin s r) := List.mem_filter.2 ⟨hf, by simp [fitsWithin, hr]⟩
    cases hb : best s fns with
    | none =>
      have := List.find?_eq_none.1 hb f hf
      exact absurd ((good f).2 ⟨r, hr, hl⟩) this
    | some g =>
      obtain ⟨r', hr', hl'⟩ := (good g).1 (List.find?_some hb)
      have hg : g ∈ fns := List.mem_of_find?_eq_some hb
      congr 1
      rcases Nat.le_total r r' with h | h
      · exact (one_of_length hl' (a := g) (List.mem_filter.2 ⟨hg, by simp [fitsWithin, hr']⟩) f
          (List.mem_filter.2 ⟨hf, by simp [fitsWithin, hr, h]⟩)).symm
      · exact one_of_length hl hin g (List.mem_filter.2 ⟨hg, by simp [fitsWithin, hr', h]⟩)

private theorem best_unique (s : HeldTy) (fns : List (OverFn C R)) (hw : wellFormed fns) (f : OverFn C R) (hf : f ∈ fns) (r : Nat)
    (hr : fit s (param f) = some r) (h : ∀ g ∈ fns, ∀ q, fit s (param g) = some q → q ≤ r → param g = param f) :
    best s fns = some f := by
  refine (best_iff s fns f).2 ⟨hf, r, hr, ?_⟩
  have hnd : (fns.filter (fitsWithin s r)).Nodup := (List.Nodup.of_map _ hw).filter _
  have hin : f ∈ fns.filter (fitsWithin s r) := List.mem_filter.2 ⟨hf, by simp [fitsWithin, hr]⟩
  have hinj : ∀ g ∈ fns, param g = param f → g = f := fun g hg he => List.inj_on_of_nodup_map hw hg hf he
  have hall : ∀ g ∈ fns.filter (fitsWithin s r), g = f := by
    intro g hg
    obtain ⟨hg, hq⟩ := List.mem_filter.1 hg
    apply hinj g hg
    unfold fitsWithin at hq
    cases hq' : fit s (param g) with
    | none => rw [hq'] at hq; simp at hq
    | some q => rw [hq'] at hq; exact h g hg q hq' (by simpa using hq)
  generalize fns.filter (fitsWithin s r) = l at *
  match l, hnd, hin, hall with
  | [_], _, _, _ => rfl
  | a :: b :: l, hnd, _, hall =>
    exfalso
    have h1 := hall a (by simp)
    have h2 := hall b (by simp)
    rw [h1, h2] at hnd
    simp at hnd

private theorem fit_zero (s : HeldTy) : fit s (some s) = some 0 := by
  cases s <;> simp [fit]

private theorem fit_zero_iff (s t : HeldTy) (q : Nat) (h : fit s (some t) = some q) : (q = 0 → t = s) ∧ q ≠ 1 := by
  unfold fit at h
  split at h
  · rename_i heq; cases heq
  · rename_i t' heq
    cases heq
    split at h
    · simp only [Option.some.injEq] at h
      split at h
      · rename_i he; subst h; exact ⟨fun _ => by rw [he], by omega⟩
      · split at h <;> (subst h; exact ⟨by omega, by omega⟩)
    · split at h
      · rename_i he; cases h; exact ⟨fun _ => by rw [he], by omega⟩
      · cases h
    · cases h

/-- C191: an object is given, as it is, to the function with a parameter of its type, whatever other functions there are. -/
theorem c191_own (fns : List (OverFn C R)) (hw : wellFormed fns) (s : HeldTy) (f : s.Val C → Outcome R) (hf : .typed s f ∈ fns)
    (x : s.Val C) : call fns s x = some (f x) := by
  have hb : best s fns = some (.typed s f) := by
    refine best_unique s fns hw _ hf 0 (fit_zero s) ?_
    intro g hg q hq hq0
    cases g with
    | generic body => simp [param, fit] at hq; omega
    | typed t body => simp only [param]; rw [(fit_zero_iff s t q hq).1 (by omega)]
  unfold call
  rw [hb]
  simp only [Option.map_some, run, convertArg, dif_pos]
  rfl

/-- C191: without a function for its type it is given to the function with an `auto` parameter, even if it could be converted to a parameter
of another function. -/
theorem c191_generic (fns : List (OverFn C R)) (hw : wellFormed fns) (s : HeldTy) (hn : ∀ f, .typed s f ∉ fns)
    (g : (t : HeldTy) → t.Val C → Outcome R) (hg : .generic g ∈ fns) (x : s.Val C) : call fns s x = some (g s x) := by
  have hb : best s fns = some (.generic g) := by
    refine best_unique s fns hw _ hg 1 rfl ?_
    intro h hh q hq hq1
    cases h with
    | generic body => rfl
    | typed t body =>
      exfalso
      obtain ⟨h0, h1⟩ := fit_zero_iff s t q hq
      have := h0 (by omega)
      subst this
      exact hn body hh
  unfold call
  rw [hb]
  rfl

/-- C191: with a function for every alternative or one with an `auto` parameter `std::visit` compiles, and calls the function for the
alternative that is held, with what is held. -/
theorem c191_visit (fns : List (OverFn C R)) (hw : wellFormed fns) (alts : List HeldTy)
    (hc : ∀ s ∈ alts, (∃ f, .typed s f ∈ fns) ∨ ∃ g, .generic g ∈ fns) (s : HeldTy) (hs : s ∈ alts) (x : s.Val C) :
    (∀ f, .typed s f ∈ fns → visit fns alts s x = some (f x)) ∧
    ((∀ f, .typed s f ∉ fns) → ∀ g, .generic g ∈ fns → visit fns alts s x = some (g s x)) ∧
    visit fns alts s x ≠ none := by
  have hv : visitCompiles fns alts := by
    intro t ht
    by_cases ho : ∃ f, .typed t f ∈ fns
    · obtain ⟨f, hf⟩ := ho
      have hb : best t fns = some (.typed t f) := by
        refine best_unique t fns hw _ hf 0 (fit_zero t) ?_
        intro g hg q hq hq0
        cases g with
        | generic body => simp [param, fit] at hq; omega
        | typed u body => simp only [param]; rw [(fit_zero_iff t u q hq).1 (by omega)]
      rw [hb]; rfl
    · rcases hc t ht with ho' | ⟨g, hg⟩
      · exact absurd ho' ho
      · push Not at ho
        have hb : best t fns = some (.generic g) := by
          refine best_unique t fns hw _ hg 1 rfl ?_
          intro h hh q hq hq1
          cases h with
          | generic body => rfl
          | typed u body =>
            exfalso
            obtain ⟨h0, h1⟩ := fit_zero_iff t u q hq
            have := h0 (by omega)
            subst this
            exact ho body hh
        rw [hb]; rfl
  have he : visit fns alts s x = call fns s x := if_pos hv
  have h1 : ∀ f, .typed s f ∈ fns → visit fns alts s x = some (f x) := fun f hf => he.trans (c191_own fns hw s f hf x)
  have h2 : (∀ f, .typed s f ∉ fns) → ∀ g, .generic g ∈ fns → visit fns alts s x = some (g s x) :=
    fun hn g hg => he.trans (c191_generic fns hw s hn g hg x)
  refine ⟨h1, h2, ?_⟩
  by_cases ho : ∃ f, .typed s f ∈ fns
  · obtain ⟨f, hf⟩ := ho; rw [h1 f hf]; simp
  · rcases hc s hs with ho' | ⟨g, hg⟩
    · exact absurd ho' ho
    · push Not at ho; rw [h2 ho g hg]; simp

/-- C191: the order of the functions makes no difference. -/
theorem c191_order (fns fns' : List (OverFn C R)) (hp : fns.Perm fns') (alts : List HeldTy) (s : HeldTy) (x : s.Val C) :
    call fns s x = call fns' s x ∧ visit fns alts s x = visit fns' alts s x := by
  have hb : ∀ t, best t fns = best t fns' := by
    intro t
    apply Option.ext
    intro f
    rw [best_iff, best_iff, hp.mem_iff]
    have : ∀ r, (fns.filter (fitsWithin t r)).length = (fns'.filter (fitsWithin t r)).length := fun r => (hp.filter _).length_eq
    simp only [this]
  have hc : call fns s x = call fns' s x := by unfold call; rw [hb]
  refine ⟨hc, ?_⟩
  unfold visit
  have : visitCompiles fns alts ↔ visitCompiles fns' alts := by unfold visitCompiles; simp only [hb]
  by_cases h : visitCompiles fns alts
  · rw [if_pos h, if_pos (this.1 h), hc]
  · rw [if_neg h, if_neg (fun h' => h (this.2 h'))]

/-- C191, a part that holds: an alternative of a type that is not a number type and has no function is noticed by the compiler. -/
theorem c191_forgotten_partial (fns : List (OverFn C R)) (alts : List HeldTy) (n : Nat) (hn : .cls n ∈ alts)
    (ho : ∀ f, .typed (.cls n) f ∉ fns) (hg : ∀ g, .generic g ∉ fns) (s : HeldTy) (x : s.Val C) : visit fns alts s x = none := by
  refine if_neg fun hv => ?_
  have := hv _ hn
  obtain ⟨f, hf⟩ := Option.isSome_iff_exists.1 this
  obtain ⟨hm, r, hr, _⟩ := (best_iff _ _ _).1 hf
  cases f with
  | generic g => exact hg g hm
  | typed t body =>
    cases t with
    | num t => simp [param, fit] at hr
    | cls m =>
      by_cases h : n = m
      · subst h; exact ho body hm
      · simp [param, fit, h] at hr

/-- C191 fails for numbers: if there is a single function for numbers and none with an `auto` parameter, alternatives of all other number
types are converted to its parameter, and the compiler accepts it. -/
theorem c191_refuted_forgotten (fns : List (OverFn C R)) (hw : wellFormed fns) (hg : ∀ g, .generic g ∉ fns) (t : NumTy)
    (f : t.Val → Outcome R) (hf : .typed (.num t) f ∈ fns) (hs : ∀ u h, .typed (.num u) h ∈ fns → u = t) :
    (∀ (s : NumTy), s ≠ t → ∀ x : s.Val, call fns (.num s) x = some (s.convert t x >>= f)) ∧
    (∀ alts, (∀ s ∈ alts, ∃ u, s = HeldTy.num u) → visitCompiles fns alts) := by
  have hb : ∀ s : NumTy, best (.num s) fns = some (.typed (.num t) f) := by
    intro s
    have : ∃ r, fit (.num s) (some (.num t)) = some r := ⟨_, rfl⟩
    obtain ⟨r, hr⟩ := this
    refine best_unique _ fns hw _ hf r hr ?_
    intro g hm q hq _
    cases g with
    | generic g => exact absurd hm (hg g)
    | typed u body =>
      cases u with
      | num u => simp only [param]; rw [hs u body hm]
      | cls m => simp [param, fit] at hq
  constructor
  · intro s hne x
    unfold call
    rw [hb s]
    have : ¬ (HeldTy.num s = HeldTy.num t) := by simpa using hne
    exact congrArg (fun o => some (o >>= f)) (dif_neg this)
  · intro alts ha s hs
    obtain ⟨u, rfl⟩ := ha s hs
    rw [hb u]; rfl

/-- C191 fails for numbers in a second way: an alternative without a function of its own that is promoted (integers narrower than `int`, and
`float`) goes to the function for the promoted type, whatever other functions for numbers there are. -/
theorem c191_refuted_promoted (fns : List (OverFn C R)) (hw : wellFormed fns) (hg : ∀ g, .generic g ∉ fns) (s : NumTy)
    (hp : promoted s ≠ s) (ho : ∀ h, .typed (.num s) h ∉ fns) (f : (promoted s).Val → Outcome R)
    (hf : .typed (.num (promoted s)) f ∈ fns) (x : s.Val) :
    call fns (.num s) x = some (s.convert (promoted s) x >>= f) := by
  have hb : best (.num s) fns = some (.typed (.num (promoted s)) f) := by
    refine best_unique _ fns hw _ hf 2 (by simp [param, fit, Ne.symm hp]) ?_
    intro g hm q hq h2
    cases g with
    | generic g => exact absurd hm (hg g)
    | typed u body =>
      cases u with
      | cls m => simp [param, fit] at hq
      | num u =>
        simp only [param, fit, Option.some.injEq] at hq
        split at hq
        · rename_i he; subst he; exact absurd hm (ho body)
        · split at hq
          · rename_i he; simp only [param]; rw [he]
          · omega
  unfold call
  rw [hb]
  have : ¬ (HeldTy.num s = HeldTy.num (promoted s)) := by simpa using Ne.symm hp
  exact congrArg (fun o => some (o >>= f)) (dif_neg this)

/-- Only with functions for two number types, none of them what it is promoted to, a forgotten number is noticed by the compiler. -/
theorem c191_ambiguous_partial (fns : List (OverFn C R)) (hg : ∀ g, .generic g ∉ fns) (s t u : NumTy) (htu : t ≠ u)
    (f : t.Val → Outcome R) (hf : .typed (.num t) f ∈ fns) (h : u.Val → Outcome R) (hh : .typed (.num u) h ∈ fns)
    (ho : ∀ h, .typed (.num s) h ∉ fns) (hp : ∀ h, .typed (.num (promoted s)) h ∉ fns) (x : s.Val) :
    call fns (.num s) x = none := by
  unfold call
  rw [Option.map_eq_none_iff]
  cases hb : best (.num s) fns with
  | none => rfl
  | some g =>
    exfalso
    obtain ⟨hm, r, hr, hl⟩ := (best_iff _ _ _).1 hb
    have hr3 : r = 3 := by
      cases g with
      | generic g => exact absurd hm (hg g)
      | typed v body =>
        cases v with
        | cls m => simp [param, fit] at hr
        | num v =>
          simp only [param, fit, Option.some.injEq] at hr
          split at hr
          · rename_i he; subst he; exact absurd hm (ho body)
          · split at hr
            · rename_i he; subst he; exact absurd hm (hp body)
            · exact hr.symm
    subst hr3
    have hle : ∀ v : NumTy, ∀ k, OverFn.typed (.num v) k ∈ fns → OverFn.typed (.num v) k ∈ fns.filter (fitsWithin (.num s) 3) := by
      intro v k hk
      refine List.mem_filter.2 ⟨hk, ?_⟩
      simp only [fitsWithin, param, fit]
      split
      · rfl
      · split <;> rfl
    have := one_of_length hl (hle t f hf) _ (hle u h hh)
    have h' := congrArg param this
    simp only [param, Option.some.injEq, HeldTy.num.injEq] at h'
    exact htu h'.symm

/-! `std::visit(overloaded{[](int), [](const std::string&)}, v)` with a `variant<double, std::string>`: 2.75 arrives as 2. -/

private def intFn : OverFn (fun _ => String) Int := .typed (.num (.int .int)) (fun x : Int => .ok x)
private def strFn : OverFn (fun _ => String) Int := .typed (.cls 0) (fun x : String => .ok x.length)
private def twoAndMore : Flt .double := ⟨false, 0x4006000000000000⟩

example : visit [intFn, strFn] [.num (.flt .double), .cls 0] (.cls 0) "abc" = some (.ok 3) ∧
    visit [strFn, intFn] [.num (.flt .double), .cls 0] (.num (.flt .double)) twoAndMore = some (.ok 2) := by decide +kernel
example : visit [intFn] [.num (.flt .double), .cls 0] (.num (.flt .double)) twoAndMore = none :=
  c191_forgotten_partial _ _ 0 (by simp) (fun f h => by cases List.mem_singleton.1 h) (by simp [intFn]) _ _
example : wellFormed [intFn, strFn] := by simp [wellFormed, param, intFn, strFn]

end Wite.Props
