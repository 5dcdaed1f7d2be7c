import Mathlib.Tactic.Conv
import Verif.Spec.Scope

/-!
# Lemmas about guard programs
-/

namespace Wite.Scope

open Wite.Spec.Scope

/-- `want` agrees with the code for every guard the program may create when run with `u`
exceptions in flight. -/
def Fits (want : Cond → Nat → Exit → Bool) : Prog → Nat → Prop
  | .seq p q, u | .tryCatch p q, u => Fits want p u ∧ Fits want q u
  | .guard _ c f rest, u =>
    (∀ how, want c u how = checkExitCondition c (inFlight u how)) ∧ Fits want rest u ∧
      Fits want f u ∧ Fits want f (u + 1)
  | _, _ => True

theorem watchAll_append (want : Cond → Nat → Exit → Bool) (st : List Alive) (t t' : List Event) :
    watchAll want st (t ++ t') = (watchAll want st t).bind fun st' => watchAll want st' t' := by
  induction t generalizing st with
  | nil => rfl
  | cons e t ih =>
    simp only [List.cons_append, watchAll]
    cases watch want st e with
    | none => rfl
    | some st' => exact ih st'

/-- The stack with the released flags brought up to date. -/
def refresh (rel : List Nat) (st : List Alive) : List Alive :=
  st.map fun e => { e with released := decide (e.k ∈ rel) }

/-- The stack agrees with the state: flags are right, serial numbers are below `next`, and
variables in scope denote guards whose scope has not been left. -/
structure Inv (env : Nat → Option Nat) (s : State) (st : List Alive) : Prop where
  fresh : refresh s.released st = st
  below : ∀ e ∈ st, e.k < s.next
  relBelow : ∀ k ∈ s.released, k < s.next
  scope : ∀ x k, env x = some k → ∃ e ∈ st, e.k = k ∧ e.how = none

theorem refresh_refresh (a b : List Nat) (st : List Alive) : refresh a (refresh b st) = refresh a st := by
  simp [refresh]

theorem refresh_cons_rel (k : Nat) (rel : List Nat) (st : List Alive) (h : refresh rel st = st) :
    (st.map fun e => if e.k = k then { e with released := true } else e) = refresh (k :: rel) st := by
  conv_lhs => rw [← h]
  simp only [refresh, List.map_map]
  apply List.map_congr_left
  intro e _
  by_cases hk : e.k = k <;> simp [hk]

theorem inv_mono {env : Nat → Option Nat} {s s' : State} {st : List Alive} (h : Inv env s st)
    (hn : s.next ≤ s'.next) (hr : ∀ k ∈ s'.released, k < s'.next) : Inv env s' (refresh s'.released st) where
  fresh := refresh_refresh _ _ _
  below := by
    intro e he
    simp only [refresh, List.mem_map] at he
    obtain ⟨e', he', rfl⟩ := he
    exact Nat.lt_of_lt_of_le (h.below e' he') hn
  relBelow := hr
  scope := by
    intro x k hx
    obtain ⟨e, he, hk, hh⟩ := h.scope x k hx
    exact ⟨{ e with released := decide (e.k ∈ s'.released) }, by simp only [refresh, List.mem_map]; exact ⟨e, he, rfl⟩, hk, hh⟩

/-- The conclusion of the main lemma. -/
structure Good (want : Cond → Nat → Exit → Bool) (s : State) (st : List Alive)
    (x : List Event × Ended × State) : Prop where
  next : s.next ≤ x.2.2.next
  relBelow : ∀ k ∈ x.2.2.released, k < x.2.2.next
  relNew : ∀ k ∈ x.2.2.released, k < s.next → k ∈ s.released ∨ ∃ e ∈ st, e.k = k ∧ e.how = none
  some : x.2.1 ≠ none → watchAll want st x.1 = some (refresh x.2.2.released st)
  pref : ∃ st', watchAll want st x.1 = .some st'

theorem good_seq {want : Cond → Nat → Exit → Bool} {env : Nat → Option Nat} {s s' : State} {st : List Alive} 
    {t : List Event} {r : Ended} (h : Inv env s st) (hr : r ≠ none) (hg : Good want s st (t, r, s'))
    {y : List Event × Ended × State} (hy : Inv env s' (refresh s'.released st) → Good want s' (refresh s'.released st) y) :
    Good want s st (t ++ y.1, y.2.1, y.2.2) := by
  have hinv := inv_mono h hg.next hg.relBelow
  have hy := hy hinv
  have hs := hg.some hr
  simp only at hs
  refine ⟨Nat.le_trans hg.next hy.next, hy.relBelow, ?_, ?_, ?_⟩
  · intro k hk hks
    rcases hy.relNew k hk (Nat.lt_of_lt_of_le hks hg.next) with h1 | ⟨e, he, rfl, hh⟩
    · exact hg.relNew k h1 hks
    · right
      simp only [refresh, List.mem_map] at he
      obtain ⟨e', he', rfl⟩ := he
      exact ⟨e', he', rfl, hh⟩
  · intro hn
    have := hy.some hn
    simp only [watchAll_append, hs, Option.bind_some, this, refresh_refresh]
  · simp only [watchAll_append, hs, Option.bind_some]
    exact hy.pref

theorem good_exec (want : Cond → Nat → Exit → Bool) (p : Prog) :
    ∀ (env : Nat → Option Nat) (u : Nat) (s : State) (st : List Alive),
      Fits want p u → Inv env s st → Good want s st (exec env u p s) := by
  induction p with
  | act a =>
    intro env u s st _ h
    refine ⟨Nat.le_refl _, h.relBelow, fun k hk _ => Or.inl hk, fun _ => ?_, ?_⟩
    · simp [exec, watchAll, watch, h.fresh]
    · exact ⟨st, rfl⟩
  | skip =>
    intro env u s st _ h
    refine ⟨Nat.le_refl _, h.relBelow, fun k hk _ => Or.inl hk, fun _ => ?_, ?_⟩
    · simp [exec, watchAll, h.fresh]
    · exact ⟨st, rfl⟩
  | throw e =>
    intro env u s st _ h
    refine ⟨Nat.le_refl _, h.relBelow, fun k hk _ => Or.inl hk, fun _ => ?_, ?_⟩
    · simp [exec, watchAll, h.fresh]
    · exact ⟨st, rfl⟩
  | seq p q ihp ihq =>
    intro env u s st hf h
    have hg := ihp env u s st hf.1 h
    rw [exec]
    rcases hp : exec env u p s with ⟨t, _ | _ | e, s'⟩
    · rw [hp] at hg; exact hg
    · rw [hp] at hg
      exact good_seq h (by simp) hg (fun hi => ihq env u s' _ hf.2 hi)
    · rw [hp] at hg; exact hg
  | tryCatch p q ihp ihq =>
    intro env u s st hf h
    have hg := ihp env u s st hf.1 h
    rw [exec]
    rcases hp : exec env u p s with ⟨t, _ | _ | e, s'⟩
    · rw [hp] at hg; exact hg
    · rw [hp] at hg; exact hg
    · rw [hp] at hg
      exact good_seq h (by simp) hg (fun hi => ihq env u s' _ hf.2 hi)
  | release x =>
    intro env u s st _ h
    rw [exec]
    rcases hx : env x with _ | k
    · refine ⟨Nat.le_refl _, h.relBelow, fun k hk _ => Or.inl hk, fun _ => ?_, ?_⟩
      · simp [watchAll, h.fresh]
      · exact ⟨st, rfl⟩
    · obtain ⟨e, he, hk, hh⟩ := h.scope x k hx
      have hany : (st.any fun e => e.k == k && e.how == none) = true := by
        rw [List.any_eq_true]; exact ⟨e, he, by simp [hk, hh]⟩
      have hw : watchAll want st [.released k] = some (refresh (k :: s.released) st) := by
        simp only [watchAll, watch, hany, if_true]
        rw [refresh_cons_rel k s.released st h.fresh]
      refine ⟨Nat.le_refl _, ?_, ?_, fun _ => hw, ⟨_, hw⟩⟩
      · intro j hj
        rcases List.mem_cons.1 hj with rfl | hj
        · rw [← hk]; exact h.below e he
        · exact h.relBelow j hj
      · intro j hj _
        rcases List.mem_cons.1 hj with rfl | hj
        · exact Or.inr ⟨e, he, hk, hh⟩
        · exact Or.inl hj
  | guard x c f rest ihf ihr =>
    intro env u s st hf h
    have hnone : (st.any fun e => e.k == s.next) = false := by
      rw [List.any_eq_false]
      intro e he
      have := h.below e he
      simp; omega
    -- the body
    have hinv : Inv (fun y => if y = x then some s.next else env y) { s with next := s.next + 1 }
        (⟨s.next, c, u, false, none, false⟩ :: st) := by
      have hnr : s.next ∉ s.released := fun hc => Nat.lt_irrefl _ (h.relBelow _ hc)
      refine ⟨?_, ?_, ?_, ?_⟩
      · simp only [refresh, List.map_cons, hnr, decide_false]
        have := h.fresh
        rw [refresh] at this
        rw [this]
      · intro e he
        rcases List.mem_cons.1 he with rfl | he
        · exact Nat.lt_succ_self _
        · exact Nat.lt_succ_of_lt (h.below e he)
      · intro k hk; exact Nat.lt_succ_of_lt (h.relBelow k hk)
      · intro y k hy
        by_cases hxy : y = x
        · simp only [hxy, if_true, Option.some.injEq] at hy
          exact ⟨⟨s.next, c, u, false, none, false⟩, by simp, hy, rfl⟩
        · simp only [hxy, if_false] at hy
          obtain ⟨e, he, h1, h2⟩ := h.scope y k hy
          exact ⟨e, by simp [he], h1, h2⟩
    have hg := ihr _ u _ _ hf.2.1 hinv
    rw [exec]
    simp only
    have hcreate : ∀ t, watchAll want st (.created s.next c u :: t) =
        watchAll want (⟨s.next, c, u, false, none, false⟩ :: st) t := by
      intro t; simp [watchAll, watch, hnone]
    have relNew' : ∀ (rel : List Nat), (∀ k ∈ rel, k < s.next + 1 → k ∈ s.released ∨
        ∃ e ∈ (⟨s.next, c, u, false, none, false⟩ :: st : List Alive), e.k = k ∧ e.how = none) →
        ∀ k ∈ rel, k < s.next → k ∈ s.released ∨ ∃ e ∈ st, e.k = k ∧ e.how = none := by
      intro rel hrel k hk hks
      rcases hrel k hk (Nat.lt_succ_of_lt hks) with h1 | ⟨e, he, h1, h2⟩
      · exact Or.inl h1
      · rcases List.mem_cons.1 he with rfl | he
        · simp only at h1; omega
        · exact Or.inr ⟨e, he, h1, h2⟩
    rcases hb : exec (fun y => if y = x then some s.next else env y) u rest { s with next := s.next + 1 } with ⟨t, _ | how, s₁⟩
    · rw [hb] at hg
      refine ⟨Nat.le_of_succ_le hg.next, hg.relBelow, relNew' _ hg.relNew, fun hc => absurd rfl hc, ?_⟩
      simp only [hcreate]; exact hg.pref
    · rw [hb] at hg
      have hw := hg.some (by simp)
      simp only at hw
      have hn1 : s.next + 1 ≤ s₁.next := hg.next
      have hst1 : Inv env s₁ (refresh s₁.released st) := inv_mono h (Nat.le_of_succ_le hn1) hg.relBelow
      have hhead : refresh s₁.released (⟨s.next, c, u, false, none, false⟩ :: st) =
          ⟨s.next, c, u, decide (s.next ∈ s₁.released), none, false⟩ :: refresh s₁.released st := rfl
      have hleave : ∀ evs, watchAll want st (.created s.next c u :: (t ++ .leaving s.next how :: evs)) =
          watchAll want (⟨s.next, c, u, decide (s.next ∈ s₁.released), some how, false⟩ :: refresh s₁.released st) evs := by
        intro evs
        rw [hcreate, watchAll_append, hw, Option.bind_some, hhead]
        simp [watchAll, watch]
      have hwant := hf.1 how
      by_cases hrun : (decide (s.next ∉ s₁.released) && checkExitCondition c (inFlight u how)) = true
      · simp only [hrun, if_true]
        rw [Bool.and_eq_true, decide_eq_true_eq] at hrun
        -- run the function
        have hfits : Fits want f (inFlight u how) := by
          cases how
          · exact hf.2.2.1
          · exact hf.2.2.2
        have hinvf : Inv env s₁ (⟨s.next, c, u, false, some how, true⟩ :: refresh s₁.released st) := by
          refine ⟨?_, ?_, hg.relBelow, ?_⟩
          · have h1 := hst1.fresh
            simp only [refresh, List.map_cons, hrun.1, decide_false] at h1 ⊢
            rw [h1]
          · intro e he
            rcases List.mem_cons.1 he with rfl | he
            · exact hn1
            · exact hst1.below e he
          · intro y k hy
            obtain ⟨e, he, h1, h2⟩ := hst1.scope y k hy
            exact ⟨e, by simp [he], h1, h2⟩
        have hgf := ihf env (inFlight u how) s₁ _ hfits hinvf
        have hruns : ∀ evs, watchAll want st (.created s.next c u :: (t ++ .leaving s.next how :: .runs s.next :: evs)) =
            watchAll want (⟨s.next, c, u, false, some how, true⟩ :: refresh s₁.released st) evs := by
          intro evs
          rw [hleave]
          simp [watchAll, watch, hrun.1]
        rcases hfe : exec env (inFlight u how) f s₁ with ⟨t', r', s₂⟩
        rw [hfe] at hgf
        have hnext : s.next ≤ s₂.next := Nat.le_trans (Nat.le_of_succ_le hn1) hgf.next
        have hrel : ∀ k ∈ s₂.released, k < s.next → k ∈ s.released ∨ ∃ e ∈ st, e.k = k ∧ e.how = none := by
          intro k hk hks
          rcases hgf.relNew k hk (Nat.lt_of_lt_of_le hks (Nat.le_of_succ_le hn1)) with h1 | ⟨e, he, h1, h2⟩
          · exact relNew' _ hg.relNew k h1 hks
          · rcases List.mem_cons.1 he with rfl | he
            · simp only at h1; omega
            · simp only [refresh, List.mem_map] at he
              obtain ⟨e', he', rfl⟩ := he
              exact Or.inr ⟨e', he', h1, h2⟩
        have hbad : Good want s st (.created s.next c u :: (t ++ .leaving s.next how :: .runs s.next :: t'), none, s₂) := by
          refine ⟨hnext, hgf.relBelow, hrel, fun hc => absurd rfl hc, ?_⟩
          simp only [hruns]; exact hgf.pref
        rcases r' with _ | _ | e
        · exact hbad
        · refine ⟨hnext, hgf.relBelow, hrel, ?_, ?_⟩
          all_goals
            have hwf := hgf.some (by simp)
            simp only at hwf
            have hns₂ : s.next ∉ s₂.released := by
              intro hc
              rcases hgf.relNew _ hc hn1 with h1 | ⟨e, he, h1, h2⟩
              · exact hrun.1 h1
              · rcases List.mem_cons.1 he with rfl | he
                · simp at h2
                · simp only [refresh, List.mem_map] at he
                  obtain ⟨e', he', rfl⟩ := he
                  exact Nat.lt_irrefl _ (h1 ▸ h.below e' he')
            have hall : watchAll want st (.created s.next c u :: (t ++ .leaving s.next how :: .runs s.next :: t' ++ [.left s.next])) =
                some (refresh s₂.released st) := by
              have e1 : (.created s.next c u :: (t ++ .leaving s.next how :: .runs s.next :: t' ++ [.left s.next]) : List Event) =
                  .created s.next c u :: (t ++ .leaving s.next how :: .runs s.next :: (t' ++ [.left s.next])) := by simp
              rw [e1, hruns, watchAll_append, hwf, Option.bind_some]
              simp only [refresh, List.map_cons, watchAll, watch, hns₂, decide_false, hwant, hrun.2, Bool.not_false,
                Bool.and_self, and_self, if_true, List.map_map]
              rfl
          · intro _; exact hall
          · exact ⟨_, hall⟩
        · exact hbad
      · have hrun' : (decide (s.next ∉ s₁.released) && checkExitCondition c (inFlight u how)) = false := by
          simpa using hrun
        simp only [hrun', Bool.false_eq_true, if_false]
        have hall : watchAll want st (.created s.next c u :: (t ++ [.leaving s.next how, .left s.next])) =
            some (refresh s₁.released st) := by
          rw [hleave]
          have : (!decide (s.next ∈ s₁.released) && want c u how) = false := by
            rw [hwant]; simpa using hrun'
          simp [watchAll, watch, this]
        exact ⟨Nat.le_of_succ_le hn1, hg.relBelow, relNew' _ hg.relNew, fun _ => hall, ⟨_, hall⟩⟩

/-! ### Where events come from -/

/-- Facts about any execution. -/
structure Sources (p : Prog) (env : Nat → Option Nat) (s : State) (x : List Event × Ended × State) : Prop where
  next : s.next ≤ x.2.2.next
  acts : ∀ a, Event.act a ∈ x.1 → Mentions a p
  released : ∀ k, k ∈ x.2.2.released → k ∈ s.released ∨ s.next ≤ k ∨ ∃ y, env y = some k ∧ Releases y p
  keeps : ∀ k, k ∈ s.released → k ∈ x.2.2.released

theorem sources_exec (p : Prog) : ∀ (env : Nat → Option Nat) (u : Nat) (s : State),
    Sources p env s (exec env u p s) := by
  induction p with
  | act a =>
    intro env u s
    rw [exec]
    exact ⟨Nat.le_refl _, by simp [Mentions], fun k h => Or.inl h, fun k h => h⟩
  | skip =>
    intro env u s
    rw [exec]
    exact ⟨Nat.le_refl _, by simp, fun k h => Or.inl h, fun k h => h⟩
  | throw e =>
    intro env u s
    rw [exec]
    exact ⟨Nat.le_refl _, by simp, fun k h => Or.inl h, fun k h => h⟩
  | release x =>
    intro env u s
    rw [exec]
    rcases hx : env x with _ | j
    · exact ⟨Nat.le_refl _, by simp, fun k h => Or.inl h, fun k h => h⟩
    · refine ⟨Nat.le_refl _, by simp, fun k h => ?_, fun k h => by simp [h]⟩
      rcases List.mem_cons.1 h with rfl | h
      · exact Or.inr (Or.inr ⟨x, hx, rfl⟩)
      · exact Or.inl h
  | seq p q ihp ihq =>
    intro env u s
    have h1 := ihp env u s
    rw [exec]
    have stop : ∀ y, Sources p env s y → Sources (p.seq q) env s y := fun y h =>
      ⟨h.next, fun a ha => Or.inl (h.acts a ha), fun k hk => by
        rcases h.released k hk with h | h | ⟨y, hy, h⟩
        · exact Or.inl h
        · exact Or.inr (Or.inl h)
        · exact Or.inr (Or.inr ⟨y, hy, Or.inl h⟩), h.keeps⟩
    rcases hp : exec env u p s with ⟨t, _ | _ | e, s'⟩ <;> rw [hp] at h1
    · exact stop _ h1
    · have h2 := ihq env u s'
      have hn := h1.next
      simp only at hn
      refine ⟨Nat.le_trans h1.next h2.next, ?_, ?_, fun k hk => h2.keeps k (h1.keeps k hk)⟩
      · intro a ha
        rcases List.mem_append.1 ha with ha | ha
        · exact Or.inl (h1.acts a ha)
        · exact Or.inr (h2.acts a ha)
      · intro k hk
        rcases h2.released k hk with h | h | ⟨y, hy, h⟩
        · rcases h1.released k h with h | h | ⟨y, hy, h⟩
          · exact Or.inl h
          · exact Or.inr (Or.inl h)
          · exact Or.inr (Or.inr ⟨y, hy, Or.inl h⟩)
        · exact Or.inr (Or.inl (by omega))
        · exact Or.inr (Or.inr ⟨y, hy, Or.inr h⟩)
    · exact stop _ h1
  | tryCatch p q ihp ihq =>
    intro env u s
    have h1 := ihp env u s
    rw [exec]
    have stop : ∀ y, Sources p env s y → Sources (p.tryCatch q) env s y := fun y h =>
      ⟨h.next, fun a ha => Or.inl (h.acts a ha), fun k hk => by
        rcases h.released k hk with h | h | ⟨y, hy, h⟩
        · exact Or.inl h
        · exact Or.inr (Or.inl h)
        · exact Or.inr (Or.inr ⟨y, hy, Or.inl h⟩), h.keeps⟩
    rcases hp : exec env u p s with ⟨t, _ | _ | e, s'⟩ <;> rw [hp] at h1
    · exact stop _ h1
    · exact stop _ h1
    · have h2 := ihq env u s'
      have hn := h1.next
      simp only at hn
      refine ⟨Nat.le_trans h1.next h2.next, ?_, ?_, fun k hk => h2.keeps k (h1.keeps k hk)⟩
      · intro a ha
        rcases List.mem_append.1 ha with ha | ha
        · exact Or.inl (h1.acts a ha)
        · exact Or.inr (h2.acts a ha)
      · intro k hk
        rcases h2.released k hk with h | h | ⟨y, hy, h⟩
        · rcases h1.released k h with h | h | ⟨y, hy, h⟩
          · exact Or.inl h
          · exact Or.inr (Or.inl h)
          · exact Or.inr (Or.inr ⟨y, hy, Or.inl h⟩)
        · exact Or.inr (Or.inl (by omega))
        · exact Or.inr (Or.inr ⟨y, hy, Or.inr h⟩)
  | guard x c f rest ihf ihr =>
    intro env u s
    have h1 := ihr (fun y => if y = x then some s.next else env y) u { s with next := s.next + 1 }
    rw [exec]
    simp only
    have relfix : ∀ k, (k ∈ s.released ∨ s.next + 1 ≤ k ∨
        ∃ y, (if y = x then some s.next else env y) = some k ∧ Releases y rest) →
        k ∈ s.released ∨ s.next ≤ k ∨ ∃ y, env y = some k ∧ Releases y (.guard x c f rest) := by
      rintro k (h | h | ⟨y, hy, h⟩)
      · exact Or.inl h
      · exact Or.inr (Or.inl (by omega))
      · split at hy
        · simp at hy; exact Or.inr (Or.inl (by omega))
        · rename_i hyx; exact Or.inr (Or.inr ⟨y, hy, Or.inr ⟨hyx, h⟩⟩)
    rcases hb : exec (fun y => if y = x then some s.next else env y) u rest { s with next := s.next + 1 } with ⟨t, _ | how, s₁⟩
    · rw [hb] at h1
      have hn := h1.next
      simp only at hn
      refine ⟨by simp only; omega, ?_, fun k hk => relfix k (h1.released k hk), h1.keeps⟩
      intro a ha
      simp only [List.mem_cons, reduceCtorEq, false_or] at ha
      exact Or.inr (h1.acts a ha)
    · rw [hb] at h1
      have hn := h1.next
      simp only at hn
      have h2 := ihf env (inFlight u how) s₁
      by_cases hrun : (decide (s.next ∉ s₁.released) && checkExitCondition c (inFlight u how)) = true
      · simp only [hrun, if_true]
        rcases hfe : exec env (inFlight u how) f s₁ with ⟨t', r', s₂⟩
        rw [hfe] at h2
        have hn2 := h2.next
        simp only at hn2
        have hrel : ∀ k, k ∈ s₂.released → k ∈ s.released ∨ s.next ≤ k ∨ ∃ y, env y = some k ∧ Releases y (.guard x c f rest) := by
          intro k hk
          rcases h2.released k hk with h | h | ⟨y, hy, h⟩
          · exact relfix k (h1.released k h)
          · exact Or.inr (Or.inl (by omega))
          · exact Or.inr (Or.inr ⟨y, hy, Or.inl h⟩)
        have hkeep : ∀ k, k ∈ s.released → k ∈ s₂.released := fun k hk => h2.keeps k (h1.keeps k hk)
        rcases r' with _ | _ | e
        · refine ⟨by simp only; omega, ?_, hrel, hkeep⟩
          intro a ha
          have : Event.act a ∈ t ∨ Event.act a ∈ t' := by simpa using ha
          exact this.elim (fun h => Or.inr (h1.acts a h)) (fun h => Or.inl (h2.acts a h))
        · refine ⟨by simp only; omega, ?_, hrel, hkeep⟩
          intro a ha
          have : Event.act a ∈ t ∨ Event.act a ∈ t' := by simpa using ha
          exact this.elim (fun h => Or.inr (h1.acts a h)) (fun h => Or.inl (h2.acts a h))
        · refine ⟨by simp only; omega, ?_, hrel, hkeep⟩
          intro a ha
          have : Event.act a ∈ t ∨ Event.act a ∈ t' := by simpa using ha
          exact this.elim (fun h => Or.inr (h1.acts a h)) (fun h => Or.inl (h2.acts a h))
      · simp only [Bool.not_eq_true] at hrun
        simp only [hrun, Bool.false_eq_true, if_false]
        refine ⟨by simp only; omega, ?_, fun k hk => relfix k (h1.released k hk), h1.keeps⟩
        intro a ha
        have : Event.act a ∈ t := by simpa using ha
        exact Or.inr (h1.acts a this)

theorem mem_actions {a : Nat} {t : List Event} : a ∈ actions t ↔ Event.act a ∈ t := by
  simp only [actions, List.mem_filterMap]
  constructor
  · rintro ⟨e, he, h⟩
    split at h
    · simp at h; subst h; exact he
    · simp at h
  · intro h; exact ⟨_, h, rfl⟩

/-! ### Counting -/

/-- The facts about counts established by induction for programs with `scope_exit` guards
only. -/
structure Counts (env : Nat → Option Nat) (s : State) (x : List Event × Ended × State) : Prop where
  next : s.next ≤ x.2.2.next
  created : ∀ k, createdCount k x.1 = if s.next ≤ k ∧ k < x.2.2.next then 1 else 0
  runsOut : ∀ k, ¬(s.next ≤ k ∧ k < x.2.2.next) → x.1.count (.runs k) = 0
  runsIn : x.2.1 ≠ none → ∀ k, s.next ≤ k ∧ k < x.2.2.next →
    x.1.count (.runs k) = if Event.released k ∈ x.1 then 0 else 1
  rel : ∀ k, Event.released k ∈ x.1 → (∃ y, env y = some k) ∨ (s.next ≤ k ∧ k < x.2.2.next)
  state : ∀ k, k ∈ x.2.2.released ↔ k ∈ s.released ∨ Event.released k ∈ x.1

theorem counts_seq {env : Nat → Option Nat} {s s' : State} {t : List Event} {r : Ended} (hr : r ≠ none)
    (henv : ∀ y k, env y = some k → k < s.next) (h : Counts env s (t, r, s'))
    {y : List Event × Ended × State} (hy : Counts env s' y) :
    Counts env s (t ++ y.1, y.2.1, y.2.2) := by
  have h1 := h.next
  have h2 := hy.next
  simp only at h1
  refine ⟨Nat.le_trans h1 h2, ?_, ?_, ?_, ?_, ?_⟩
  · intro k
    have a := h.created k
    have b := hy.created k
    simp only [createdCount, List.countP_append] at a b ⊢
    rw [a, b]
    by_cases c1 : s.next ≤ k <;> by_cases c2 : k < s'.next <;> by_cases c3 : k < y.2.2.next <;>
      by_cases c4 : s'.next ≤ k <;> simp [c1, c2, c3, c4] <;> omega
  · intro k hk
    simp only at hk
    have a := h.runsOut k (by simp only; omega)
    have b := hy.runsOut k (by omega)
    simp only at a
    simp only [List.count_append, a, b]
  · intro hn k hk
    have henvk : ¬∃ y, env y = some k := by
      rintro ⟨y, hy⟩; have := henv y k hy; omega
    by_cases hlt : k < s'.next
    · have a := h.runsIn hr k ⟨hk.1, hlt⟩
      have b := hy.runsOut k (by omega)
      have c : Event.released k ∉ y.1 := by
        intro hc
        rcases hy.rel k hc with h3 | h3
        · exact henvk h3
        · omega
      simp only at a
      simp only [List.count_append, a, b, List.mem_append, c, or_false, Nat.add_zero]
    · have a := h.runsOut k (by simp only; omega)
      have b := hy.runsIn hn k ⟨by omega, hk.2⟩
      have c : Event.released k ∉ t := by
        intro hc
        rcases h.rel k hc with h3 | h3
        · exact henvk h3
        · simp only at h3; omega
      simp only at a
      simp only [List.count_append, a, b, List.mem_append, c, false_or, Nat.zero_add]
  · intro k hk
    rcases List.mem_append.1 hk with hk | hk
    · rcases h.rel k hk with h3 | h3
      · exact Or.inl h3
      · simp only at h3; exact Or.inr ⟨h3.1, by simp only; omega⟩
    · rcases hy.rel k hk with h3 | h3
      · exact Or.inl h3
      · exact Or.inr ⟨by omega, h3.2⟩
  · intro k
    have a := h.state k
    have b := hy.state k
    simp only at a
    rw [b, a, List.mem_append, or_assoc]

theorem counts_exec (p : Prog) : ∀ (env : Nat → Option Nat) (u : Nat) (s : State), OnlyScopeExit p →
    (∀ y k, env y = some k → k < s.next) → (∀ k ∈ s.released, k < s.next) → Counts env s (exec env u p s) := by
  induction p with
  | act a =>
    intro env u s _ _ _
    rw [exec]
    refine ⟨Nat.le_refl _, fun k => ?_, ?_, ?_, ?_, ?_⟩ <;> simp [createdCount] <;> omega
  | skip =>
    intro env u s _ _ _
    rw [exec]
    refine ⟨Nat.le_refl _, fun k => ?_, ?_, ?_, ?_, ?_⟩ <;> simp [createdCount] <;> omega
  | throw e =>
    intro env u s _ _ _
    rw [exec]
    refine ⟨Nat.le_refl _, fun k => ?_, ?_, ?_, ?_, ?_⟩ <;> simp [createdCount] <;> omega
  | seq p q ihp ihq =>
    intro env u s ho henv hrel
    have hg := ihp env u s ho.1 henv hrel
    rw [exec]
    rcases hp : exec env u p s with ⟨t, _ | _ | e, s'⟩ <;> rw [hp] at hg
    · exact hg
    · refine counts_seq (by simp) henv hg (ihq env u s' ho.2 ?_ ?_)
      · intro y k hy; have := henv y k hy; have := hg.next; simp only at this; omega
      · intro k hk
        have h1 := hg.next
        simp only at h1
        rcases (hg.state k).1 hk with h2 | h2
        · have := hrel k h2; omega
        · rcases hg.rel k h2 with ⟨y, h3⟩ | h3
          · have := henv y k h3; omega
          · exact h3.2
    · exact hg
  | tryCatch p q ihp ihq =>
    intro env u s ho henv hrel
    have hg := ihp env u s ho.1 henv hrel
    rw [exec]
    rcases hp : exec env u p s with ⟨t, _ | _ | e, s'⟩ <;> rw [hp] at hg
    · exact hg
    · exact hg
    · refine counts_seq (by simp) henv hg (ihq env u s' ho.2 ?_ ?_)
      · intro y k hy; have := henv y k hy; have := hg.next; simp only at this; omega
      · intro k hk
        have h1 := hg.next
        simp only at h1
        rcases (hg.state k).1 hk with h2 | h2
        · have := hrel k h2; omega
        · rcases hg.rel k h2 with ⟨y, h3⟩ | h3
          · have := henv y k h3; omega
          · exact h3.2
  | release x =>
    intro env u s _ henv _
    rw [exec]
    rcases hx : env x with _ | j
    · refine ⟨Nat.le_refl _, fun k => ?_, ?_, ?_, ?_, ?_⟩ <;> simp [createdCount] <;> omega
    · have := henv x j hx
      refine ⟨Nat.le_refl _, ?_, ?_, ?_, ?_, ?_⟩
      · intro k; simp [createdCount]
      · intro k _; simp
      · intro _ k hk; simp only at hk; omega
      · intro k hk; simp at hk; subst hk; exact Or.inl ⟨x, hx⟩
      · intro k; simp [or_comm]
  | guard x c f rest ihf ihr =>
    intro env u s ho henv hrel
    obtain ⟨rfl, hof, hor⟩ := ho
    have hg := ihr (fun y => if y = x then some s.next else env y) u { s with next := s.next + 1 } hor
      (by
        intro y k hy
        split at hy
        · simp at hy; simp [hy]
        · have := henv y k hy; simp; omega)
      (by intro k hk; have := hrel k hk; simp; omega)
    have hnr : s.next ∉ s.released := fun hc => Nat.lt_irrefl _ (hrel _ hc)
    have envrel : ∀ k, (∃ y, (if y = x then some s.next else env y) = some k) → k = s.next ∨ ∃ y, env y = some k := by
      rintro k ⟨y, hy⟩
      split at hy
      · simp at hy; exact Or.inl hy.symm
      · exact Or.inr ⟨y, hy⟩
    rw [exec]
    simp only
    rcases hb : exec (fun y => if y = x then some s.next else env y) u rest { s with next := s.next + 1 } with ⟨t, _ | how, s₁⟩
    · rw [hb] at hg
      have hn := hg.next
      simp only at hn
      refine ⟨by simp only; omega, ?_, ?_, fun hc => absurd rfl hc, ?_, ?_⟩
      · intro k
        have := hg.created k
        simp only [createdCount] at this
        simp only [createdCount, List.countP_cons, this, beq_iff_eq]
        by_cases c1 : s.next = k
        · subst c1; simp only [if_true]; split <;> split <;> omega
        · simp [c1]; split <;> split <;> omega
      · intro k hk
        have := hg.runsOut k (by simp only at hk ⊢; omega)
        simp only at this
        simp [this]
      · intro k hk
        simp only [List.mem_cons, reduceCtorEq, false_or] at hk
        rcases hg.rel k hk with h1 | h1
        · rcases envrel k h1 with rfl | h2
          · right; simp only; omega
          · exact Or.inl h2
        · right; simp only at h1 ⊢; omega
      · intro k
        have := hg.state k
        simp only at this
        simp [this]
    · rw [hb] at hg
      have hn := hg.next
      simp only at hn
      have henv1 : ∀ y k, env y = some k → k < s₁.next := by
        intro y k hy; have := henv y k hy; omega
      have hrel1 : ∀ k ∈ s₁.released, k < s₁.next := by
        intro k hk
        rcases (hg.state k).1 hk with h2 | h2
        · have := hrel k h2; omega
        · rcases hg.rel k h2 with h3 | h3
          · rcases envrel k h3 with rfl | ⟨y, h4⟩
            · omega
            · exact henv1 y k h4
          · exact h3.2
      have hst : s.next ∈ s₁.released ↔ Event.released s.next ∈ t := by
        have := hg.state s.next
        simpa [hnr] using this
      have hmemf : ∀ {k : Nat} {t' : List Event} {tl : List Event},
          Event.released k ∈ (.created s.next .all u :: (t ++ .leaving s.next how :: .runs s.next :: t' ++ tl) : List Event) ↔
            Event.released k ∈ t ∨ Event.released k ∈ t' ∨ Event.released k ∈ tl := by
        intro k t' tl; simp
      by_cases hrun : (decide (s.next ∉ s₁.released) && checkExitCondition .all (inFlight u how)) = true
      · simp only [hrun, if_true]
        rw [Bool.and_eq_true, decide_eq_true_eq] at hrun
        have hnt : Event.released s.next ∉ t := fun hc => hrun.1 (hst.2 hc)
        have hgf := ihf env (inFlight u how) s₁ hof henv1 hrel1
        rcases hfe : exec env (inFlight u how) f s₁ with ⟨t', r', s₂⟩
        rw [hfe] at hgf
        have hn2 := hgf.next
        simp only at hn2
        -- facts shared by both ways the function may end; `tl` has no relevant events
        have share : ∀ (tl : List Event) (r : Ended), (∀ k, createdCount k tl = 0) → (∀ k, tl.count (.runs k) = 0) →
            (∀ k, Event.released k ∉ tl) → (r ≠ none → r' ≠ none) →
            Counts env s (.created s.next .all u :: (t ++ .leaving s.next how :: .runs s.next :: t' ++ tl), r, s₂) := by
          intro tl r h1 h2 h3 h4
          refine ⟨by simp only; omega, ?_, ?_, ?_, ?_, ?_⟩
          · intro k
            have a := hg.created k
            have b := hgf.created k
            have c := h1 k
            simp only [createdCount] at a b c
            simp only [createdCount, List.countP_cons, List.countP_append, a, b, c, beq_iff_eq, Bool.false_eq_true, if_false]
            by_cases c1 : s.next = k
            · subst c1; simp only [if_true]; split <;> split <;> split <;> omega
            · simp only [c1, if_false]; split <;> split <;> split <;> omega
          · intro k hk
            simp only at hk
            have a := hg.runsOut k (by simp only; omega)
            have b := hgf.runsOut k (by simp only; omega)
            simp only at a b
            have hne : s.next ≠ k := by intro hc; subst hc; omega
            simp [List.count_append, a, b, h2 k, hne]
          · intro hr k hk
            simp only at hk
            have hr' := h4 hr
            have henvk : ¬∃ y, env y = some k := by
              rintro ⟨y, hy⟩; have := henv y k hy; omega
            by_cases hke : k = s.next
            · subst hke
              have a := hg.runsOut s.next (by simp only; omega)
              have b := hgf.runsOut s.next (by simp only; omega)
              simp only at a b
              have hnt' : Event.released s.next ∉ t' := by
                intro hc
                rcases hgf.rel _ hc with h5 | h5
                · exact henvk h5
                · simp only at h5; omega
              have hmem : ¬(Event.released s.next ∈ t ∨ Event.released s.next ∈ t' ∨ Event.released s.next ∈ tl) := by
                simp [hnt, hnt', h3]
              simp only [hmemf, hmem, if_false]
              simp [List.count_append, a, b, h2]
            · by_cases hlt : k < s₁.next
              · have a := hg.runsIn (by simp) k ⟨by simp only; omega, hlt⟩
                have b := hgf.runsOut k (by simp only; omega)
                simp only at a b
                have hnt' : Event.released k ∉ t' := by
                  intro hc
                  rcases hgf.rel _ hc with h5 | h5
                  · exact henvk h5
                  · simp only at h5; omega
                simp only [hmemf, hnt', h3, or_false]
                simp [List.count_append, a, b, h2, Ne.symm hke]
              · have a := hg.runsOut k (by simp only; omega)
                have b := hgf.runsIn hr' k ⟨by omega, hk.2⟩
                simp only at a b
                have hnt' : Event.released k ∉ t := by
                  intro hc
                  rcases hg.rel _ hc with h5 | h5
                  · rcases envrel k h5 with h6 | h6
                    · exact hke h6
                    · exact henvk h6
                  · simp only at h5; omega
                simp only [hmemf, hnt', h3, or_false, false_or]
                simp [List.count_append, a, b, h2, Ne.symm hke]
          · intro k hk
            rw [hmemf] at hk
            rcases hk with hk | hk | hk
            · rcases hg.rel k hk with h5 | h5
              · rcases envrel k h5 with h6 | h6
                · right; subst h6; simp only; omega
                · exact Or.inl h6
              · right; simp only at h5 ⊢; omega
            · rcases hgf.rel k hk with h5 | h5
              · exact Or.inl h5
              · right; simp only at h5 ⊢; omega
            · exact absurd hk (h3 k)
          · intro k
            have a := hg.state k
            have b := hgf.state k
            simp only at a b
            rw [hmemf, b, a]
            simp [h3, or_assoc]
        rcases r' with _ | _ | e
        · simpa using share [] none (by simp [createdCount]) (by simp) (by simp) (by simp)
        · exact share [.left s.next] (some how) (by simp [createdCount]) (by simp) (by simp) (by simp)
        · simpa using share [] none (by simp [createdCount]) (by simp) (by simp) (by simp)
      · have hrun' : (decide (s.next ∉ s₁.released) && checkExitCondition .all (inFlight u how)) = false := by
          simpa using hrun
        simp only [hrun', Bool.false_eq_true, if_false]
        have hin : Event.released s.next ∈ t := by
          rw [← hst]; simpa [checkExitCondition] using hrun'
        refine ⟨by simp only; omega, ?_, ?_, ?_, ?_, ?_⟩
        · intro k
          have a := hg.created k
          simp only [createdCount] at a
          simp only [createdCount, List.countP_cons, List.countP_append, a, beq_iff_eq, Bool.false_eq_true, if_false, List.countP_nil]
          by_cases c1 : s.next = k
          · subst c1; simp only [if_true]; split <;> split <;> omega
          · simp only [c1, if_false]; split <;> split <;> omega
        · intro k hk
          simp only at hk
          have a := hg.runsOut k (by simp only; omega)
          simp only at a
          simp [List.count_append, a]
        · intro _ k hk
          simp only at hk
          by_cases hke : k = s.next
          · subst hke
            have a := hg.runsOut s.next (by simp only; omega)
            simp only at a
            simp [List.count_append, a, hin]
          · have a := hg.runsIn (by simp) k ⟨by simp only; omega, hk.2⟩
            simp only at a
            simp [List.count_append, a]
        · intro k hk
          have hk : Event.released k ∈ t := by simpa using hk
          rcases hg.rel k hk with h5 | h5
          · rcases envrel k h5 with h6 | h6
            · right; subst h6; simp only; omega
            · exact Or.inl h6
          · right; simp only at h5 ⊢; omega
        · intro k
          have a := hg.state k
          simp only at a
          simp [a]

end Wite.Scope
