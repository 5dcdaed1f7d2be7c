import Mathlib.Tactic.ByContra
import Verif.Lemmas.Scope

/-!
# Properties C52–C54: scope guards
-/

namespace Wite.Props

open Wite.Scope Wite.Spec.Scope

private theorem inv_start : Inv (fun _ => none) ⟨0, []⟩ [] :=
  ⟨rfl, by simp, by simp, by simp⟩

private theorem fits_all (want : Cond → Nat → Exit → Bool) (hw : ∀ u how, want .all u how = true) (p : Prog)
    (h : OnlyScopeExit p) (u : Nat) : Fits want p u := by
  induction p generalizing u with
  | seq p q ihp ihq => exact ⟨ihp h.1 u, ihq h.2 u⟩
  | tryCatch p q ihp ihq => exact ⟨ihp h.1 u, ihq h.2 u⟩
  | guard x c f rest ihf ihr =>
    obtain ⟨rfl, h1, h2⟩ := h
    exact ⟨fun how => hw u how, ihr h2 u, ihf h1 u, ihf h1 (u + 1)⟩
  | _ => trivial

private theorem fits_plain (p : Prog) (h : PlainFunctions p) : Fits documented p 0 := by
  induction p with
  | seq p q ihp ihq => exact ⟨ihp h.1, ihq h.2⟩
  | tryCatch p q ihp ihq => exact ⟨ihp h.1, ihq h.2⟩
  | guard x c f rest ihf ihr =>
    refine ⟨fun how => ?_, ihr h.2, fits_all _ (fun _ _ => rfl) f h.1 0, fits_all _ (fun _ _ => rfl) f h.1 1⟩
    cases c <;> cases how <;> rfl
  | _ => trivial

private theorem run_exec (p : Prog) : run p = ((exec (fun _ => none) 0 p ⟨0, []⟩).1, (exec (fun _ => none) 0 p ⟨0, []⟩).2.1) := rfl

private theorem accepts_of_fits (want : Cond → Nat → Exit → Bool) (p : Prog) (h : Fits want p 0)
    (t : List Event) (how : Exit) (hr : run p = (t, some how)) : Accepts want t := by
  have hg := good_exec want p (fun _ => none) 0 ⟨0, []⟩ [] h inv_start
  rw [run_exec, Prod.mk.injEq] at hr
  have := hg.some (by rw [hr.2]; simp)
  rw [hr.1] at this
  exact this

private theorem prefix_of_fits (want : Cond → Nat → Exit → Bool) (p : Prog) (h : Fits want p 0)
    : AcceptsPrefix want (run p).1 :=
  (good_exec want p (fun _ => none) 0 ⟨0, []⟩ [] h inv_start).pref

/-! ## C52 -/

/-- C52: in every program whose guards are `scope_exit`s and which does not call
`std::terminate`, guards are destroyed in reverse order of declaration, and each runs its
function exactly once, in its destructor, unless it has been released. -/
theorem c52_discipline (p : Prog) (h : OnlyScopeExit p) (t : List Event) (how : Exit)
    (hr : run p = (t, some how)) : Accepts documented t :=
  accepts_of_fits documented p (fits_all _ (fun _ _ => rfl) p h 0) t how hr

/-- C52: the same up to the point where a program terminates because a guard function throws. -/
theorem c52_discipline_terminated (p : Prog) (h : OnlyScopeExit p) : AcceptsPrefix documented (run p).1 :=
  prefix_of_fits documented p (fits_all _ (fun _ _ => rfl) p h 0)

/-- C52: counted over the whole execution, every guard created ran once if it was never
released and not at all if it was. -/
theorem c52_exactly_once (p : Prog) (h : OnlyScopeExit p) (t : List Event) (how : Exit)
    (hr : run p = (t, some how)) (k u : Nat) (c : Cond) (hk : Event.created k c u ∈ t) :
    t.count (.runs k) = if Event.released k ∈ t then 0 else 1 := by
  have hg := counts_exec p (fun _ => none) 0 ⟨0, []⟩ h (by simp) (by simp)
  rw [run_exec, Prod.mk.injEq] at hr
  have hin := hg.runsIn (by rw [hr.2]; simp) k
  have hc := hg.created k
  rw [hr.1] at hin hc
  apply hin
  by_contra hn
  rw [if_neg hn] at hc
  have : 0 < createdCount k t := List.countP_pos_iff.2 ⟨_, hk, by simp⟩
  omega

/-- C52: every guard of the trace is created once, so the serial numbers identify guards, and
nothing runs that was not created. -/
theorem c52_identified (p : Prog) (h : OnlyScopeExit p) (k : Nat) :
    createdCount k (run p).1 ≤ 1 ∧ (createdCount k (run p).1 = 0 → (run p).1.count (.runs k) = 0) := by
  have hg := counts_exec p (fun _ => none) 0 ⟨0, []⟩ h (by simp) (by simp)
  have hc := hg.created k
  have ho := hg.runsOut k
  rw [run_exec]
  simp only
  by_cases hn : (⟨0, []⟩ : State).next ≤ k ∧ k < (exec (fun _ => none) 0 p ⟨0, []⟩).2.2.next
  · rw [if_pos hn] at hc; omega
  · rw [if_neg hn] at hc; exact ⟨by omega, fun _ => ho hn⟩

/-- C52: the function really is what runs: whatever is done after the declaration of a guard with the
action `a`, as long as it does not release the guard and the program does not terminate, `a` happens
exactly once, and last. -/
theorem c52_function_runs (x a : Nat) (rest : Prog) (hr : ¬Releases x rest) (hm : ¬Mentions a rest)
    (t : List Event) (how : Exit) (h : run (.guard x .all (.act a) rest) = (t, some how)) :
    ∃ before, actions t = before ++ [a] ∧ a ∉ before := by
  rw [run_exec, Prod.mk.injEq] at h
  have hs := sources_exec rest (fun y => if y = x then some 0 else none) 0 ⟨1, []⟩
  simp only [exec] at h
  rcases hb : exec (fun y => if y = x then some 0 else none) 0 rest ⟨1, []⟩ with ⟨t₁, _ | how₁, s₁⟩
  · have hb' : exec (fun y => if y = x then some 0 else none) 0 rest ⟨0 + 1, []⟩ = (t₁, none, s₁) := hb
    simp [hb'] at h
  · have hb' : exec (fun y => if y = x then some 0 else none) 0 rest ⟨0 + 1, []⟩ = (t₁, some how₁, s₁) := hb
    rw [hb] at hs
    have hnr : 0 ∉ s₁.released := by
      intro hc
      rcases hs.released 0 hc with h1 | h1 | ⟨y, hy, h1⟩
      · simp at h1
      · simp at h1
      · split at hy
        · rename_i hyx; subst hyx; exact hr h1
        · simp at hy
    simp only [hb', hnr, not_false_eq_true, decide_true, checkExitCondition, Bool.and_self, if_true] at h
    obtain ⟨rfl, _⟩ := h
    refine ⟨actions t₁, ?_, fun hc => hm (hs.acts a (mem_actions.1 hc))⟩
    simp [actions]

/-- C52: a released guard never runs: if control reaches `x.release()`, the function does not run,
whatever is done before and after. -/
theorem c52_release (x a : Nat) (c : Cond) (p q : Prog) (hp : ¬Mentions a p) (hq : ¬Mentions a q)
    (reached : (exec (fun y => if y = x then some 0 else none) 0 p ⟨1, []⟩).2.1 = some .normal) :
    a ∉ actions (run (.guard x c (.act a) (.seq p (.seq (.release x) q)))).1 := by
  rw [mem_actions]
  intro hin
  rw [run_exec] at hin
  rcases hb : exec (fun y => if y = x then some 0 else none) 0 p ⟨1, []⟩ with ⟨t₁, r₁, s₁⟩
  rw [hb] at reached
  simp only at reached
  subst reached
  have hs := sources_exec p (fun y => if y = x then some 0 else none) 0 ⟨1, []⟩
  have hs2 := sources_exec q (fun y => if y = x then some 0 else none) 0 { s₁ with released := 0 :: s₁.released }
  rw [hb] at hs
  have hb' : exec (fun y => if y = x then some 0 else none) 0 p ⟨0 + 1, []⟩ = (t₁, some .normal, s₁) := hb
  rcases hc : exec (fun y => if y = x then some 0 else none) 0 q { s₁ with released := 0 :: s₁.released } with ⟨t₂, r₂, s₂⟩
  rw [hc] at hs2
  have h1 : Event.act a ∉ t₁ := fun h => hp (hs.acts a h)
  have h2 : Event.act a ∉ t₂ := fun h => hq (hs2.acts a h)
  have h3 : 0 ∈ s₂.released := hs2.keeps 0 (by simp)
  have hseq : exec (fun y => if y = x then some 0 else none) 0 (.seq p (.seq (.release x) q)) ⟨0 + 1, []⟩ =
      (t₁ ++ .released 0 :: t₂, r₂, s₂) := by
    rw [exec, hb']
    simp only [exec, if_true, hc]
    rfl
  rw [exec] at hin
  simp only at hin
  rw [hseq] at hin
  rcases r₂ with _ | how
  · simp [h1, h2] at hin
  · simp only [h3, not_true_eq_false, decide_false, Bool.false_and, Bool.false_eq_true, if_false] at hin
    simp [h1, h2] at hin

/-- A sample: two guards, the first released by the second's function, and an exception. -/
private def samp : Prog :=
  .tryCatch (.guard 0 .all (.act 10) (.guard 1 .all (.seq (.act 11) (.release 0)) (.guard 2 .all (.act 12) (.throw 5)))) (.act 13)

example : run samp =
    ([.created 0 .all 0, .created 1 .all 0, .created 2 .all 0,
      .leaving 2 (.exceptional 5), .runs 2, .act 12, .left 2,
      .leaving 1 (.exceptional 5), .runs 1, .act 11, .released 0, .left 1,
      .leaving 0 (.exceptional 5), .left 0, .act 13], some .normal) := by decide

example : OnlyScopeExit samp := by simp [samp, OnlyScopeExit]

/-- The monitor rejects a guard that runs twice, one that does not run, and destruction in order
of declaration. -/
example : ¬Accepts documented [.created 0 .all 0, .leaving 0 .normal, .runs 0, .runs 0, .left 0] ∧
    ¬Accepts documented [.created 0 .all 0, .leaving 0 .normal, .left 0] ∧
    ¬Accepts documented [.created 0 .all 0, .created 1 .all 0, .leaving 0 .normal, .runs 0, .left 0, .leaving 1 .normal,
      .runs 1, .left 1] := by unfold Accepts; decide

/-! ## C53 -/

/-- A scope left normally inside a guard function that runs during stack unwinding. -/
private def unwinding (c : Cond) : Prog :=
  .tryCatch (.guard 0 .all (.guard 1 c (.act 7) (.act 1)) (.throw 5)) .skip

/-- C53 is false: a `scope_success` guard in code run by a destructor during stack unwinding does
not run although its scope is left normally. -/
theorem c53_refuted_success : ∃ p t, run p = (t, some .normal) ∧
    Event.created 1 .success 1 ∈ t ∧ Event.leaving 1 .normal ∈ t ∧ Event.released 1 ∉ t ∧ Event.runs 1 ∉ t :=
  ⟨unwinding .success, _, rfl, by decide, by decide, by decide, by decide⟩

/-- C53 is false: there a `scope_fail` guard runs although its scope is left normally. -/
theorem c53_refuted_fail : ∃ p t, run p = (t, some .normal) ∧
    Event.created 1 .fail 1 ∈ t ∧ Event.leaving 1 .normal ∈ t ∧ Event.runs 1 ∈ t :=
  ⟨unwinding .fail, _, rfl, by decide, by decide, by decide⟩

/-- C53 is false for every guard in code that a destructor runs during stack unwinding (`u` is the number of exceptions in flight): if its scope
is left normally, the function of a `scope_success` guard does not run, and that of a `scope_fail` guard that was not released does. -/
theorem c53_refuted_everywhere (env : Nat → Option Nat) (u x : Nat) (f rest : Prog) (s s₁ : State) (t : List Event) (hu : u > 0)
    (hrest : exec (fun y => if y = x then some s.next else env y) u rest { s with next := s.next + 1 } = (t, some .normal, s₁)) :
    exec env u (.guard x .success f rest) s =
      (.created s.next .success u :: (t ++ [.leaving s.next .normal, .left s.next]), some .normal, s₁) ∧
    (s.next ∉ s₁.released → ∃ t', (exec env u (.guard x .fail f rest) s).1 =
      .created s.next .fail u :: (t ++ .leaving s.next .normal :: .runs s.next :: t')) := by
  have hu' : u ≠ 0 := by omega
  refine ⟨by simp [exec, hrest, inFlight, checkExitCondition, hu'], fun hr => ?_⟩
  simp only [exec, hrest, inFlight, checkExitCondition, hr, hu, not_false_eq_true, decide_true, Bool.and_self, if_true]
  rcases exec env u f s₁ with ⟨t', _ | (_ | e), s₂⟩
  · exact ⟨t', rfl⟩
  · exact ⟨t' ++ [.left s.next], by simp⟩
  · exact ⟨t', rfl⟩

/- A guard function during unwinding whose scope is left normally: the `scope_success` guard in it does not run, the `scope_fail` guard does. -/
example : (exec (fun _ => none) 1 (.guard 1 .success (.act 7) (.act 1)) ⟨1, []⟩).1 = [.created 1 .success 1, .act 1, .leaving 1 .normal, .left 1] ∧
    (exec (fun _ => none) 1 (.guard 1 .fail (.act 7) (.act 1)) ⟨1, []⟩).1 =
      [.created 1 .fail 1, .act 1, .leaving 1 .normal, .runs 1, .act 7, .left 1] := by decide

/-- C53: hence the documented behaviour fails for some program. -/
theorem c53_refuted : ¬∀ p t how, run p = (t, some how) → Accepts documented t := by
  intro h
  have := h (unwinding .success) _ _ rfl
  revert this
  unfold Accepts
  decide

/-- C53, what holds: in programs whose guard functions declare only `scope_exit` guards, so that no
`scope_success` or `scope_fail` scope is left during unwinding, each such guard runs exactly
according to the way its scope is left. -/
theorem c53_plain_partial (p : Prog) (h : PlainFunctions p) (t : List Event) (how : Exit)
    (hr : run p = (t, some how)) : Accepts documented t :=
  accepts_of_fits documented p (fits_plain p h) t how hr

/-- C53, what the code does in every program: the condition is whether any exception is in flight
when the destructor runs, including those in flight before the guard was created. -/
def inFlightRule (c : Cond) (uncaught : Nat) (how : Exit) : Bool :=
  match c with
  | .all => true
  | .success => uncaught == 0 && how == .normal
  | .fail => uncaught != 0 || how != .normal

private theorem fits_rule (p : Prog) (u : Nat) : Fits inFlightRule p u := by
  induction p generalizing u with
  | seq p q ihp ihq => exact ⟨ihp u, ihq u⟩
  | tryCatch p q ihp ihq => exact ⟨ihp u, ihq u⟩
  | guard x c f rest ihf ihr =>
    refine ⟨fun how => ?_, ihr u, ihf u, ihf (u + 1)⟩
    cases c <;> cases how <;> simp [inFlightRule, checkExitCondition, inFlight, Nat.pos_iff_ne_zero, bne]
    · cases u <;> simp
  | _ => trivial

theorem c53_every_program_partial (p : Prog) (t : List Event) (how : Exit) (hr : run p = (t, some how)) :
    Accepts inFlightRule t :=
  accepts_of_fits inFlightRule p (fits_rule p 0) t how hr

/-- C53: the rule followed agrees with the documentation for a guard exactly if it is a
`scope_exit` or was created with no exception in flight. -/
theorem c53_rule_documented_partial (c : Cond) (u : Nat) :
    (∀ how, inFlightRule c u how = documented c u how) ↔ c = .all ∨ u = 0 := by
  constructor
  · intro h
    cases c with
    | all => exact Or.inl rfl
    | success => have := h .normal; simp [inFlightRule, documented] at this; exact Or.inr this
    | fail => have := h .normal; simp [inFlightRule, documented] at this; exact Or.inr this
  · rintro (rfl | rfl) how
    · rfl
    · cases c <;> cases how <;> rfl

example : run (.tryCatch (.guard 0 .fail (.act 1) (.guard 1 .success (.act 2) (.throw 5))) (.guard 2 .success (.act 3) .skip)) =
    ([.created 0 .fail 0, .created 1 .success 0, .leaving 1 (.exceptional 5), .left 1,
      .leaving 0 (.exceptional 5), .runs 0, .act 1, .left 0,
      .created 2 .success 0, .leaving 2 .normal, .runs 2, .act 3, .left 2], some .normal) := by decide

/-- A guard function that throws terminates the program, also while the scope is left normally. -/
theorem c52_throwing_function (x e : Nat) :
    (run (.tryCatch (.guard x .all (.throw e) .skip) .skip)).2 = none := by
  simp [run, exec, checkExitCondition]

/-! ## C54 -/

/-- C54 is false: with a function that survives being moved from, such as a function pointer, it
runs twice after `a = std::move(b)`, once from each guard, and the function `a` had never runs. -/
theorem c54_refuted (Fn : Type) (f g : Fn) :
    Guard.leave (Guard.moveAssign id (Guard.make g) (Guard.make f)) = [f, f] := rfl

/-- C54: the same after copy assignment, which the class also allows. -/
theorem c54_refuted_copy (Fn : Type) (f g : Fn) :
    Guard.leave (Guard.copyAssign (Guard.make g) (Guard.make f)) = [f, f] := rfl

/-- C54: in general the moved-from function is invoked as well, whatever moving has left of it, and
the target's old function is lost. -/
theorem c54_assigned_partial (Fn : Type) (moved : Fn → Fn) (f g : Fn) :
    Guard.leave (Guard.moveAssign moved (Guard.make g) (Guard.make f)) = [moved f, f] := rfl

/-- C54, what holds: if the source is released after the assignment, or had been released
before, the assigned function runs once respectively nothing runs. -/
theorem c54_released_partial (Fn : Type) (moved : Fn → Fn) (a b : Guard Fn) :
    Guard.leave ((Guard.moveAssign moved a b).1, Guard.release (Guard.moveAssign moved a b).2) = b.toList ∧
    Guard.leave (Guard.moveAssign moved a (Guard.release b)) = [] := by
  cases b <;> exact ⟨rfl, rfl⟩

example : (Guard.leave (Guard.moveAssign id (Guard.make 1) (Guard.make 2))).count 2 = 2 ∧
    (Guard.leave (Guard.moveAssign id (Guard.make 1) (Guard.make 2))).count 1 = 0 := by decide

end Wite.Props
