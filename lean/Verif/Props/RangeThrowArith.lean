import Verif.Model.RangeThrowArith
import Verif.Props.RangeThrow

/-!
# C195 for the functions that compute
-/

namespace Wite.Props

open Wite Wite.Maths Wite.Maths.RangeThrow

variable {α δ : Type} {lb hb : Boundary} [LinearOrder α]

/-- What a call that computes returns if nothing throws. -/
def computed (A : Arith α δ) (b : Build) (r : ValueRange α lb hb) : Computes α → α ⊕ δ
  | .size => Sum.inl (A.sub r.hi r.lo)
  | .width => Sum.inl (A.sub r.hi r.lo)
  | .mid => Sum.inl (A.sub r.hi (A.half (A.sub r.hi r.lo)))
  | .interpolate x => Sum.inl (A.add r.lo (A.fromDouble (A.scale (A.toDouble x) (A.sub r.hi r.lo))))
  | .fraction x => Sum.inr (if r.lo = r.hi then A.nan b else A.over (A.toDouble (A.sub x r.lo)) (A.sub r.hi r.lo))

/-- The operations that a call that computes performs, one after another, each marked with whether its exception ends the program. -/
def computing (b : Build) (r : ValueRange α lb hb) : Computes α → List (Ev × Bool)
  | .size => checks b ++ [(.arith, sealed b)]
  | .width => checks b ++ [(.arith, sealed b)]
  | .mid => (checks b).map (fun p => (p.1, true)) ++ [(.arith, true), (.arith, true), (.arith, true)]
  | .interpolate _ => (.copy, false) :: [.arith, .copy, .copy, .arith, .arith, .arith, .arith].map (·, true)
  | .fraction _ => (.copy, false) :: [.copy, .copy, .copy, .compare].map (·, true) ++
      if r.lo = r.hi then [] else [.arith, .arith, .arith, .arith].map (·, true)

/-- `size`, `width` and `mid` assert that the range is in order. -/
def wantsOrder : Computes α → Bool
  | .size => true
  | .width => true
  | .mid => true
  | _ => false

private theorem performs_size (T : Throws α) (A : Arith α δ) (b : Build) (w : World α lb hb) (hw : w.bounds.lo ≤ w.bounds.hi) :
    Performs T (sizeV T A b) w (checks b ++ [(.arith, sealed b)]) (A.sub w.bounds.hi w.bounds.lo)
      (later w (checks b ++ [(Ev.arith, sealed b)]).length) := by
  have h1 : Performs T (assertCompare T b (decide (w.bounds.lo ≤ w.bounds.hi)) "value_range min should be <= max" >>= fun _ =>
      op T .arith >>= fun _ => pure (A.sub w.bounds.hi w.bounds.lo)) w (asserted b ++ ([(.arith, false)] ++ []))
      (A.sub w.bounds.hi w.bounds.lo) (later (later (later w (asserted b).length) 1) 0) :=
    performs_bind (performs_assert T w b _ (decide_eq_true hw) _) (performs_bind (performs_op T _ .arith) (performs_pure T _ _))
  have h2 := performs_release b (performs_get (f := fun w => assertCompare T b (decide (w.bounds.lo ≤ w.bounds.hi))
    "value_range min should be <= max" >>= fun _ => op T .arith >>= fun _ => pure (A.sub w.bounds.hi w.bounds.lo)) h1)
  cases b <;> exact h2

/-- C195 for the functions that compute: they perform the operations `computing` one after another and return `computed` if none throws; an
exception of the argument's copy reaches the caller, in debug builds with exceptions also those of `size` and `width`; every other exception
ends the program.  The bounds and the value are as before. -/
theorem c195_computes_partial (T : Throws α) (A : Arith α δ) (b : Build) (c : Computes α) (w : World α lb hb)
    (h : wantsOrder c = true → w.bounds.lo ≤ w.bounds.hi) :
    Performs T (c.run T A b) w (computing b w.bounds c) (computed A b w.bounds c)
      { w with done := w.done + (computing b w.bounds c).length } := by
  cases c with
  | size => exact performs_bind_end Sum.inl (performs_size T A b w (h rfl))
  | width =>
    have h1 := performs_bind_end (Sum.inl (β := δ)) (performs_release b (performs_size T A b w (h rfl)))
    cases b <;> exact h1
  | mid =>
    have h1 := performs_nothrow (performs_get (f := fun w => sizeV T A b >>= fun s => op T .arith >>= fun _ => op T .arith >>= fun _ =>
      pure (A.sub w.bounds.hi (A.half s))) (performs_bind (performs_size T A b w (h rfl)) (performs_bind (performs_op T _ .arith)
        (performs_bind (performs_op T _ .arith) (performs_pure T _ _)))))
    have h2 := performs_bind_end (Sum.inl (β := δ)) h1
    cases b <;> exact h2
  | interpolate x =>
    have h0 : Performs T (op T .arith >>= fun _ => op T .arith >>= fun _ => op T .arith >>= fun _ => op T .arith >>= fun _ =>
        pure (A.add w.bounds.lo (A.fromDouble (A.scale (A.toDouble x) (A.sub w.bounds.hi w.bounds.lo))))) (later w 4)
        [(.arith, false), (.arith, false), (.arith, false), (.arith, false)] _ (later w 8) :=
      performs_bind (performs_op T (later w 4) .arith) (performs_bind (performs_op T _ .arith) (performs_bind (performs_op T _ .arith)
        (performs_bind (performs_op T _ .arith) (performs_pure T _ _))))
    have h1 := performs_inside (l' := [.arith, .arith, .arith, .arith].map (·, true)) h0 rfl
    have h2 := performs_inside (l' := [.arith, .copy, .copy, .arith, .arith, .arith, .arith].map (·, true))
      (performs_get (f := fun w => op T .arith >>= fun _ => op T .copy >>= fun _ => op T .copy >>= fun _ =>
        interpolateFn T A (A.toDouble x) w.bounds.lo w.bounds.hi) (performs_bind (performs_op T (later w 1) .arith)
        (performs_bind (performs_op T _ .copy) (performs_bind (performs_op T _ .copy) h1)))) rfl
    exact performs_copied (performs_bind_end Sum.inl h2)
  | fraction x =>
    by_cases he : w.bounds.lo = w.bounds.hi
    · have hb : (w.bounds.hi == w.bounds.lo) = true := by simp [he]
      have h1 := performs_inside (l' := [.compare].map (·, true)) (performs_bind (performs_compare T (later w 4) (w.bounds.hi == w.bounds.lo)) (f := fun q => if q then
        pure (A.nan b) else op T .arith >>= fun _ => op T .arith >>= fun _ => op T .arith >>= fun _ => op T .arith >>= fun _ =>
          pure (A.over (A.toDouble (A.sub x w.bounds.lo)) (A.sub w.bounds.hi w.bounds.lo))) (l' := []) (w' := later w 5) (c := A.nan b)
        (by simp only [hb, if_true]; exact performs_pure T _ _)) rfl
      have h2 := performs_inside (l' := [.copy, .copy, .copy, .compare].map (·, true))
        (performs_get (f := fun w => op T .copy >>= fun _ => op T .copy >>= fun _ => op T .copy >>= fun _ =>
          fractionFn T A b x w.bounds.lo w.bounds.hi) (performs_bind (performs_op T (later w 1) .copy)
          (performs_bind (performs_op T _ .copy) (performs_bind (performs_op T _ .copy) h1)))) rfl
      simp only [computed, computing, he, if_true]
      rw [List.append_nil]
      exact performs_copied (performs_bind_end Sum.inr h2)
    · have hb : (w.bounds.hi == w.bounds.lo) = false := by simp [Ne.symm he]
      have h1 := performs_inside (l' := [.compare, .arith, .arith, .arith, .arith].map (·, true)) (performs_bind (performs_compare T (later w 4) (w.bounds.hi == w.bounds.lo)) (f := fun q => if q then
        pure (A.nan b) else op T .arith >>= fun _ => op T .arith >>= fun _ => op T .arith >>= fun _ => op T .arith >>= fun _ =>
          pure (A.over (A.toDouble (A.sub x w.bounds.lo)) (A.sub w.bounds.hi w.bounds.lo)))
        (l' := [(.arith, false), (.arith, false), (.arith, false), (.arith, false)]) (w' := later w 9)
        (c := A.over (A.toDouble (A.sub x w.bounds.lo)) (A.sub w.bounds.hi w.bounds.lo))
        (by
          simp only [hb]
          exact performs_bind (performs_op T _ .arith) (performs_bind (performs_op T _ .arith) (performs_bind (performs_op T _ .arith)
            (performs_bind (performs_op T _ .arith) (performs_pure T _ _)))))) rfl
      have h2 := performs_inside (l' := [.copy, .copy, .copy, .compare, .arith, .arith, .arith, .arith].map (·, true))
        (performs_get (f := fun w => op T .copy >>= fun _ => op T .copy >>= fun _ => op T .copy >>= fun _ =>
          fractionFn T A b x w.bounds.lo w.bounds.hi) (performs_bind (performs_op T (later w 1) .copy)
          (performs_bind (performs_op T _ .copy) (performs_bind (performs_op T _ .copy) h1)))) rfl
      simp only [computed, computing, he, if_false]
      exact performs_copied (performs_bind_end Sum.inr h2)

/-- C195 is false for the functions that compute: if arithmetic throws, `mid`, `interpolate` and `fraction` of a range that is not empty end
the program in every build, and `size` and `width` do except in debug builds with exceptions, where the exception reaches the caller. -/
theorem c195_refuted_arith (T : Throws α) (A : Arith α δ) (b : Build) (c : Computes α) (w : World α lb hb) (hw : w.bounds.lo < w.bounds.hi)
    (hcopy : ∀ n, T.fails .copy n = none) (hcmp : ∀ n, T.fails .compare n = none) (har : ∀ n, T.fails .arith n ≠ none) :
    (((c.run T A b).run w).1 = .terminate ↔ ¬(b = .debug ∧ (c = .size ∨ c = .width))) ∧
    ((∃ e, ((c.run T A b).run w).1 = .throw e) ↔ b = .debug ∧ (c = .size ∨ c = .width)) := by
  have h1 := c195_computes_partial T A b c w (fun _ => hw.le)
  have hx : ∀ n, ∃ e, T.fails .arith n = some e := fun n => Option.ne_none_iff_exists'.mp (har n)
  obtain ⟨e0, he0⟩ := hx w.done
  obtain ⟨e1, he1⟩ := hx (w.done + 1)
  obtain ⟨e5, he5⟩ := hx (w.done + 1 + 1 + 1 + 1 + 1)
  cases c <;> cases b <;>
    simp [Performs, computing, checks, sealed, firstFailure, hcopy, hcmp, he0, he1, he5, hw.ne] at h1 ⊢ <;> simp [h1]

/-- The range is not in order, so an assertion fails: `size` and `width` throw it in debug builds with exceptions, `mid` ends the program also
there. -/
theorem c195_disorder (T : Throws α) (A : Arith α δ) (c : Computes α) (w : World α lb hb) (hc : wantsOrder c = true)
    (hw : w.bounds.hi < w.bounds.lo) (hcmp : T.fails .compare w.done = none) :
    ((c.run T A .aborting).run w).1 = .terminate ∧
    ((c.run T A .debug).run w).1 =
      if c = .mid then .terminate else .throw (.assertion "value_range min should be <= max") := by
  have hn : ¬ w.bounds.lo ≤ w.bounds.hi := not_le.mpr hw
  cases c <;> cases hc <;>
    simp [Computes.run, sizeV, widthV, midV, releaseNoexcept, nothrow_run, assertCompare, compareOp, St.run_bind, op_run, hcmp, hn, debugAssert, noexcept]

/-- What the setter of an open bound does before the assignment: the argument is copied by the caller, and the assertion copies, computes and
compares. -/
def openSetterOperations (b : Build) : List (Ev × Bool) :=
  match b with
  | .release => [(.copy, false)]
  | .debug => [(.copy, false), (.copy, false), (.arith, true), (.compare, true)]
  | .aborting => [(.copy, false), (.copy, true), (.arith, true), (.compare, true)]

/-- C195, the setter `min(x)` of a range open below, where the value after the new bound is not above the maximum: exceptions of the
argument's copy reach the caller and change nothing; exceptions of the assignment, and in the assertion of the copy, reach the caller only in
debug builds with exceptions, and the assignment leaves what it leaves of the bound; all others end the program. -/
theorem c195_set_min_open_partial (T : Throws α) (A : Arith α δ) (b : Build) (x : α) (w : World α .opened hb)
    (h : A.succ x < w.bounds.hi ∨ hb = .closed ∧ A.succ x = w.bounds.hi) :
    match firstFailure T w.done (openSetterOperations b) with
    | some (_, _, true) => ((callSetMinOpen T A b x).run w).1 = .terminate
    | some (n, e, false) => (callSetMinOpen T A b x).run w = (.throw e, { w with done := n + 1 })
    | none =>
      match T.fails .assign (w.done + (openSetterOperations b).length) with
      | none => (callSetMinOpen T A b x).run w =
          (.ok ⟨⟩, { w with done := w.done + (openSetterOperations b).length + 1, bounds := { w.bounds with lo := x } })
      | some e =>
        if b = .debug then (callSetMinOpen T A b x).run w =
          (.throw e, { w with done := w.done + (openSetterOperations b).length + 1, bounds := { w.bounds with lo := T.torn w.bounds.lo x } })
        else ((callSetMinOpen T A b x).run w).1 = .terminate := by
  have ha : w.bounds.aboveMax (A.succ x) = false := by
    rcases h with h | ⟨rfl, h⟩
    · cases hb <;> simp [ValueRange.aboveMax, h.le, h]
    · simp [ValueRange.aboveMax, h]
  cases b <;> simp only [openSetterOperations, firstFailure] <;> cases h0 : T.fails .copy w.done
  case release.none =>
    cases h3 : T.fails .assign (w.done + 1) <;>
      simp [callSetMinOpen, setMinOpenV, releaseNoexcept, nothrow_run, St.run_bind, op_run, assignMin_run, noexcept, h0, h3]
  case debug.none =>
    cases h1 : T.fails .copy (w.done + 1)
    case some => simp [callSetMinOpen, setMinOpenV, releaseNoexcept, St.run_bind, op_run, h0, h1]
    case none =>
      cases h2 : T.fails .arith (w.done + 1 + 1)
      case some => simp [callSetMinOpen, setMinOpenV, releaseNoexcept, nextValueV, nothrow_run, St.run_bind, op_run, noexcept, h0, h1, h2]
      case none =>
        cases h4 : T.fails .compare (w.done + 1 + 1 + 1)
        case some => simp [callSetMinOpen, setMinOpenV, releaseNoexcept, nextValueV, aboveMaxV, compareOp, nothrow_run, St.run_bind, op_run, noexcept, h0, h1, h2, h4]
        case none =>
          cases h3 : T.fails .assign (w.done + 1 + 1 + 1 + 1) <;>
            simp [callSetMinOpen, setMinOpenV, releaseNoexcept, nextValueV, aboveMaxV, compareOp, nothrow_run, St.run_bind, op_run, assignMin_run, noexcept,
              debugAssert, ha, h0, h1, h2, h3, h4]
  case aborting.none =>
    cases h1 : T.fails .copy (w.done + 1)
    case some => simp [callSetMinOpen, setMinOpenV, releaseNoexcept, nothrow_run, St.run_bind, op_run, noexcept, h0, h1]
    case none =>
      cases h2 : T.fails .arith (w.done + 1 + 1)
      case some => simp [callSetMinOpen, setMinOpenV, releaseNoexcept, nextValueV, nothrow_run, St.run_bind, op_run, noexcept, h0, h1, h2]
      case none =>
        cases h4 : T.fails .compare (w.done + 1 + 1 + 1)
        case some => simp [callSetMinOpen, setMinOpenV, releaseNoexcept, nextValueV, aboveMaxV, compareOp, nothrow_run, St.run_bind, op_run, noexcept, h0, h1, h2, h4]
        case none =>
          cases h3 : T.fails .assign (w.done + 1 + 1 + 1 + 1) <;>
            simp [callSetMinOpen, setMinOpenV, releaseNoexcept, nextValueV, aboveMaxV, compareOp, nothrow_run, St.run_bind, op_run, assignMin_run, noexcept,
              debugAssert, ha, h0, h1, h2, h3, h4]
  all_goals simp [callSetMinOpen, St.run_bind, op_run, h0]

/-- C195, the setter `max(x)` of a range open above, where the value before the new bound is not below the minimum: exceptions of the
argument's copy reach the caller and change nothing; exceptions of the assignment, and in the assertion of the copy, reach the caller only in
debug builds with exceptions, and the assignment leaves what it leaves of the bound; all others end the program. -/
theorem c195_set_max_open_partial (T : Throws α) (A : Arith α δ) (b : Build) (x : α) (w : World α lb .opened)
    (h : w.bounds.lo < A.pred x ∨ lb = .closed ∧ A.pred x = w.bounds.lo) :
    match firstFailure T w.done (openSetterOperations b) with
    | some (_, _, true) => ((callSetMaxOpen T A b x).run w).1 = .terminate
    | some (n, e, false) => (callSetMaxOpen T A b x).run w = (.throw e, { w with done := n + 1 })
    | none =>
      match T.fails .assign (w.done + (openSetterOperations b).length) with
      | none => (callSetMaxOpen T A b x).run w =
          (.ok ⟨⟩, { w with done := w.done + (openSetterOperations b).length + 1, bounds := { w.bounds with hi := x } })
      | some e =>
        if b = .debug then (callSetMaxOpen T A b x).run w =
          (.throw e, { w with done := w.done + (openSetterOperations b).length + 1, bounds := { w.bounds with hi := T.torn w.bounds.hi x } })
        else ((callSetMaxOpen T A b x).run w).1 = .terminate := by
  have ha : w.bounds.belowMin (A.pred x) = false := by
    rcases h with h | ⟨rfl, h⟩
    · cases lb <;> simp [ValueRange.belowMin, h.le, h]
    · simp [ValueRange.belowMin, h]
  cases b <;> simp only [openSetterOperations, firstFailure] <;> cases h0 : T.fails .copy w.done
  case release.none =>
    cases h3 : T.fails .assign (w.done + 1) <;>
      simp [callSetMaxOpen, setMaxOpenV, releaseNoexcept, nothrow_run, St.run_bind, op_run, assignMax_run, noexcept, h0, h3]
  case debug.none =>
    cases h1 : T.fails .copy (w.done + 1)
    case some => simp [callSetMaxOpen, setMaxOpenV, releaseNoexcept, St.run_bind, op_run, h0, h1]
    case none =>
      cases h2 : T.fails .arith (w.done + 1 + 1)
      case some => simp [callSetMaxOpen, setMaxOpenV, releaseNoexcept, prevValueV, nothrow_run, St.run_bind, op_run, noexcept, h0, h1, h2]
      case none =>
        cases h4 : T.fails .compare (w.done + 1 + 1 + 1)
        case some => simp [callSetMaxOpen, setMaxOpenV, releaseNoexcept, prevValueV, belowMinV, compareOp, nothrow_run, St.run_bind, op_run, noexcept, h0, h1, h2, h4]
        case none =>
          cases h3 : T.fails .assign (w.done + 1 + 1 + 1 + 1) <;>
            simp [callSetMaxOpen, setMaxOpenV, releaseNoexcept, prevValueV, belowMinV, compareOp, nothrow_run, St.run_bind, op_run, assignMax_run, noexcept,
              debugAssert, ha, h0, h1, h2, h3, h4]
  case aborting.none =>
    cases h1 : T.fails .copy (w.done + 1)
    case some => simp [callSetMaxOpen, setMaxOpenV, releaseNoexcept, nothrow_run, St.run_bind, op_run, noexcept, h0, h1]
    case none =>
      cases h2 : T.fails .arith (w.done + 1 + 1)
      case some => simp [callSetMaxOpen, setMaxOpenV, releaseNoexcept, prevValueV, nothrow_run, St.run_bind, op_run, noexcept, h0, h1, h2]
      case none =>
        cases h4 : T.fails .compare (w.done + 1 + 1 + 1)
        case some => simp [callSetMaxOpen, setMaxOpenV, releaseNoexcept, prevValueV, belowMinV, compareOp, nothrow_run, St.run_bind, op_run, noexcept, h0, h1, h2, h4]
        case none =>
          cases h3 : T.fails .assign (w.done + 1 + 1 + 1 + 1) <;>
            simp [callSetMaxOpen, setMaxOpenV, releaseNoexcept, prevValueV, belowMinV, compareOp, nothrow_run, St.run_bind, op_run, assignMax_run, noexcept,
              debugAssert, ha, h0, h1, h2, h3, h4]
  all_goals simp [callSetMaxOpen, St.run_bind, op_run, h0]

private def intArith : Arith Int Int :=
  ⟨(· - ·), (· + ·), (· / 2), (· + 1), (· - 1), fun x => x, (· * ·), fun x => x, fun d a => d / a, fun _ => -1⟩
private def calm : Throws Int := ⟨fun _ _ => none, fun a _ => a⟩
private def noArith : Throws Int := ⟨fun e _ => if e = .arith then some .badAlloc else none, fun a _ => a⟩

/- The range from 10 to 21: its size is 11, its middle 16, `interpolate(1)` its end, and 33 is at twice its size. -/
example : ((Computes.run calm intArith .debug .size).run (⟨0, ⟨10, 21⟩, 3⟩ : World Int .closed .opened)).1 = .ok (Sum.inl 11) ∧
    ((Computes.run calm intArith .debug .mid).run (⟨0, ⟨10, 21⟩, 3⟩ : World Int .closed .opened)).1 = .ok (Sum.inl 16) ∧
    ((Computes.run calm intArith .debug (.interpolate 1)).run (⟨0, ⟨10, 21⟩, 3⟩ : World Int .closed .opened)).1 = .ok (Sum.inl 21) ∧
    ((Computes.run calm intArith .debug (.fraction 33)).run (⟨0, ⟨10, 21⟩, 3⟩ : World Int .closed .opened)).1 = .ok (Sum.inr 2) := by decide

/- An allocation that fails in a subtraction: `size` throws in a debug build and ends the program otherwise, `mid` always ends it. -/
example : ((Computes.run noArith intArith .debug .size).run (⟨0, ⟨10, 21⟩, 3⟩ : World Int .closed .opened)).1 = .throw .badAlloc ∧
    ((Computes.run noArith intArith .release .size).run (⟨0, ⟨10, 21⟩, 3⟩ : World Int .closed .opened)).1 = .terminate ∧
    ((Computes.run noArith intArith .debug .mid).run (⟨0, ⟨10, 21⟩, 3⟩ : World Int .closed .opened)).1 = .terminate := by decide

/- The setter of an open bound computes in its assertion, so the same failure ends a debug build but not a release build. -/
example : ((callSetMinOpen noArith intArith .debug 12).run (⟨0, ⟨10, 21⟩, 3⟩ : World Int .opened .closed)).1 = .terminate ∧
    ((callSetMinOpen noArith intArith .release 12).run (⟨0, ⟨10, 21⟩, 3⟩ : World Int .opened .closed)) = (.ok ⟨⟩, ⟨2, ⟨12, 21⟩, 3⟩) := by decide

/- The range from 5 to 4 is not in order. -/
example : ((Computes.run calm intArith .debug .width).run (⟨0, ⟨5, 4⟩, 3⟩ : World Int .closed .closed)).1 =
      .throw (.assertion "value_range min should be <= max") ∧
    ((Computes.run calm intArith .debug .mid).run (⟨0, ⟨5, 4⟩, 3⟩ : World Int .closed .closed)).1 = .terminate := by decide

end Wite.Props
