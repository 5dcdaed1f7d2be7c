import Verif.Props.Scope

/-!
# C197: blocks whose changes are undone by `scope_fail` guards
-/

namespace Wite.Props

open Wite Wite.Scope Wite.Spec.Scope

variable {M : Type}

/-- The memory after the actions of a trace, given what each action does to it. -/
def memoryAfter (effect : Nat → M → M) (t : List Event) (m : M) : M := (actions t).foldl (fun m a => effect a m) m

/-- A step of a block: what is done, the function of the guard declared after it, how the step is left, and what it changes if it is left
normally. -/
structure UndoStep (M : Type) where
  body : Prog
  undo : Prog
  how : Exit
  change : M → M

/-- `body₁; scope_fail x{undo₁}; body₂; scope_fail x{undo₂}; …` -/
def undoBlock (x : Nat) : List (UndoStep M) → Prog
  | [] => .skip
  | st :: rest => .seq st.body (.guard x .fail st.undo (undoBlock x rest))

/-- The variables in scope and the guards released belong to guards that exist. -/
def Existing (env : Nat → Option Nat) (s : State) : Prop :=
  (∀ y k, env y = some k → k < s.next) ∧ ∀ k ∈ s.released, k < s.next

/-- The step does what it says with `u` exceptions in flight, changing nothing if it throws; its guard function undoes the change while any
number of exceptions is in flight; neither releases the guard. -/
structure Reversible (effect : Nat → M → M) (x u : Nat) (st : UndoStep M) : Prop where
  left : ∀ env s, Existing env s → (exec env u st.body s).2.1 = some st.how
  changes : ∀ env s m, Existing env s → memoryAfter effect (exec env u st.body s).1 m = if st.how = .normal then st.change m else m
  undone : ∀ env v s, Existing env s → v > 0 → (exec env v st.undo s).2.1 = some .normal
  restores : ∀ env v s m, Existing env s → v > 0 → memoryAfter effect (exec env v st.undo s).1 (st.change m) = m
  keepsBody : ¬Releases x st.body
  keepsUndo : ¬Releases x st.undo

/-- How the block is left: as the first step that throws. -/
def blockLeft : List (UndoStep M) → Exit
  | [] => .normal
  | st :: rest =>
    match st.how with
    | .normal => blockLeft rest
    | .exceptional e => .exceptional e

/-- All changes one after another. -/
def allChanges : List (UndoStep M) → M → M
  | [], m => m
  | st :: rest, m => allChanges rest (st.change m)

private theorem existing_exec (p : Prog) : ∀ (env : Nat → Option Nat) (u : Nat) (s : State), Existing env s →
    Existing env (exec env u p s).2.2 := by
  have key : ∀ (p : Prog) (env : Nat → Option Nat) (u : Nat) (s : State), Existing env s →
      ∀ k ∈ (exec env u p s).2.2.released, k < (exec env u p s).2.2.next := by
    intro p
    induction p with
    | act a => intro env u s h; exact h.2
    | skip => intro env u s h; exact h.2
    | throw e => intro env u s h; exact h.2
    | release x =>
      intro env u s h
      simp only [exec]
      split
      · rename_i k hk
        intro j hj
        rcases List.mem_cons.1 hj with rfl | hj
        · exact h.1 _ _ hk
        · exact h.2 j hj
      · exact h.2
    | seq p q ihp ihq =>
      intro env u s h
      have h1 := ihp env u s h
      have hn := (sources_exec p env u s).next
      rcases hp : exec env u p s with ⟨t, r, s'⟩
      rw [hp] at h1 hn
      have h' : Existing env s' := ⟨fun y k hk => Nat.lt_of_lt_of_le (h.1 y k hk) hn, h1⟩
      rcases r with _ | _ | e
      · simpa [exec, hp] using h1
      · simpa [exec, hp] using ihq env u s' h'
      · simpa [exec, hp] using h1
    | tryCatch p q ihp ihq =>
      intro env u s h
      have h1 := ihp env u s h
      have hn := (sources_exec p env u s).next
      rcases hp : exec env u p s with ⟨t, r, s'⟩
      rw [hp] at h1 hn
      have h' : Existing env s' := ⟨fun y k hk => Nat.lt_of_lt_of_le (h.1 y k hk) hn, h1⟩
      rcases r with _ | _ | e
      · simpa [exec, hp] using h1
      · simpa [exec, hp] using h1
      · simpa [exec, hp] using ihq env u s' h'
    | guard x c f rest ihf ihr =>
      intro env u s h
      have hi : Existing (fun y => if y = x then some s.next else env y) { s with next := s.next + 1 } := by
        refine ⟨fun y k hk => ?_, fun k hk => Nat.lt_succ_of_lt (h.2 k hk)⟩
        simp only at hk
        split at hk
        · cases hk; exact Nat.lt_succ_self _
        · exact Nat.lt_succ_of_lt (h.1 y k hk)
      have h1 := ihr _ u _ hi
      have hn := (sources_exec rest (fun y => if y = x then some s.next else env y) u { s with next := s.next + 1 }).next
      rcases hp : exec (fun y => if y = x then some s.next else env y) u rest { s with next := s.next + 1 } with ⟨t, r, s₁⟩
      rw [hp] at h1 hn
      have h' : Existing env s₁ := ⟨fun y k hk => Nat.lt_of_lt_of_le (h.1 y k hk) (Nat.le_of_succ_le hn), h1⟩
      rcases r with _ | how
      · simpa [exec, hp] using h1
      · simp only [exec, hp]
        split
        · have h2 := ihf env (inFlight u how) s₁ h'
          rcases hf : exec env (inFlight u how) f s₁ with ⟨t', r', s₂⟩
          rw [hf] at h2
          rcases r' with _ | _ | e <;> exact h2
        · exact h1
  intro env u s h
  exact ⟨fun y k hk => Nat.lt_of_lt_of_le (h.1 y k hk) (sources_exec p env u s).next, key p env u s h⟩

private theorem block_keeps (effect : Nat → M → M) (x u : Nat) (l : List (UndoStep M)) (h : ∀ st ∈ l, Reversible effect x u st) :
    ¬Releases x (undoBlock x l) := by
  induction l with
  | nil => simp [undoBlock, Releases]
  | cons st rest ih =>
    have h1 := h st (by simp)
    simp [undoBlock, Releases, h1.keepsBody, h1.keepsUndo]

/-- What the guards do at the end, given how many exceptions are in flight around the block. -/
private theorem block_exec (effect : Nat → M → M) (x u : Nat) (l : List (UndoStep M)) (h : ∀ st ∈ l, Reversible effect x u st) :
    ∀ env s, Existing env s → (exec env u (undoBlock x l) s).2.1 = some (blockLeft l) ∧
      ∀ m, memoryAfter effect (exec env u (undoBlock x l) s).1 m = if blockLeft l = .normal ∧ u = 0 then allChanges l m else m := by
  induction l with
  | nil => intro env s hs; refine ⟨rfl, fun m => ?_⟩; split <;> rfl
  | cons st rest ih =>
    intro env s hs
    have h1 := h st (by simp)
    have ih := ih (fun st hst => h st (by simp [hst]))
    have hk := block_keeps effect x u rest (fun st hst => h st (by simp [hst]))
    have hl := h1.left env s hs
    have hc := fun m => h1.changes env s m hs
    have he := existing_exec st.body env u s hs
    simp only [undoBlock, exec]
    rcases hp : exec env u st.body s with ⟨t, r, s'⟩
    rw [hp] at hl hc he
    simp only at hl hc he
    subst hl
    cases hw : st.how with
    | exceptional e => simp [blockLeft, hw] at hc ⊢; exact hc
    | normal =>
      simp only [hw, if_true] at hc
      simp only [blockLeft, hw, allChanges]
      have hi : Existing (fun y => if y = x then some s'.next else env y) { s' with next := s'.next + 1 } := by
        refine ⟨fun y k hk => ?_, fun k hk => Nat.lt_succ_of_lt (he.2 k hk)⟩
        simp only at hk
        split at hk
        · cases hk; exact Nat.lt_succ_self _
        · exact Nat.lt_succ_of_lt (he.1 y k hk)
      obtain ⟨i1, i2⟩ := ih _ _ hi
      have hsrc := sources_exec (undoBlock x rest) (fun y => if y = x then some s'.next else env y) u { s' with next := s'.next + 1 }
      have hex := existing_exec (undoBlock x rest) _ u _ hi
      rcases hr : exec (fun y => if y = x then some s'.next else env y) u (undoBlock x rest) { s' with next := s'.next + 1 } with ⟨t₁, r₁, s₁⟩
      rw [hr] at i1 i2 hsrc hex
      simp only at i1 i2 hex
      subst i1
      have hnr : s'.next ∉ s₁.released := by
        intro hin
        rcases hsrc.released _ hin with g | g | ⟨y, gy, g⟩
        · exact absurd (he.2 _ g) (Nat.lt_irrefl _)
        · exact absurd g (by simp)
        · by_cases hyx : y = x
          · subst hyx; exact hk g
          · rw [if_neg hyx] at gy
            exact absurd (he.1 _ _ gy) (Nat.lt_irrefl _)
      have hex' : Existing env s₁ := by
        refine ⟨fun y k hy => Nat.lt_of_lt_of_le (he.1 y k hy) ?_, hex.2⟩
        exact Nat.le_of_succ_le hsrc.next
      simp only [hnr, not_false_eq_true, decide_true, Bool.true_and]
      by_cases hf : checkExitCondition .fail (inFlight u (blockLeft rest)) = true
      · have hv : inFlight u (blockLeft rest) > 0 := by simpa [checkExitCondition] using hf
        have hu := h1.undone env _ s₁ hex' hv
        have hres := fun m => h1.restores env _ s₁ m hex' hv
        rw [if_pos hf]
        rcases hg : exec env (inFlight u (blockLeft rest)) st.undo s₁ with ⟨t₂, r₂, s₂⟩
        rw [hg] at hu hres
        simp only at hu hres
        subst hu
        have hn : ¬(blockLeft rest = .normal ∧ u = 0) := by
          rintro ⟨g1, g2⟩
          simp [g1, g2, inFlight] at hv
        simp only [hn, if_false] at i2 ⊢
        refine ⟨trivial, fun m => ?_⟩
        have : memoryAfter effect (t ++ (.created s'.next .fail u :: (t₁ ++ .leaving s'.next (blockLeft rest) :: .runs s'.next :: t₂ ++ [.left s'.next]))) m =
            memoryAfter effect t₂ (memoryAfter effect t₁ (memoryAfter effect t m)) := by
          simp [memoryAfter, actions]
        rw [this, hc, i2, hres]
      · have hv : inFlight u (blockLeft rest) = 0 := by simpa [checkExitCondition] using hf
        have hn : blockLeft rest = .normal ∧ u = 0 := by
          cases hb : blockLeft rest with
          | normal => rw [hb] at hv; exact ⟨rfl, hv⟩
          | exceptional e => rw [hb] at hv; simp [inFlight] at hv
        rw [if_neg hf]
        simp only [hn, and_self, if_true] at i2 ⊢
        refine ⟨trivial, fun m => ?_⟩
        have : memoryAfter effect (t ++ (.created s'.next .fail 0 :: (t₁ ++ [.leaving s'.next .normal, .left s'.next]))) m =
            memoryAfter effect t₁ (memoryAfter effect t m) := by
          simp [memoryAfter, actions]
        rw [this, hc, i2]

private theorem existing_start : Existing (fun _ => none) ⟨0, []⟩ := ⟨by simp, by simp⟩

/-- C197, what holds: with no exception in flight around it, such a block is left as its first step that throws, and then the memory is as
before; if no step throws, all changes are made and none is undone. -/
theorem c197_all_or_nothing_partial (effect : Nat → M → M) (x : Nat) (l : List (UndoStep M)) (h : ∀ st ∈ l, Reversible effect x 0 st) :
    (run (undoBlock x l)).2 = some (blockLeft l) ∧
    ∀ m, memoryAfter effect (run (undoBlock x l)).1 m = if blockLeft l = .normal then allChanges l m else m := by
  obtain ⟨h1, h2⟩ := block_exec effect x 0 l h _ _ existing_start
  refine ⟨h1, fun m => ?_⟩
  have h3 := h2 m
  simp only [and_true] at h3
  exact h3

/-- C197: after a block that is left by an exception the handler finds the memory as it was before the block; after a block that is left
normally an exception thrown later undoes nothing. -/
theorem c197_afterwards_partial (effect : Nat → M → M) (x e : Nat) (l : List (UndoStep M)) (h : ∀ st ∈ l, Reversible effect x 0 st) (m : M) :
    (blockLeft l ≠ .normal → (run (.tryCatch (undoBlock x l) .skip)).2 = some .normal ∧
      memoryAfter effect (run (.tryCatch (undoBlock x l) .skip)).1 m = m) ∧
    (blockLeft l = .normal → (run (.seq (undoBlock x l) (.throw e))).2 = some (.exceptional e) ∧
      memoryAfter effect (run (.seq (undoBlock x l) (.throw e))).1 m = allChanges l m) := by
  obtain ⟨h1, h2⟩ := block_exec effect x 0 l h _ _ existing_start
  rcases hr : exec (fun _ => none) 0 (undoBlock x l) ⟨0, []⟩ with ⟨t, r, s⟩
  rw [hr] at h1 h2
  simp only at h1 h2
  subst h1
  constructor
  · intro hn
    cases hb : blockLeft l with
    | normal => exact absurd hb hn
    | exceptional e' =>
      have h3 := h2 m
      rw [hb] at hr
      simp only [hb, reduceCtorEq, false_and, if_false] at h3
      simp [run, exec, hr, h3]
  · intro hn
    have h3 := h2 m
    rw [hn] at hr
    simp only [hn, and_self, if_true] at h3
    simp [run, exec, hr, h3]

/-- C197 is false: in a function that a guard calls while the stack is unwound, as in any destructor then, no such block ever has an effect:
all its steps succeed, it is left normally, and all its changes are undone. -/
theorem c197_refuted (effect : Nat → M → M) (x y e : Nat) (l : List (UndoStep M)) (h : ∀ st ∈ l, Reversible effect x 1 st)
    (hl : blockLeft l = .normal) (m : M) :
    (run (.tryCatch (.guard y .all (undoBlock x l) (.throw e)) .skip)).2 = some .normal ∧
    memoryAfter effect (run (.tryCatch (.guard y .all (undoBlock x l) (.throw e)) .skip)).1 m = m := by
  obtain ⟨h1, h2⟩ := block_exec effect x 1 l h (fun _ => none) ⟨1, []⟩ ⟨by simp, by simp⟩
  rcases hr : exec (fun _ => none) 1 (undoBlock x l) ⟨1, []⟩ with ⟨t, r, s⟩
  rw [hr] at h1 h2
  simp only [hl] at h1 h2
  subst h1
  have h3 := h2 m
  simp only [Nat.one_ne_zero, and_false, if_false] at h3
  simp only [run, exec, inFlight, checkExitCondition, Nat.zero_add, hr]
  refine ⟨rfl, ?_⟩
  simpa [memoryAfter, actions] using h3

private def adding (a : Nat) (m : Int) : Int := if a % 2 = 0 then m + a else m - (a - 1)
private def addStep (n : Nat) : UndoStep Int := ⟨.act (2 * n), .act (2 * n + 1), .normal, fun m => m + 2 * n⟩
private def failStep : UndoStep Int := ⟨.throw 9, .skip, .exceptional 9, id⟩

/- Steps that add a number and guards that subtract it are such steps, with any number of exceptions in flight. -/
example (n x u : Nat) : Reversible adding x u (addStep n) :=
  ⟨fun _ _ _ => rfl, fun _ _ m _ => by simp [addStep, exec, memoryAfter, actions, adding], fun _ _ _ _ _ => rfl,
    fun _ _ _ m _ _ => by simp [addStep, exec, memoryAfter, actions, adding], by simp [addStep, Releases], by simp [addStep, Releases]⟩

/- Two numbers are added, the third step fails; without it both stay added. -/
example : memoryAfter adding (run (undoBlock 0 [addStep 3, addStep 5, failStep])).1 100 = 100 ∧
    actions (run (undoBlock 0 [addStep 3, addStep 5, failStep])).1 = [6, 10, 11, 7] ∧
    memoryAfter adding (run (undoBlock 0 [addStep 3, addStep 5])).1 100 = 116 := by decide

/- The same two steps in a function called during unwinding. -/
example : actions (run (.tryCatch (.guard 1 .all (undoBlock 0 [addStep 3, addStep 5]) (.throw 4)) .skip)).1 = [6, 10, 11, 7] := by decide

end Wite.Props
