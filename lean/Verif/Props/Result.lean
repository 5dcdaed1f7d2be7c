import Verif.Spec.Result

/-!
# Properties C50 and C51: `result`
-/

namespace Wite.Props

open Wite Wite.Spec.Result

/-- The variant as a sum, for the proofs below. -/
private def toSum {V E : Type} : Result V E → V ⊕ E
  | .value v => .inl v
  | .error e => .inr e

private theorem shows_toSum {V E : Type} (r : Result V E) : Shows r (toSum r) := by
  cases r <;> exact ⟨rfl, rfl, rfl, rfl, rfl⟩

private theorem step_lastStored {V E : Type} (v0 : V) (mv : V → V) (me : E → E) (init : Nat → V ⊕ E)
    (op : Result.Op V E) (older : List (Result.Op V E)) (σ : Nat → Result V E)
    (h : ∀ k, toSum (σ k) = lastStored v0 mv me init older k)
    (hr : (∃ a, (Result.step v0 mv me op σ).1 = .ok a) ∨ ∃ e, (Result.step v0 mv me op σ).1 = .throw e) (k : Nat) :
    toSum ((Result.step v0 mv me op σ).2 k) = lastStored v0 mv me init (op :: older) k := by
  cases op with
  | default i => simp only [Result.step, lastStored, Result.assign, ← h]; split <;> rfl
  | ofValue i v => simp only [Result.step, lastStored, Result.assign, ← h]; split <;> rfl
  | ofError i e => simp only [Result.step, lastStored, Result.assign, ← h]; split <;> rfl
  | copy i j => simp only [Result.step, lastStored, Result.assign, ← h]; split <;> rfl
  | move i j =>
    simp only [Result.step, lastStored, Result.assign, ← h]
    split
    · cases σ j <;> rfl
    · split <;> rfl
  | emplace i ctor =>
    cases ctor <;> simp only [Result.step, lastStored, Result.assign, Result.emplace, Result.getValue,
      Outcome.bind_ok, Outcome.pure_eq, ← h]
    split <;> rfl
  | swap i j =>
    simp only [Result.step, lastStored, Result.assign, Result.swap, ← h]
    split
    · rfl
    · split <;> rfl
  | transform i f =>
    simp only [Result.step, lastStored, Result.transform, Result.andThen, ← h] at hr ⊢
    cases hi : σ i with
    | error e =>
      simp only [Result.hasValue, Result.ok, Result.index, Result.assign, toSum]
      by_cases hk : k = i
      · subst hk; simp [toSum, Result.assign]
      · simp [hk, ← h, Result.assign, toSum]
    | value v =>
      simp only [hi, Result.hasValue, Result.ok, Result.index, Result.getValue, Result.assign, toSum] at hr ⊢
      by_cases hk : k = i
      · subst hk; rcases hf : f v with (r | r) | e | _ | _ | _ <;> simp [hf, hi, toSum, Result.assign]
      · rcases hf : f v with (r | r) | e | _ | _ | _ <;> simp [hf, hk, ← h, toSum, Result.assign]
  | transformError i f =>
    simp only [Result.step, lastStored, Result.transformError, Result.orElse, ← h] at hr ⊢
    cases hi : σ i with
    | value e =>
      simp only [Result.hasValue, Result.ok, Result.index, Result.assign, toSum]
      by_cases hk : k = i
      · subst hk; simp [toSum, Result.assign]
      · simp [hk, ← h, Result.assign, toSum]
    | error v =>
      simp only [hi, Result.hasValue, Result.ok, Result.index, Result.getError, Result.assign, toSum] at hr ⊢
      by_cases hk : k = i
      · subst hk; rcases hf : f v with (r | r) | e | _ | _ | _ <;> simp [hf, hi, toSum, Result.assign]
      · rcases hf : f v with (r | r) | e | _ | _ | _ <;> simp [hf, hk, ← h, toSum, Result.assign]

/-! ## C50 -/

/-- C50: after every history of calls, starting from objects holding `init`, every object
shows exactly what was stored in it last. -/
theorem c50_history {V E : Type} (v0 : V) (mv : V → V) (me : E → E) (init : Nat → V ⊕ E)
    (σ₀ : Nat → Result V E) (h₀ : ∀ k, Shows (σ₀ k) (init k)) (ops : List (Result.Op V E))
    (σ : Nat → Result V E) (hσ : St.history (Result.step v0 mv me) ops σ₀ = some σ) (k : Nat) :
    Shows (σ k) (lastStored v0 mv me init ops.reverse k) := by
  have key : ∀ (ops older : List (Result.Op V E)) (σ₀ : Nat → Result V E),
      (∀ k, toSum (σ₀ k) = lastStored v0 mv me init older k) →
      St.history (Result.step v0 mv me) ops σ₀ = some σ →
      toSum (σ k) = lastStored v0 mv me init (ops.reverse ++ older) k := by
    intro ops
    induction ops with
    | nil => intro older σ₀ h hs; cases hs; exact h k
    | cons op ops ih =>
      intro older σ₀ h hs
      rcases hstep : Result.step v0 mv me op σ₀ with ⟨o, σ₁⟩
      have hl := step_lastStored v0 mv me init op older σ₀ h
      rw [hstep] at hl
      simp only [St.history, hstep] at hs
      rw [List.reverse_cons, List.append_assoc]
      cases o with
      | ok a => exact ih (op :: older) σ₁ (hl (Or.inl ⟨a, rfl⟩)) hs
      | throw e => exact ih (op :: older) σ₁ (hl (Or.inr ⟨e, rfl⟩)) hs
      | ub => simp at hs
      | terminate => simp at hs
      | diverge => simp at hs
  have h₀' : ∀ k, toSum (σ₀ k) = init k := by
    intro k
    have := h₀ k
    rcases hk : init k with v | e <;> rcases hs : σ₀ k with v' | e' <;>
      simp [hk, hs, Shows, Result.ok, Result.index, Result.getValue, Result.getError, toSum] at this ⊢ <;>
      exact this.2.2
  have := key ops [] σ₀ h₀' hσ
  rw [List.append_nil] at this
  rw [← this]
  exact shows_toSum _

/-- C50: no history of calls whose constructors and functions behave terminates the program. -/
theorem c50_tame {V E : Type} (v0 : V) (mv : V → V) (me : E → E) (σ₀ : Nat → Result V E)
    (ops : List (Result.Op V E)) (h : ∀ op ∈ ops, Tame op) :
    ∃ σ, St.history (Result.step v0 mv me) ops σ₀ = some σ := by
  obtain ⟨σ, h1, -⟩ := St.history_inv (step := Result.step v0 mv me) (inv := fun _ => True) (good := Tame)
    (by
      intro op σ hop _
      refine ⟨trivial, ?_⟩
      simp only [St.run]
      cases op with
      | emplace i ctor => obtain ⟨v, rfl⟩ := hop; exact Or.inl ⟨_, rfl⟩
      | transform i f =>
        simp only [Result.step, Result.transform, Result.andThen]
        cases hi : σ i with
        | error e => exact Or.inl ⟨_, rfl⟩
        | value v =>
          rcases hop v with ⟨r, hr⟩ | ⟨e, he⟩
          · refine Or.inl ⟨(), ?_⟩; simp [Result.hasValue, Result.ok, Result.index, Result.getValue, hr]
          · refine Or.inr ⟨e, ?_⟩; simp [Result.hasValue, Result.ok, Result.index, Result.getValue, he]
      | transformError i f =>
        simp only [Result.step, Result.transformError, Result.orElse]
        cases hi : σ i with
        | value e => exact Or.inl ⟨_, rfl⟩
        | error v =>
          rcases hop v with ⟨r, hr⟩ | ⟨e, he⟩
          · refine Or.inl ⟨(), ?_⟩; simp [Result.hasValue, Result.ok, Result.index, Result.getError, hr]
          · refine Or.inr ⟨e, ?_⟩; simp [Result.hasValue, Result.ok, Result.index, Result.getError, he]
      | _ => exact Or.inl ⟨_, rfl⟩)
    ops σ₀ h trivial
  exact ⟨σ, h1⟩

/-- C50: an exception thrown by the constructor `emplace` runs terminates the program. -/
theorem c50_emplace_throw {V E : Type} (v0 : V) (mv : V → V) (me : E → E) (σ : Nat → Result V E) (i : Nat) (e : Exc) :
    ((Result.step v0 mv me (.emplace i (.throw e))).run σ).1 = .terminate := rfl

/-- C50: a function that throws inside `transform` or `transform_error` leaves every object as it was. -/
theorem c50_transform_throw {V E : Type} (v0 : V) (mv : V → V) (me : E → E) (σ σ' : Nat → Result V E)
    (op : Result.Op V E) (e : Exc) (h : (Result.step v0 mv me op).run σ = (.throw e, σ')) : σ' = σ := by
  have key : ∀ i (o : Outcome (Result V E)) (r : Result V E),
      (match (match o with
          | .ok r' => ((.ok r', r') : Outcome (Result V E) × Result V E)
          | .throw e => (.throw e, σ i)
          | .ub => (.ub, σ i)
          | .terminate => (.terminate, σ i)
          | .diverge => (.diverge, σ i)) with
        | (.ok _, r) => ((.ok (), Result.assign σ i r) : Outcome Unit × _)
        | (.throw e, r) => (.throw e, Result.assign σ i r)
        | (.ub, _) => (.ub, σ)
        | (.terminate, _) => (.terminate, σ)
        | (.diverge, _) => (.diverge, σ)) = (.throw e, σ') → σ' = σ := by
    intro i o r h
    cases o <;> simp at h
    rw [← h.2]
    funext k
    simp only [Result.assign]
    split
    · rename_i hk; rw [hk]
    · rfl
  cases op with
  | emplace i ctor => cases ctor <;> simp [Result.step, Result.emplace, St.run, Result.getValue] at h
  | transform i f => exact key i _ (σ i) h
  | transformError i f => exact key i _ (σ i) h
  | _ => simp [Result.step, St.run] at h

example : ∃ σ, St.history (Result.step (V := Nat) (E := String) 0 id id)
    [.ofValue 0 3, .ofError 1 "bad", .swap 0 1, .transform 1 (fun v => .ok (.value (v + 1))), .copy 2 1,
     .transform 1 (fun _ => .throw .badAlloc), .transformError 0 (fun _ => .ok (.value 9)), .emplace 3 (.ok 5)]
    (fun _ => Result.default 0) = some σ ∧
    Shows (σ 0) (.inl 9) ∧ Shows (σ 1) (.inl 4) ∧ Shows (σ 2) (.inl 4) ∧ Shows (σ 3) (.inl 5) :=
  ⟨_, rfl, ⟨rfl, rfl, rfl, rfl, rfl⟩, ⟨rfl, rfl, rfl, rfl, rfl⟩, ⟨rfl, rfl, rfl, rfl, rfl⟩, ⟨rfl, rfl, rfl, rfl, rfl⟩⟩

/-! ## C51 -/

variable {V E : Type}

/-- C51: `and_then` on a held value is the function applied to it, whatever the function does. -/
theorem c51_and_then_value (r : Result V E) (v : V) (h : r.getValue = .ok v) (fn : V → Outcome (Result V E)) :
    r.andThen fn = fn v := by
  cases r <;> simp [Result.getValue] at h
  subst h; rfl

/-- C51: `and_then` on an error returns it and never calls the function. -/
theorem c51_and_then_error (r : Result V E) (e : E) (h : r.getError = .ok e) (fn : V → Outcome (Result V E)) :
    ∃ r', r.andThen fn = .ok r' ∧ r'.getError = .ok e := by
  cases r <;> simp [Result.getError] at h
  subst h; exact ⟨_, rfl, rfl⟩

/-- C51: `or_else` mirrors `and_then`. -/
theorem c51_or_else_error (r : Result V E) (e : E) (h : r.getError = .ok e) (fn : E → Outcome (Result V E)) :
    r.orElse fn = fn e := by
  cases r <;> simp [Result.getError] at h
  subst h; rfl

theorem c51_or_else_value (r : Result V E) (v : V) (h : r.getValue = .ok v) (fn : E → Outcome (Result V E)) :
    ∃ r', r.orElse fn = .ok r' ∧ r'.getValue = .ok v := by
  cases r <;> simp [Result.getValue] at h
  subst h; exact ⟨_, rfl, rfl⟩

/-- C51: `transform` returns what `and_then` returns and, if it returns, leaves it in the
object; otherwise the object is unchanged. -/
theorem c51_transform (r : Result V E) (fn : V → Outcome (Result V E)) :
    ((Result.transform fn).run r).1 = r.andThen fn ∧
    (∀ r', r.andThen fn = .ok r' → ((Result.transform fn).run r).2 = r') ∧
    (∀ e, r.andThen fn = .throw e → ((Result.transform fn).run r).2 = r) := by
  simp only [Result.transform, St.run]
  cases r.andThen fn <;> simp

theorem c51_transform_error (r : Result V E) (fn : E → Outcome (Result V E)) :
    ((Result.transformError fn).run r).1 = r.orElse fn ∧
    (∀ r', r.orElse fn = .ok r' → ((Result.transformError fn).run r).2 = r') ∧
    (∀ e, r.orElse fn = .throw e → ((Result.transformError fn).run r).2 = r) := by
  simp only [Result.transformError, St.run]
  cases r.orElse fn <;> simp

/-- C51: identity. -/
theorem c51_and_then_id (r : Result V E) : r.andThen (fun v => .ok (.value v)) = .ok r := by
  cases r <;> rfl

theorem c51_or_else_id (r : Result V E) : r.orElse (fun e => .ok (.error e)) = .ok r := by
  cases r <;> rfl

/-- C51: chaining is composition, also when the first function throws or fails. -/
theorem c51_and_then_chain (r : Result V E) (f g : V → Outcome (Result V E)) :
    (r.andThen f >>= fun r' => r'.andThen g) = r.andThen (fun v => f v >>= fun r' => r'.andThen g) := by
  cases r <;> rfl

theorem c51_or_else_chain (r : Result V E) (f g : E → Outcome (Result V E)) :
    (r.orElse f >>= fun r' => r'.orElse g) = r.orElse (fun v => f v >>= fun r' => r'.orElse g) := by
  cases r <;> rfl

/-- C51: for functions returning plain values, chaining is composition of the functions. -/
theorem c51_and_then_compose (r : Result V E) (f g : V → V) :
    (r.andThen (fun v => .ok (.value (f v))) >>= fun r' => r'.andThen (fun v => .ok (.value (g v)))) =
      r.andThen (fun v => .ok (.value (g (f v)))) := by
  cases r <;> rfl

/-- C51: `value_or` returns the value or the default and never terminates. -/
theorem c51_value_or (r : Result V E) (d : V) :
    (∀ v, r.getValue = .ok v → r.valueOr d = .ok v) ∧
    (∀ e, r.getError = .ok e → r.valueOr d = .ok d) := by
  cases r <;> simp [Result.getValue, Result.getError, Result.valueOr, Result.hasValue, Result.ok, Result.index]

example : (Result.value 3 : Result Nat String).andThen (fun v => if v = 3 then .ok (.error "three") else .ok (.value v)) =
    .ok (.error "three") := by decide

example : ((Result.transform (fun _ => .throw .badAlloc)).run (.value 3 : Result Nat String)).2 = .value 3 := by decide

end Wite.Props
