import Verif.Model.Outcome

/-!
# Calls that modify an object

Shared vocabulary, no counterpart in `/repo`.  A call on an object of state `σ` yields
an outcome and the state the object is left in, also when the call throws.  After `ub`
or `terminate` the state has no meaning.
-/

namespace Wite

/-- A call that may modify a `σ`. -/
def St (σ : Type u) (α : Type v) := σ → Outcome α × σ

namespace St

/-- Run the call. -/
def run {σ : Type u} {α : Type v} (x : St σ α) (s : σ) : Outcome α × σ := x s

/-- Return normally without touching the object. -/
protected def pure {σ : Type u} {α : Type v} (a : α) : St σ α := fun s => (.ok a, s)

/-- Sequencing; a call that does not return normally ends the sequence and keeps the state
it left. -/
protected def bind {σ : Type u} {α : Type v} {β : Type w} (x : St σ α) (f : α → St σ β) : St σ β :=
  fun s =>
    match x s with
    | (.ok a, s') => f a s'
    | (.throw e, s') => (.throw e, s')
    | (.ub, s') => (.ub, s')
    | (.terminate, s') => (.terminate, s')
    | (.diverge, s') => (.diverge, s')

instance {σ : Type u} : Monad (St σ) where
  pure := St.pure
  bind := St.bind

/-- Throw an exception. -/
def throw {σ : Type u} {α : Type v} (e : Exc) : St σ α := fun s => (.throw e, s)

/-- Undefined behaviour. -/
def ub {σ : Type u} {α : Type v} : St σ α := fun s => (.ub, s)

/-- Read the object. -/
def get {σ : Type u} : St σ σ := fun s => (.ok s, s)

/-- Replace the object. -/
def set {σ : Type u} (s' : σ) : St σ PUnit := fun _ => (.ok ⟨⟩, s')

/-- A call that does not modify the object. -/
def lift {σ : Type u} {α : Type v} (x : Outcome α) : St σ α := fun s => (x, s)

/-- A history: the caller performs the calls one after another on the same object, catching
exceptions and carrying on.  `none` if some call has undefined behaviour, terminates the
program or does not return. -/
def history {σ : Type u} {ι : Type v} {α : Type w} (step : ι → St σ α) : List ι → σ → Option σ
  | [], s => some s
  | i :: is, s =>
    match step i s with
    | (.ok _, s') => history step is s'
    | (.throw _, s') => history step is s'
    | _ => none

/-- The outcomes of the calls of a history, one after another, and the final state.  (After `ub` or
`terminate` what follows has no meaning.) -/
def outcomes {σ : Type u} {ι : Type v} {α : Type w} (step : ι → St σ α) : List ι → σ → List (Outcome α) × σ
  | [], s => ([], s)
  | i :: is, s =>
    let r := step i s
    let rs := outcomes step is r.2
    (r.1 :: rs.1, rs.2)

/-- If every call in a state satisfying `inv` returns or throws and leaves a state
satisfying `inv`, then so does every history. -/
theorem history_inv {σ : Type u} {ι : Type v} {α : Type w} {step : ι → St σ α} {inv : σ → Prop}
    {good : ι → Prop}
    (h : ∀ i s, good i → inv s → inv ((step i).run s).2 ∧
      ((∃ a, ((step i).run s).1 = .ok a) ∨ ∃ e, ((step i).run s).1 = .throw e))
    (is : List ι) (s : σ) (hg : ∀ i ∈ is, good i) (hs : inv s) :
    ∃ s', history step is s = some s' ∧ inv s' := by
  induction is generalizing s with
  | nil => exact ⟨s, rfl, hs⟩
  | cons i is ih =>
    obtain ⟨h1, h2⟩ := h i s (hg i (by simp)) hs
    have hg' : ∀ j ∈ is, good j := fun j hj => hg j (by simp [hj])
    rcases hr : (step i).run s with ⟨o, s'⟩
    rw [hr] at h1 h2
    have hr' : step i s = (o, s') := hr
    obtain ⟨t, ht, hit⟩ := ih s' hg' h1
    refine ⟨t, ?_, hit⟩
    rcases h2 with ⟨a, ha⟩ | ⟨e, he⟩
    · simp only at ha
      simp only [history, hr', ha]; exact ht
    · simp only at he
      simp only [history, hr', he]; exact ht

@[simp] theorem run_mk {σ : Type u} {α : Type v} (f : σ → Outcome α × σ) (s : σ) :
    St.run (fun s => f s) s = f s := rfl

@[simp] theorem run_pure {σ : Type u} {α : Type v} (a : α) (s : σ) :
    (pure a : St σ α).run s = (.ok a, s) := rfl
@[simp] theorem run_throw {σ : Type u} {α : Type v} (e : Exc) (s : σ) :
    (throw e : St σ α).run s = (.throw e, s) := rfl
@[simp] theorem run_ub {σ : Type u} {α : Type v} (s : σ) : (ub : St σ α).run s = (.ub, s) := rfl
@[simp] theorem run_get {σ : Type u} (s : σ) : (get : St σ σ).run s = (.ok s, s) := rfl
@[simp] theorem run_set {σ : Type u} (s s' : σ) : (set s').run s = (.ok ⟨⟩, s') := rfl
@[simp] theorem run_lift {σ : Type u} {α : Type v} (x : Outcome α) (s : σ) :
    (lift x : St σ α).run s = (x, s) := rfl

theorem run_bind {σ : Type u} {α β : Type v} (x : St σ α) (f : α → St σ β) (s : σ) :
    (x >>= f).run s =
      match x.run s with
      | (.ok a, s') => (f a).run s'
      | (.throw e, s') => (.throw e, s')
      | (.ub, s') => (.ub, s')
      | (.terminate, s') => (.terminate, s')
      | (.diverge, s') => (.diverge, s') := rfl

theorem run_bind_ok {σ : Type u} {α β : Type v} {x : St σ α} {f : α → St σ β} {s s' : σ} {a : α}
    (h : x.run s = (.ok a, s')) : (x >>= f).run s = (f a).run s' := by
  rw [run_bind, h]

theorem run_bind_throw {σ : Type u} {α β : Type v} {x : St σ α} {f : α → St σ β} {s s' : σ} {e : Exc}
    (h : x.run s = (.throw e, s')) : (x >>= f).run s = (.throw e, s') := by
  rw [run_bind, h]

@[simp] theorem run_ite {σ : Type u} {α : Type v} (c : Prop) [Decidable c] (x y : St σ α) (s : σ) :
    (if c then x else y).run s = if c then x.run s else y.run s := by split <;> rfl

end St

end Wite
