import Verif.Model.State

/-!
# Comparing the three builds

What it means that a function does the same in every build as long as no assertion fails, and how this is
inherited by functions made of such functions.
-/

namespace Wite.Builds

/-- What becomes of an outcome when failed assertions stop the program instead of throwing. -/
def aborts {α : Type} : Outcome α → Outcome α
  | .throw (.assertion _) => .terminate
  | o => o

/-- An assertion has failed, and possibly its exception has then left a `noexcept` function. -/
def stopped {α : Type} (o : Outcome α) : Prop := o = .terminate ∨ ∃ m, o = .throw (.assertion m)

/-- A debug build without the exceptions stops where the one with exceptions throws, and does the same otherwise. -/
def Aborting {α : Type} (f : Build → Outcome α) : Prop := f .aborting = aborts (f .debug)

/-- A release build does what the debug build does unless an assertion fails. -/
def Releasing {α : Type} (f : Build → Outcome α) : Prop := f .release = f .debug ∨ stopped (f .debug)

/-- Both. -/
structure Agree {α : Type} (f : Build → Outcome α) : Prop where
  aborting : Aborting f
  releasing : Releasing f

/-- An outcome that is not a failed assertion. -/
def plain {α : Type} (o : Outcome α) : Prop := ∀ m, o ≠ .throw (.assertion m)

variable {α β : Type}

theorem aborts_plain {o : Outcome α} (h : plain o) : aborts o = o := by
  cases o with
  | throw e => cases e <;> first | rfl | exact absurd rfl (h _)
  | _ => rfl

theorem aborting_const {o : Outcome α} (h : plain o) : Aborting (fun _ => o) := (aborts_plain h).symm

theorem agree_const {o : Outcome α} (h : plain o) : Agree (fun _ => o) := ⟨aborting_const h, Or.inl rfl⟩

theorem agree_ok (a : α) : Agree (fun _ => Outcome.ok a) := agree_const (by intro m h; cases h)
theorem agree_pure (a : α) : Agree (fun _ => (pure a : Outcome α)) := agree_ok a
theorem agree_ub : Agree (fun _ => (Outcome.ub : Outcome α)) := agree_const (by intro m h; cases h)
theorem agree_diverge : Agree (fun _ => (Outcome.diverge : Outcome α)) := agree_const (by intro m h; cases h)

theorem agree_outOfRange (m : String) : Agree (fun _ => (Outcome.throw (.outOfRange m) : Outcome α)) :=
  agree_const (by intro m h; cases h)

theorem agree_assert (p : Bool) (msg : String) : Agree (fun b => debugAssert b p msg) := by
  cases p
  · exact ⟨rfl, Or.inr (Or.inr ⟨msg, rfl⟩)⟩
  · exact ⟨rfl, Or.inl rfl⟩

theorem aborting_bind {x : Build → Outcome α} {f : Build → α → Outcome β} (hx : Aborting x)
    (hf : ∀ a, Aborting (fun b => f b a)) : Aborting (fun b => x b >>= f b) := by
  have h2 : (x .aborting >>= f .aborting) = aborts (x .debug >>= f .debug) := by
    rw [hx]
    cases h : x .debug with
    | ok a => exact hf a
    | throw e => cases e <;> rfl
    | _ => rfl
  exact h2

theorem agree_bind {x : Build → Outcome α} {f : Build → α → Outcome β} (hx : Agree x)
    (hf : ∀ a, Agree (fun b => f b a)) : Agree (fun b => x b >>= f b) := by
  refine ⟨aborting_bind hx.1 fun a => (hf a).1, ?_⟩
  have h2 : (x .release >>= f .release) = (x .debug >>= f .debug) ∨ stopped (x .debug >>= f .debug) := by
    rcases hx.2 with h | h | ⟨m, h⟩
    · cases hd : x .debug with
      | ok a =>
        rw [h, hd]
        exact (hf a).2
      | throw e => left; rw [h, hd]; rfl
      | ub => left; rw [h, hd]; rfl
      | terminate => left; rw [h, hd]; rfl
      | diverge => left; rw [h, hd]; rfl
    · right; left; rw [h]; rfl
    · right; right; exact ⟨m, by rw [h]; rfl⟩
  exact h2

theorem aborting_noexcept {x : Build → Outcome α} (h : Aborting x) : Aborting (fun b => noexcept (x b)) := by
  have : noexcept (x .aborting) = aborts (noexcept (x .debug)) := by
    rw [h]
    cases x .debug with
    | throw e => cases e <;> rfl
    | _ => rfl
  exact this

theorem agree_noexcept {x : Build → Outcome α} (h : Agree x) : Agree (fun b => noexcept (x b)) := by
  refine ⟨aborting_noexcept h.1, ?_⟩
  have : noexcept (x .release) = noexcept (x .debug) ∨ stopped (noexcept (x .debug)) := by
    rcases h.2 with h | h | ⟨m, h⟩
    · left; rw [h]
    · right; left; rw [h]; rfl
    · right; left; rw [h]; rfl
  exact this

theorem agree_ite {c : Prop} [Decidable c] {x y : Build → Outcome α} (hx : Agree x) (hy : Agree y) :
    Agree (fun b => if c then x b else y b) := by
  by_cases h : c
  · simpa [h] using hx
  · simpa [h] using hy

/-! ## Calls that modify an object -/

/-- The same for calls that modify an object: also the object is the same, unless an assertion has failed.  Nothing is said
of calls that are undefined in the debug build. -/
structure AgreeS {σ α : Type} (f : Build → St σ α) : Prop where
  aborting : ∀ s, ((f .debug).run s).1 ≠ .ub → ((f .aborting).run s).1 = aborts ((f .debug).run s).1
  same : ∀ s, ((f .debug).run s).1 ≠ .ub → ¬ stopped ((f .debug).run s).1 →
    (f .aborting).run s = (f .debug).run s ∧ (f .release).run s = (f .debug).run s

variable {σ : Type}

theorem agreeS_const {x : St σ α} (h : ∀ s, plain (x.run s).1) : AgreeS (fun _ => x) :=
  ⟨fun s _ => (aborts_plain (h s)).symm, fun _ _ _ => ⟨rfl, rfl⟩⟩

theorem agreeS_lift {x : Build → Outcome α} (h : Agree x) : AgreeS (fun b => (St.lift (x b) : St σ α)) := by
  refine ⟨fun s _ => h.1, fun s _ hs => ?_⟩
  have h1 : x .aborting = aborts (x .debug) := h.1
  have h2 : aborts (x .debug) = x .debug := aborts_plain fun m hm => hs (Or.inr ⟨m, hm⟩)
  have h3 : x .release = x .debug := by
    rcases h.2 with h | h
    · exact h
    · exact absurd h hs
  constructor
  · show (x .aborting, s) = (x .debug, s)
    rw [h1, h2]
  · show (x .release, s) = (x .debug, s)
    rw [h3]

theorem agreeS_bind {x : Build → St σ α} {f : Build → α → St σ β} (hx : AgreeS x)
    (hf : ∀ a, AgreeS (fun b => f b a)) : AgreeS (fun b => x b >>= f b) := by
  have key : ∀ s, ((x .debug >>= f .debug).run s).1 ≠ .ub →
      ((x .aborting >>= f .aborting).run s).1 = aborts ((x .debug >>= f .debug).run s).1 ∧
      (¬ stopped ((x .debug >>= f .debug).run s).1 →
        (x .aborting >>= f .aborting).run s = (x .debug >>= f .debug).run s ∧
        (x .release >>= f .release).run s = (x .debug >>= f .debug).run s) := by
    intro s hub
    have hub' : ((x .debug).run s).1 ≠ .ub := by
      intro h
      apply hub
      rw [St.run_bind]
      rcases hd : (x .debug).run s with ⟨o, s'⟩
      rw [hd] at h
      simp only at h
      subst h; rfl
    by_cases hst : stopped ((x .debug).run s).1
    · have ha := hx.1 s hub'
      rcases hd : (x .debug).run s with ⟨o, s'⟩
      rcases hda : (x .aborting).run s with ⟨o', s''⟩
      rw [hd, hda] at ha
      rw [hd] at hst
      rw [St.run_bind, St.run_bind, hd, hda]
      simp only at ha hst
      rcases hst with h | ⟨m, h⟩
      · subst h; subst ha
        exact ⟨rfl, fun h => absurd (Or.inl rfl) h⟩
      · subst h; subst ha
        exact ⟨rfl, fun h => absurd (Or.inr ⟨m, rfl⟩) h⟩
    · obtain ⟨h1, h2⟩ := hx.2 s hub' hst
      rw [St.run_bind] at hub
      rw [St.run_bind, St.run_bind, St.run_bind, h1, h2]
      rcases hd : (x .debug).run s with ⟨o, s'⟩
      rw [hd] at hub
      cases o with
      | ok a => exact ⟨(hf a).1 s' hub, (hf a).2 s' hub⟩
      | throw e =>
        rw [hd] at hst
        refine ⟨(aborts_plain (α := β) (o := .throw e) fun m hm => hst (Or.inr ⟨m, ?_⟩)).symm, fun _ => ⟨rfl, rfl⟩⟩
        cases hm; rfl
      | _ => exact ⟨rfl, fun _ => ⟨rfl, rfl⟩⟩
  exact ⟨fun s h => (key s h).1, fun s h => (key s h).2⟩

theorem agreeS_ite {c : Prop} [Decidable c] {x y : Build → St σ α} (hx : AgreeS x) (hy : AgreeS y) :
    AgreeS (fun b => if c then x b else y b) := by
  by_cases h : c
  · simpa [h] using hx
  · simpa [h] using hy

theorem agreeS_get : AgreeS (fun _ => (St.get : St σ σ)) := agreeS_const (by intro s m h; cases h)
theorem agreeS_set (s' : σ) : AgreeS (fun _ => (St.set s' : St σ PUnit)) := agreeS_const (by intro s m h; cases h)
theorem agreeS_pure (a : α) : AgreeS (fun _ => (pure a : St σ α)) := agreeS_const (by intro s m h; cases h)

theorem agreeS_throw {e : Exc} (h : ∀ m, e ≠ .assertion m) : AgreeS (fun _ => (St.throw e : St σ α)) :=
  agreeS_const (by intro s m hm; cases hm; exact h _ rfl)

/-- The outcomes of a whole program are the same in all builds when no call fails an assertion. -/
theorem outcomes_agree {ι : Type} {step : Build → ι → St σ α} (h : ∀ i, AgreeS (fun b => step b i)) (is : List ι) (s : σ)
    (hs : ∀ o ∈ (St.outcomes (step .debug) is s).1, o ≠ .ub ∧ ¬ stopped o) :
    St.outcomes (step .aborting) is s = St.outcomes (step .debug) is s ∧
      St.outcomes (step .release) is s = St.outcomes (step .debug) is s := by
  induction is generalizing s with
  | nil => exact ⟨rfl, rfl⟩
  | cons i is ih =>
    simp only [St.outcomes, List.mem_cons, forall_eq_or_imp] at hs ⊢
    obtain ⟨h1, h2⟩ := (h i).2 s hs.1.1 hs.1.2
    have h1' : step .aborting i s = step .debug i s := h1
    have h2' : step .release i s = step .debug i s := h2
    obtain ⟨h3, h4⟩ := ih _ hs.2
    rw [h1', h2', h3, h4]
    exact ⟨rfl, rfl⟩

end Wite.Builds
