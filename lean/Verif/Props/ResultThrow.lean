import Verif.Spec.ResultThrow

/-!
# Properties C128 and C129: results of values and errors whose copying and moving throw
-/

namespace Wite.Props

open Wite Wite.Spec.ResultThrow

variable {V E : Type}

/-- The content of a storage, for the proofs below. -/
private def toOpt : Cell V E → Option (V ⊕ E)
  | .value v => some (.inl v)
  | .error e => some (.inr e)
  | .valueless => none

private theorem contains_toOpt (c : Cell V E) : Contains c (toOpt c) := by
  cases c <;> exact ⟨rfl, rfl⟩

private theorem toOpt_of_contains {c : Cell V E} {o : Option (V ⊕ E)} (h : Contains c o) : toOpt c = o := by
  rcases o with _ | v | e <;> cases c <;> simp_all [Contains, toOpt, Cell.ok, Cell.index, Cell.getValue, Cell.getError]

private theorem usable_iff (c : Cell V E) : Usable c ↔ toOpt c ≠ none := by
  cases c <;> simp [Usable, toOpt, Cell.ok, Cell.isError, Cell.index, Cell.getValue, Cell.getError]

/-- How a call can end: with `a` and these objects, with the exception of an element and these objects, or with the
program. -/
private inductive Ends {α : Type} (T : Elements V E) (good : α → (Nat → Cell V E) → Prop) (bad : (Nat → Cell V E) → Prop) :
    Outcome α × Cell.World V E → Prop
  | ok (a : α) (w : Cell.World V E) (h : good a w.obj) : Ends T good bad (.ok a, w)
  | throw (w : Cell.World V E) (h : bad w.obj) : Ends T good bad (.throw (.user 0), w)
  | terminate (w : Cell.World V E) (h : ¬Quiet T) : Ends T good bad (.terminate, w)

private def Copying (a : Act) : Prop := a = .defaultV ∨ a = .copyV ∨ a = .copyE ∨ a = .assignV ∨ a = .assignE

private theorem act_ends (T : Elements V E) (a : Act) (w : Cell.World V E) :
    Ends T (fun _ o => o = w.obj) (fun o => o = w.obj ∧ T.nx a = false ∧ (Quiet T → Copying a)) ((Cell.act T a).run w) := by
  simp only [Cell.act, St.run]
  cases hk : T.ok a w.done with
  | true => exact .ok _ _ rfl
  | false =>
    cases h : T.nx a with
    | true => exact .terminate _ (fun q => by have := (q a _ hk).1; rw [h] at this; cases this)
    | false => exact .throw _ ⟨rfl, rfl, fun q => (q a _ hk).2⟩

private theorem bind_ends {α β : Type} {T : Elements V E} {w : Cell.World V E} {x : St (Cell.World V E) α}
    {f : α → St (Cell.World V E) β} {g1 : α → (Nat → Cell V E) → Prop} {b1 : (Nat → Cell V E) → Prop}
    {g2 : β → (Nat → Cell V E) → Prop} {b2 : (Nat → Cell V E) → Prop}
    (hx : Ends T g1 b1 (x.run w)) (hb : ∀ o, b1 o → b2 o)
    (hf : ∀ a w', g1 a w'.obj → Ends T g2 b2 ((f a).run w')) : Ends T g2 b2 ((x >>= f).run w) := by
  rw [St.run_bind]
  generalize x.run w = r at hx
  cases hx with
  | ok a w' h => exact hf a w' h
  | throw w' h => exact .throw _ (hb _ h)
  | terminate w' h => exact .terminate _ h

private theorem ends_mono {α : Type} {T : Elements V E} {g1 g2 : α → (Nat → Cell V E) → Prop}
    {b1 b2 : (Nat → Cell V E) → Prop} {r : Outcome α × Cell.World V E} (h : Ends T g1 b1 r)
    (hg : ∀ a o, g1 a o → g2 a o) (hb : ∀ o, b1 o → b2 o) : Ends T g2 b2 r := by
  cases h with
  | ok a w h => exact .ok _ _ (hg _ _ h)
  | throw w h => exact .throw _ (hb _ h)
  | terminate w h => exact .terminate _ h

private theorem nox_ends {α : Type} {T : Elements V E} {w : Cell.World V E} {x : St (Cell.World V E) α}
    {g : α → (Nat → Cell V E) → Prop} {b : (Nat → Cell V E) → Prop} (h : Ends T g b (x.run w))
    (hb : ∀ o, b o → ¬Quiet T) : Ends T g (fun _ => False) ((Cell.nox x).run w) := by
  have e : (Cell.nox x).run w = (noexcept (x.run w).1, (x.run w).2) := rfl
  rw [e]
  generalize x.run w = r at h
  cases h with
  | ok a w' h => exact .ok _ _ h
  | throw w' h => exact .terminate _ (hb _ h)
  | terminate w' h => exact .terminate _ h

private theorem pure_ends {α : Type} {T : Elements V E} {w : Cell.World V E} {a : α}
    {g : α → (Nat → Cell V E) → Prop} {b : (Nat → Cell V E) → Prop} (h : g a w.obj) :
    Ends T g b ((pure a : St (Cell.World V E) α).run w) := .ok _ _ h

private theorem put_ends {T : Elements V E} {w : Cell.World V E} {i : Nat} {c : Cell V E}
    {g : Unit → (Nat → Cell V E) → Prop} {b : (Nat → Cell V E) → Prop} (h : g () (Result.assign w.obj i c)) :
    Ends T g b ((Cell.put i c).run w) := .ok _ _ h

private theorem moveAssign_ends (T : Elements V E) (i : Nat) (c : Cell V E) (w : Cell.World V E) :
    Ends T (fun _ o => o = Result.assign w.obj i c) (fun _ => False) ((Cell.moveAssign T i c).run w) := by
  rw [Cell.moveAssign]
  refine nox_ends (b := fun _ => ¬Quiet T) ?_ (fun _ h => h)
  rw [St.run_bind_ok (St.run_get w)]
  have key : ∀ a, ¬Copying a → Ends T (fun (_ : Unit) o => o = Result.assign w.obj i c) (fun _ => ¬Quiet T)
      ((Cell.act T a >>= fun _ => Cell.put i c).run w) := fun a ha =>
    bind_ends (act_ends T a w) (fun _ h q => ha (h.2.2 q)) (fun _ w' h => put_ends (by rw [h]))
  cases w.obj i <;> cases c <;> first | exact key _ (by simp [Copying]) | exact put_ends rfl

private theorem copied_ends (T : Elements V E) (c : Cell V E) (w : Cell.World V E) :
    Ends T (fun c' o => c' = c ∧ o = w.obj) (fun o => o = w.obj) ((Cell.copied T c).run w) := by
  cases c with
  | value v => exact bind_ends (act_ends T _ w) (fun _ h => h.1) (fun _ w' h => pure_ends ⟨rfl, h⟩)
  | error e => exact bind_ends (act_ends T _ w) (fun _ h => h.1) (fun _ w' h => pure_ends ⟨rfl, h⟩)
  | valueless => exact pure_ends ⟨rfl, rfl⟩

private theorem ofValue_ends (T : Elements V E) (lv : Bool) (v : V) (w : Cell.World V E) :
    Ends T (fun c o => c = .value v ∧ o = w.obj) (fun o => o = w.obj ∧ lv = true) ((Cell.ofValue T lv v).run w) := by
  have key : ∀ w' : Cell.World V E, w'.obj = w.obj →
      Ends T (fun c o => c = .value v ∧ o = w.obj) (fun o => o = w.obj ∧ lv = true)
        ((Cell.nox (Cell.act T .moveV) >>= fun _ => (pure (.value v) : St (Cell.World V E) (Cell V E))).run w') :=
    fun w' h => bind_ends (nox_ends (act_ends T .moveV w') (fun _ h q => by simpa [Copying] using h.2.2 q)) (fun _ h => h.elim)
      (fun _ w'' h' => pure_ends ⟨rfl, by rw [h', h]⟩)
  cases lv with
  | false => exact key w rfl
  | true => exact bind_ends (act_ends T .copyV w) (fun _ h => ⟨h.1, rfl⟩) (fun _ w' h => key w' h)

private theorem ofError_ends (T : Elements V E) (lv : Bool) (e : E) (w : Cell.World V E) :
    Ends T (fun c o => c = .error e ∧ o = w.obj) (fun o => o = w.obj ∧ lv = true) ((Cell.ofError T lv e).run w) := by
  have key : ∀ w' : Cell.World V E, w'.obj = w.obj →
      Ends T (fun c o => c = .error e ∧ o = w.obj) (fun o => o = w.obj ∧ lv = true)
        ((Cell.nox (Cell.act T .moveE) >>= fun _ => (pure (.error e) : St (Cell.World V E) (Cell V E))).run w') :=
    fun w' h => bind_ends (nox_ends (act_ends T .moveE w') (fun _ h q => by simpa [Copying] using h.2.2 q)) (fun _ h => h.elim)
      (fun _ w'' h' => pure_ends ⟨rfl, by rw [h', h]⟩)
  cases lv with
  | false => exact key w rfl
  | true => exact bind_ends (act_ends T .copyE w) (fun _ h => ⟨h.1, rfl⟩) (fun _ w' h => key w' h)

private theorem ofReturned_ends (T : Elements V E) (r : Cell.Returned V E) (w : Cell.World V E) :
    Ends T (fun c o => toOpt c = content r ∧ o = w.obj) (fun _ => False) ((Cell.ofReturned T r).run w) := by
  cases r with
  | value v => exact ends_mono (ofValue_ends T false v w) (fun _ _ h => ⟨by rw [h.1]; rfl, h.2⟩) (by simp)
  | error e => exact ends_mono (ofError_ends T false e w) (fun _ _ h => ⟨by rw [h.1]; rfl, h.2⟩) (by simp)
  | result c => exact pure_ends ⟨by cases c <;> rfl, rfl⟩

private theorem swap_ends (T : Elements V E) (i j : Nat) (w : Cell.World V E) :
    Ends T (fun _ o => o = Result.assign (Result.assign w.obj i (w.obj j)) j (w.obj i)) (fun _ => False)
      ((Cell.swap T i j).run w) := by
  rw [Cell.swap]
  refine nox_ends (b := fun _ => ¬Quiet T) ?_ (fun _ h => h)
  rw [St.run_bind_ok (St.run_get w)]
  have key : ∀ w' : Cell.World V E, w'.obj = w.obj → Ends T
      (fun (_ : Unit) o => o = Result.assign (Result.assign w.obj i (w.obj j)) j (w.obj i)) (fun _ => ¬Quiet T)
      ((Cell.put i (w.obj j) >>= fun _ => Cell.put j (w.obj i)).run w') := fun w' h =>
    bind_ends (put_ends (g := fun _ o => o = Result.assign w.obj i (w.obj j)) (b := fun _ => ¬Quiet T) (by rw [h]))
      (fun _ h => h) (fun _ w'' h' => put_ends (by rw [h']))
  have key1 : ∀ a, ¬Copying a → Ends T
      (fun (_ : Unit) o => o = Result.assign (Result.assign w.obj i (w.obj j)) j (w.obj i)) (fun _ => ¬Quiet T)
      ((Cell.act T a >>= fun _ => Cell.put i (w.obj j) >>= fun _ => Cell.put j (w.obj i)).run w) := fun a ha =>
    bind_ends (act_ends T a w) (fun _ h q => ha (h.2.2 q)) (fun _ w' h => key w' h)
  have key3 : ∀ a b c, ¬Copying a → ¬Copying b → ¬Copying c → Ends T
      (fun (_ : Unit) o => o = Result.assign (Result.assign w.obj i (w.obj j)) j (w.obj i)) (fun _ => ¬Quiet T)
      ((Cell.act T a >>= fun _ => Cell.act T b >>= fun _ => Cell.act T c >>= fun _ =>
        Cell.put i (w.obj j) >>= fun _ => Cell.put j (w.obj i)).run w) := fun a b c ha hb hc =>
    bind_ends (act_ends T a w) (fun _ h q => ha (h.2.2 q)) (fun _ w1 h1 =>
      bind_ends (act_ends T b w1) (fun _ h q => hb (h.2.2 q)) (fun _ w2 h2 =>
        bind_ends (act_ends T c w2) (fun _ h q => hc (h.2.2 q)) (fun _ w3 h3 => key w3 (by rw [h3, h2, h1]))))
  cases hi : w.obj i <;> cases hj : w.obj j <;> rw [hi, hj] at key key1 key3 <;>
    first
      | exact key1 _ (by simp [Copying])
      | exact key3 _ _ _ (by simp [Copying]) (by simp [Copying]) (by simp [Copying])
      | exact key w rfl

private theorem orLeave_ends (T : Elements V E) (i : Nat) (c : Cell V E) (a : Act) (w : Cell.World V E) :
    Ends T (fun _ o => o = w.obj) (fun o => o = Result.assign w.obj i c ∧ T.nx a = false)
      ((Cell.orLeave i c (Cell.act T a)).run w) := by
  have h := act_ends T a w
  have e : (Cell.orLeave i c (Cell.act T a)).run w =
      match (Cell.act T a).run w with
      | (.throw e, w') => (.throw e, { w' with obj := Result.assign w'.obj i c })
      | r => r := rfl
  rw [e]
  generalize (Cell.act T a).run w = r at h
  cases h with
  | ok a w' h => exact .ok _ _ h
  | throw w' h => exact .throw _ ⟨by rw [h.1], h.2.1⟩
  | terminate w' h => exact .terminate _ h

/-- What a copy assignment that throws leaves. -/
private def CopyLeaves (T : Elements V E) (w : Cell.World V E) (i : Nat) (c : Cell V E) (o : Nat → Cell V E) : Prop :=
  o = w.obj ∨
  (∃ old v, w.obj i = .value old ∧ c = .value v ∧ o = Result.assign w.obj i (.value (T.tornV old v))) ∨
  (∃ old e, w.obj i = .error old ∧ c = .error e ∧ o = Result.assign w.obj i (.error (T.tornE old e))) ∨
  (o = Result.assign w.obj i .valueless ∧ ∃ v, c = .value v ∧ T.nx .copyV = false ∧ T.nx .moveV = false) ∨
  (o = Result.assign w.obj i .valueless ∧ ∃ e, c = .error e ∧ T.nx .copyE = false ∧ T.nx .moveE = false)

private theorem assign_assign {α : Type} (f : Nat → α) (i : Nat) (x y : α) :
    Result.assign (Result.assign f i x) i y = Result.assign f i y := by
  funext k; simp only [Result.assign]; split <;> rfl

private theorem copyAssign_ends (T : Elements V E) (i : Nat) (c : Cell V E) (w : Cell.World V E) :
    Ends T (fun _ o => o = Result.assign w.obj i c) (CopyLeaves T w i c) ((Cell.copyAssign T i c).run w) := by
  rw [Cell.copyAssign, St.run_bind_ok (St.run_get w)]
  have inPlace : ∀ (c' : Cell V E) a b, ((∃ v, c' = .value v ∧ a = Act.copyV ∧ b = Act.moveV) ∨
      (∃ e, c' = .error e ∧ a = Act.copyE ∧ b = Act.moveE)) →
      Ends T (fun _ o => o = Result.assign w.obj i c') (CopyLeaves T w i c')
        (St.run (if (T.nx a || !T.nx b) = true then do
            Cell.put i .valueless
            Cell.act T a
            Cell.put i c'
          else do
            Cell.act T a
            Cell.act T b
            Cell.put i c') w) := by
    intro c' a b hab
    rw [St.run_ite]
    split
    · rename_i hc
      refine bind_ends (put_ends (g := fun _ o => o = Result.assign w.obj i .valueless) (b := fun _ => False) rfl)
        (fun _ h => h.elim) (fun _ w1 h1 => ?_)
      refine bind_ends (act_ends T a w1) (fun o ho => ?_) (fun _ w2 h2 => put_ends (by rw [h2, h1, assign_assign]))
      have hb : T.nx b = false := by simpa [ho.2.1] using hc
      rcases hab with ⟨v, hc', rfl, rfl⟩ | ⟨e, hc', rfl, rfl⟩
      · exact .inr (.inr (.inr (.inl ⟨by rw [ho.1, h1], v, hc', ho.2.1, hb⟩)))
      · exact .inr (.inr (.inr (.inr ⟨by rw [ho.1, h1], e, hc', ho.2.1, hb⟩)))
    · refine bind_ends (act_ends T a w) (fun o ho => .inl ho.1) (fun _ w1 h1 => ?_)
      exact bind_ends (act_ends T b w1) (fun o ho => .inl (by rw [ho.1, h1])) (fun _ w2 h2 => put_ends (by rw [h2, h1]))
  cases hi : w.obj i with
  | value old =>
    cases c with
    | value v =>
      exact bind_ends (orLeave_ends T i _ .assignV w) (fun o h => .inr (.inl ⟨old, v, hi, rfl, h.1⟩))
        (fun _ w1 h1 => put_ends (by rw [h1]))
    | error e => exact inPlace _ _ _ (.inr ⟨e, rfl, rfl, rfl⟩)
    | valueless => exact put_ends rfl
  | error old =>
    cases c with
    | value v => exact inPlace _ _ _ (.inl ⟨v, rfl, rfl, rfl⟩)
    | error e =>
      exact bind_ends (orLeave_ends T i _ .assignE w) (fun o h => .inr (.inr (.inl ⟨old, e, hi, rfl, h.1⟩)))
        (fun _ w1 h1 => put_ends (by rw [h1]))
    | valueless => exact put_ends rfl
  | valueless =>
    cases c with
    | value v => exact inPlace _ _ _ (.inl ⟨v, rfl, rfl, rfl⟩)
    | error e => exact inPlace _ _ _ (.inr ⟨e, rfl, rfl, rfl⟩)
    | valueless => exact put_ends rfl

/-- What a call that throws leaves. -/
private def Leaves (T : Elements V E) (w : Cell.World V E) : Cell.Op V E → (Nat → Cell V E) → Prop
  | .copy i j, o => CopyLeaves T w i (w.obj j) o
  | _, o => o = w.obj

/-- The objects after a call that returns. -/
private def Returns (T : Elements V E) (w : Cell.World V E) (op : Cell.Op V E) (o : Nat → Cell V E) : Prop :=
  ∀ k, toOpt (o k) = after T (fun k => toOpt (w.obj k)) k op

private theorem ends_left {α : Type} {T : Elements V E} {g : α → (Nat → Cell V E) → Prop} {b : (Nat → Cell V E) → Prop} {a : α}
    {w : Cell.World V E} (h : Ends T g b (.ok a, w)) : g a w.obj := by cases h; assumption

private theorem ends_right {α : Type} {T : Elements V E} {g : α → (Nat → Cell V E) → Prop} {b : (Nat → Cell V E) → Prop} {e : Exc}
    {w : Cell.World V E} (h : Ends T g b (.throw e, w)) : b w.obj := by cases h; assumption

/-- Everything about one call. -/
private theorem step_all (T : Elements V E) (op : Cell.Op V E) (w : Cell.World V E) :
    (∀ a w', (Cell.step T op).run w = (.ok a, w') → Returns T w op w'.obj) ∧
    (∀ e w', (Cell.step T op).run w = (.throw e, w') → Leaves T w op w'.obj) ∧
    (Quiet T → Tame op → (∀ k, Usable (w.obj k)) →
      (∃ a w', (Cell.step T op).run w = (.ok a, w')) ∨ ∃ e w', (Cell.step T op).run w = (.throw e, w')) := by
  have fin : Ends T (fun _ => Returns T w op) (Leaves T w op) ((Cell.step T op).run w) →
      (∀ a w', (Cell.step T op).run w = (.ok a, w') → Returns T w op w'.obj) ∧
      (∀ e w', (Cell.step T op).run w = (.throw e, w') → Leaves T w op w'.obj) ∧
      (Quiet T → Tame op → (∀ k, Usable (w.obj k)) →
        (∃ a w', (Cell.step T op).run w = (.ok a, w')) ∨ ∃ e w', (Cell.step T op).run w = (.throw e, w')) := by
    intro h
    refine ⟨fun a w' hr => ?_, fun e w' hr => ?_, fun q _ _ => ?_⟩
    · rw [hr] at h; exact ends_left (g := fun _ => Returns T w op) h
    · rw [hr] at h; exact ends_right h
    · generalize (Cell.step T op).run w = r at h
      cases h with
      | ok a w' _ => exact .inl ⟨_, _, rfl⟩
      | throw w' _ => exact .inr ⟨_, _, rfl⟩
      | terminate w' h => exact absurd q h
  have user : ∀ {α : Type} (x : Outcome α) (f : α → St (Cell.World V E) Unit),
      (Cell.step T op).run w = (St.lift x >>= f).run w →
      (∀ r, x = .ok r → Ends T (fun _ => Returns T w op) (Leaves T w op) ((f r).run w)) →
      (Leaves T w op w.obj) →
      ((Tame op) → (∃ r, x = .ok r) ∨ ∃ e, x = .throw e) →
      (∀ a w', (Cell.step T op).run w = (.ok a, w') → Returns T w op w'.obj) ∧
      (∀ e w', (Cell.step T op).run w = (.throw e, w') → Leaves T w op w'.obj) ∧
      (Quiet T → Tame op → (∀ k, Usable (w.obj k)) →
        (∃ a w', (Cell.step T op).run w = (.ok a, w')) ∨ ∃ e w', (Cell.step T op).run w = (.throw e, w')) := by
    intro α x f hrun hf hl ht
    have bad : (∀ r, x ≠ .ok r) → (∀ e, x ≠ .throw e) →
        (∀ a w', (Cell.step T op).run w ≠ (.ok a, w')) → (∀ e w', (Cell.step T op).run w ≠ (.throw e, w')) →
        (∀ a w', (Cell.step T op).run w = (.ok a, w') → Returns T w op w'.obj) ∧
        (∀ e w', (Cell.step T op).run w = (.throw e, w') → Leaves T w op w'.obj) ∧
        (Quiet T → Tame op → (∀ k, Usable (w.obj k)) →
          (∃ a w', (Cell.step T op).run w = (.ok a, w')) ∨ ∃ e w', (Cell.step T op).run w = (.throw e, w')) := by
      intro h1 h2 h3 h4
      refine ⟨fun a w' h => absurd h (h3 _ _), fun a w' h => absurd h (h4 _ _), fun _ t _ => ?_⟩
      rcases ht t with ⟨r, hr⟩ | ⟨e, he⟩
      · exact absurd hr (h1 r)
      · exact absurd he (h2 e)
    cases x with
    | ok r => exact fin (by rw [hrun]; exact hf r rfl)
    | throw e =>
      refine ⟨?_, ?_, ?_⟩
      · intro a w' h; rw [hrun] at h; cases h
      · intro e w' h; rw [hrun] at h; cases h; exact hl
      · intro _ _ _; exact .inr ⟨e, w, by rw [hrun]; rfl⟩
    | ub => exact bad (by simp) (by simp) (by rw [hrun]; intro a w' h; cases h) (by rw [hrun]; intro a w' h; cases h)
    | terminate => exact bad (by simp) (by simp) (by rw [hrun]; intro a w' h; cases h) (by rw [hrun]; intro a w' h; cases h)
    | diverge => exact bad (by simp) (by simp) (by rw [hrun]; intro a w' h; cases h) (by rw [hrun]; intro a w' h; cases h)
  have stored : ∀ (i : Nat) (c : Cell V E) (w1 : Cell.World V E), w1.obj = w.obj →
      (∀ k, toOpt (Result.assign w.obj i c k) = after T (fun k => toOpt (w.obj k)) k op) →
      Ends T (fun _ => Returns T w op) (Leaves T w op) ((Cell.moveAssign T i c).run w1) := by
    intro i c w1 h1 hk
    exact ends_mono (moveAssign_ends T i c w1) (fun _ o h => by rw [h, h1]; exact hk) (fun _ h => h.elim)
  cases op with
  | default i =>
    refine fin ?_
    refine bind_ends (act_ends T .defaultV w) (fun o h => h.1) (fun _ w1 h1 => stored _ _ _ h1 (fun k => ?_))
    simp only [Result.assign, after]; split <;> rfl
  | ofValue i lv v =>
    refine fin ?_
    refine bind_ends (ofValue_ends T lv v w) (fun o h => h.1) (fun c w1 h1 => stored _ _ _ h1.2 (fun k => ?_))
    rw [h1.1]; simp only [Result.assign, after]; split <;> rfl
  | ofError i lv e =>
    refine fin ?_
    refine bind_ends (ofError_ends T lv e w) (fun o h => h.1) (fun c w1 h1 => stored _ _ _ h1.2 (fun k => ?_))
    rw [h1.1]; simp only [Result.assign, after]; split <;> rfl
  | copy i j =>
    refine fin ?_
    rw [Cell.step, St.run_bind_ok (St.run_get w)]
    refine ends_mono (copyAssign_ends T i (w.obj j) w) (fun _ o h => ?_) (fun _ h => h)
    rw [h]; intro k; simp only [Result.assign, after]; split <;> rfl
  | move i j =>
    refine fin ?_
    rw [Cell.step, St.run_bind_ok (St.run_get w)]
    refine bind_ends (moveAssign_ends T i (w.obj j) w) (fun _ h => h.elim) (fun _ w1 h1 => put_ends ?_)
    rw [h1]; intro k; simp only [Result.assign, after]
    split
    · cases w.obj j <;> rfl
    · split <;> rfl
  | emplace i ctor =>
    have e : ∀ x : Outcome V, (Cell.step T (.emplace i x)).run w =
        match x with
        | .ok v => (.ok (), { w with obj := Result.assign (Result.assign w.obj i .valueless) i (.value v) })
        | .throw _ => (.terminate, { w with obj := Result.assign w.obj i .valueless })
        | .ub => (.ub, { w with obj := Result.assign w.obj i .valueless })
        | .terminate => (.terminate, { w with obj := Result.assign w.obj i .valueless })
        | .diverge => (.diverge, { w with obj := Result.assign w.obj i .valueless }) := by
      intro x; cases x <;> rfl
    rw [e]
    refine ⟨?_, ?_, ?_⟩
    · intro a w' h
      cases ctor <;> cases h
      intro k
      simp only [Result.assign, after]; split <;> rfl
    · intro a w' h
      cases ctor <;> cases h
    · intro _ t _
      obtain ⟨v, rfl⟩ := t
      exact .inl ⟨_, _, rfl⟩
  | swap i j =>
    refine fin ?_
    refine ends_mono (swap_ends T i j w) (fun _ o h => ?_) (fun _ h => h.elim)
    rw [h]; intro k; simp only [Result.assign, after]
    split
    · rfl
    · split <;> rfl
  | transform i f =>
    have e : (Cell.step T (.transform i f)).run w =
        St.run (match w.obj i with
          | .value v => do
            let r ← St.lift (f v)
            let c ← Cell.ofReturned T r
            Cell.moveAssign T i c
          | c => do
            let c' ← Cell.copied T c
            Cell.moveAssign T i c') w := rfl
    have same : ∀ c, w.obj i = c → (∀ v, c ≠ .value v) →
        (Cell.step T (.transform i f)).run w = (Cell.copied T c >>= fun c' => Cell.moveAssign T i c').run w →
        Ends T (fun _ => Returns T w (.transform i f)) (Leaves T w (.transform i f)) ((Cell.step T (.transform i f)).run w) := by
      intro c hc hv hr
      rw [hr]
      refine bind_ends (copied_ends T c w) (fun o h => h) (fun c' w1 h1 => stored _ _ _ h1.2 (fun k => ?_))
      rw [h1.1]; simp only [Result.assign, after, hc]
      split
      · rename_i hk
        cases c with
        | value v => exact absurd rfl (hv v)
        | error e => rfl
        | valueless => rfl
      · rfl
    cases hi : w.obj i with
    | value v =>
      rw [hi] at e
      refine user (f v) _ e (fun r hr => ?_) rfl (fun t => t v)
      refine bind_ends (ofReturned_ends T r w) (fun _ h => h.elim) (fun c w1 h1 => stored _ _ _ h1.2 (fun k => ?_))
      simp only [Result.assign, after]
      split
      · rw [h1.1, hi]; simp only [toOpt, hr]
      · rfl
    | error x => rw [hi] at e; exact fin (same _ hi (by simp) e)
    | valueless => rw [hi] at e; exact fin (same _ hi (by simp) e)
  | transformError i f =>
    have e : (Cell.step T (.transformError i f)).run w =
        St.run (match w.obj i with
          | .error x => do
            let r ← St.lift (f x)
            let c ← Cell.ofReturned T r
            Cell.moveAssign T i c
          | .value v => do
            let c' ← Cell.copied T (.value v)
            Cell.moveAssign T i c'
          | .valueless => St.lift .terminate) w := rfl
    cases hi : w.obj i with
    | error x =>
      rw [hi] at e
      refine user (f x) _ e (fun r hr => ?_) rfl (fun t => t x)
      refine bind_ends (ofReturned_ends T r w) (fun _ h => h.elim) (fun c w1 h1 => stored _ _ _ h1.2 (fun k => ?_))
      simp only [Result.assign, after]
      split
      · rw [h1.1, hi]; simp only [toOpt, hr]
      · rfl
    | value v =>
      rw [hi] at e
      refine fin ?_
      rw [e]
      refine bind_ends (copied_ends T (.value v) w) (fun o h => h) (fun c' w1 h1 => stored _ _ _ h1.2 (fun k => ?_))
      rw [h1.1]; simp only [Result.assign, after, hi]
      split
      · rename_i hk; subst hk; rfl
      · rfl
    | valueless =>
      rw [hi] at e
      refine ⟨?_, ?_, ?_⟩
      · intro a w' h; rw [e] at h; cases h
      · intro a w' h; rw [e] at h; cases h
      · intro _ _ hu
        exact absurd (by rw [hi]; rfl) ((usable_iff _).1 (hu i))

private theorem after_some {T : Elements V E} {w : Cell.World V E} {op : Cell.Op V E} (hs : Sound op)
    (hw : ∀ k, toOpt (w.obj k) ≠ none) (k : Nat) : after T (fun k => toOpt (w.obj k)) k op ≠ none := by
  have hc : ∀ r : Cell.Returned V E, r ≠ .result .valueless → content r ≠ none := by
    intro r hr
    rcases r with v | e | (v | e | _) <;> simp_all [content]
  cases op with
  | default i => simp only [after]; split <;> simp [hw k]
  | ofValue i lv v => simp only [after]; split <;> simp [hw k]
  | ofError i lv e => simp only [after]; split <;> simp [hw k]
  | copy i j => simp only [after]; split <;> simp [hw]
  | move i j =>
    simp only [after]
    split
    · simp [hw]
    · split <;> simp [hw]
  | emplace i ctor => cases ctor <;> simp only [after] <;> first | exact hw k | (split <;> simp [hw k])
  | swap i j =>
    simp only [after]
    split
    · simp [hw]
    · split <;> simp [hw]
  | transform i f =>
    simp only [after]
    split
    · cases hi : w.obj i with
      | value v =>
        simp only [toOpt]
        cases hf : f v with
        | ok r => exact hc r (fun h => hs v (by rw [hf, h]))
        | _ => simp
      | error e => simp [toOpt]
      | valueless => exact absurd (by rw [hi]; rfl) (hw i)
    · exact hw k
  | transformError i f =>
    simp only [after]
    split
    · cases hi : w.obj i with
      | error e =>
        simp only [toOpt]
        cases hf : f e with
        | ok r => exact hc r (fun h => hs e (by rw [hf, h]))
        | _ => simp
      | value e => simp [toOpt]
      | valueless => exact absurd (by rw [hi]; rfl) (hw i)
    · exact hw k

private theorem assign_some {w : Cell.World V E} (hw : ∀ k, toOpt (w.obj k) ≠ none) (i : Nat) {c : Cell V E} (hc : toOpt c ≠ none)
    (k : Nat) : toOpt (Result.assign w.obj i c k) ≠ none := by
  simp only [Result.assign]; split
  · exact hc
  · exact hw k

/-! ## C128 -/

/-- C128: if for values and for errors copying or moving is `noexcept`, then after every history of calls, also if some of
them threw, every result is a value or an error that can be read. -/
theorem c128_partial (T : Elements V E) (hV : T.nx .copyV = true ∨ T.nx .moveV = true)
    (hE : T.nx .copyE = true ∨ T.nx .moveE = true) (ops : List (Cell.Op V E)) (hops : ∀ op ∈ ops, Sound op)
    (w w' : Cell.World V E) (h₀ : ∀ k, Usable (w.obj k)) (h : St.history (Cell.step T) ops w = some w') (k : Nat) :
    Usable (w'.obj k) := by
  simp only [usable_iff] at h₀ ⊢
  induction ops generalizing w with
  | nil => cases h; exact h₀ k
  | cons op ops ih =>
    have hs := hops op (by simp)
    have hops' : ∀ op ∈ ops, Sound op := fun o ho => hops o (by simp [ho])
    obtain ⟨h1, h2, -⟩ := step_all T op w
    rcases hr : (Cell.step T op).run w with ⟨o, w1⟩
    have hr' : Cell.step T op w = (o, w1) := hr
    simp only [St.history, hr'] at h
    cases o with
    | ok a => exact ih hops' w1 h (fun k => by rw [h1 a w1 hr k]; exact after_some hs h₀ k)
    | throw e =>
      refine ih hops' w1 h ?_
      have hl := h2 e w1 hr
      cases op with
      | copy i j =>
        rcases hl with hl | ⟨old, v, -, -, hl⟩ | ⟨old, v, -, -, hl⟩ | ⟨-, v, -, n1, n2⟩ | ⟨-, v, -, n1, n2⟩
        · rw [hl]; exact h₀
        · rw [hl]; exact assign_some h₀ i (by simp [toOpt])
        · rw [hl]; exact assign_some h₀ i (by simp [toOpt])
        · simp [n1, n2] at hV
        · simp [n1, n2] at hE
      | _ => rw [show w1.obj = w.obj from hl]; exact h₀
    | ub => simp at h
    | terminate => simp at h
    | diverge => simp at h

/-- C128: only copy assignment can leave a result without content; this holds for all element types. -/
theorem c128_only_copy (T : Elements V E) (op : Cell.Op V E) (hop : ∀ i j, op ≠ .copy i j) (hs : Sound op)
    (w w' : Cell.World V E) (h₀ : ∀ k, Usable (w.obj k))
    (h : (∃ a, (Cell.step T op).run w = (.ok a, w')) ∨ ∃ e, (Cell.step T op).run w = (.throw e, w')) (k : Nat) :
    Usable (w'.obj k) := by
  simp only [usable_iff] at h₀ ⊢
  obtain ⟨h1, h2, -⟩ := step_all T op w
  rcases h with ⟨a, h⟩ | ⟨e, h⟩
  · rw [h1 a w' h k]; exact after_some hs h₀ k
  · have hl := h2 e w' h
    have : w'.obj = w.obj := by
      cases op with
      | copy i j => exact absurd rfl (hop i j)
      | _ => exact hl
    rw [this]; exact h₀ k

/-- C128 is false: assigning an error to a value when copying the error throws, for every error type for which neither
copying nor moving is `noexcept`, leaves a result that says it is an error, and asking for the error
terminates the program. -/
theorem c128_refuted (T : Elements V E) (hc : T.nx .copyE = false) (hm : T.nx .moveE = false) (w : Cell.World V E) (i j : Nat)
    (v : V) (e : E) (hi : w.obj i = .value v) (hj : w.obj j = .error e) (hf : T.ok .copyE w.done = false) :
    ∃ w', (Cell.step T (.copy i j)).run w = (.throw (.user 0), w') ∧ (w'.obj i).isError = true ∧
      (w'.obj i).getError = .terminate ∧ (w'.obj i).getValue = .terminate ∧ w'.obj j = .error e := by
  have hij : j ≠ i := by rintro rfl; rw [hi] at hj; cases hj
  refine ⟨⟨Result.assign w.obj i .valueless, w.done + 1⟩, ?_, ?_⟩
  · rw [Cell.step, St.run_bind_ok (St.run_get w), hj, Cell.copyAssign, St.run_bind_ok (St.run_get w), hi]
    simp only [hc, hm]
    simp [bind, St.bind, St.run, Cell.put, Cell.act, hf, hc]
  · simp [Result.assign, Cell.isError, Cell.ok, Cell.index, Cell.getError, Cell.getValue, hij, hj]

/-- C128 is false also when a value is assigned to an error: the error is lost, the result still says it is one, and asking for
it terminates the program. -/
theorem c128_refuted_value (T : Elements V E) (hc : T.nx .copyV = false) (hm : T.nx .moveV = false) (w : Cell.World V E)
    (i j : Nat) (v : V) (e : E) (hi : w.obj i = .error e) (hj : w.obj j = .value v) (hf : T.ok .copyV w.done = false) :
    ∃ w', (Cell.step T (.copy i j)).run w = (.throw (.user 0), w') ∧ (w'.obj i).isError = true ∧
      (w'.obj i).getError = .terminate ∧ (w'.obj i).getValue = .terminate ∧ w'.obj j = .value v := by
  have hij : j ≠ i := by rintro rfl; rw [hi] at hj; cases hj
  refine ⟨⟨Result.assign w.obj i .valueless, w.done + 1⟩, ?_, ?_⟩
  · rw [Cell.step, St.run_bind_ok (St.run_get w), hj, Cell.copyAssign, St.run_bind_ok (St.run_get w), hi]
    simp only [hc, hm]
    simp [bind, St.bind, St.run, Cell.put, Cell.act, hf, hc]
  · simp [Result.assign, Cell.isError, Cell.ok, Cell.index, Cell.getError, Cell.getValue, hij, hj]

/-- Elements whose copies always fail and where nothing is `noexcept`; moving and assigning succeeds. -/
private def brittle : Elements Nat String where
  v0 := 0
  nx _ := false
  ok a _ := a != .copyE && a != .copyV
  movedV _ := 0
  movedE _ := ""
  tornV old _ := old
  tornE old _ := old

/-- C128 fails for a concrete program: `x0 = 7; x1 = "bad"; try { x0 = x1; } catch (...) {}` and then `x0` is an error that
cannot be read. -/
example : (St.history (Cell.step brittle) [.ofValue 0 false 7, .ofError 1 false "bad", .copy 0 1]
    ⟨fun _ => .value 0, 0⟩).map (fun w => ((w.obj 0).isError, (w.obj 0).getError, (w.obj 1).getError)) =
    some (true, .terminate, .ok "bad") := by decide

/-- With `noexcept` moves the same program keeps the 7. -/
example : (St.history (Cell.step { brittle with nx := fun a => a == .moveE || a == .moveV })
    [.ofValue 0 false 7, .ofError 1 false "bad", .copy 0 1]
    ⟨fun _ => .value 0, 0⟩).map (fun w => ((w.obj 0).isError, (w.obj 0).getValue, (w.obj 1).getError)) =
    some (false, .ok 7, .ok "bad") := by decide

/-! ## C129 -/

/-- C129: a call that returns has stored what it should, and nothing else, for all element types. -/
theorem c129_returns (T : Elements V E) (op : Cell.Op V E) (w w' : Cell.World V E) (a : Unit) (before : Nat → Option (V ⊕ E))
    (hb : ∀ k, Contains (w.obj k) (before k)) (h : (Cell.step T op).run w = (.ok a, w')) (k : Nat) :
    Contains (w'.obj k) (after T before k op) := by
  have hb' : (fun k => toOpt (w.obj k)) = before := funext fun k => toOpt_of_contains (hb k)
  have := (step_all T op w).1 a w' h k
  rw [hb'] at this
  rw [← this]
  exact contains_toOpt _

/-- C129: a call that throws leaves every object as it was, except that a copy assignment may change its target. -/
theorem c129_others (T : Elements V E) (op : Cell.Op V E) (w w' : Cell.World V E) (e : Exc)
    (h : (Cell.step T op).run w = (.throw e, w')) (k : Nat) (hk : ∀ j, op ≠ .copy k j) : w'.obj k = w.obj k := by
  have hl := (step_all T op w).2.1 e w' h
  cases op with
  | copy i j =>
    have hki : k ≠ i := fun hh => hk j (by rw [hh])
    rcases hl with hl | ⟨_, _, -, -, hl⟩ | ⟨_, _, -, -, hl⟩ | ⟨hl, -⟩ | ⟨hl, -⟩ <;> rw [hl] <;> simp [Result.assign, hki]
  | _ => exact congrFun hl k

/-- C129: if for values and for errors copying or moving is `noexcept`, and assignments of values and errors that throw change
nothing, then every call that throws leaves every object as it was. -/
theorem c129_partial (T : Elements V E) (hV : T.nx .copyV = true ∨ T.nx .moveV = true)
    (hE : T.nx .copyE = true ∨ T.nx .moveE = true) (htV : ∀ old v, T.tornV old v = old) (htE : ∀ old e, T.tornE old e = old)
    (op : Cell.Op V E) (w w' : Cell.World V E) (e : Exc) (h : (Cell.step T op).run w = (.throw e, w')) (k : Nat) :
    w'.obj k = w.obj k := by
  have hl := (step_all T op w).2.1 e w' h
  cases op with
  | copy i j =>
    rcases hl with hl | ⟨old, v, hi, -, hl⟩ | ⟨old, v, hi, -, hl⟩ | ⟨-, v, -, n1, n2⟩ | ⟨-, v, -, n1, n2⟩
    · rw [hl]
    · rw [hl, htV]; simp only [Result.assign]; split
      · rename_i hk; rw [hk, hi]
      · rfl
    · rw [hl, htE]; simp only [Result.assign]; split
      · rename_i hk; rw [hk, hi]
      · rfl
    · simp [n1, n2] at hV
    · simp [n1, n2] at hE
  | _ => exact congrFun hl k

/-- C129: with elements that keep their promises and fail only when they are default constructed, copied or copy-assigned, no call on
results that have their content ends the program. -/
theorem c129_survives (T : Elements V E) (q : Quiet T) (op : Cell.Op V E) (ht : Tame op) (w : Cell.World V E)
    (hw : ∀ k, Usable (w.obj k)) :
    (∃ w', (Cell.step T op).run w = (.ok (), w')) ∨ ∃ e w', (Cell.step T op).run w = (.throw e, w') := by
  rcases (step_all T op w).2.2 q ht hw with ⟨a, w', h⟩ | h
  · exact .inl ⟨w', h⟩
  · exact .inr h

/-- C129 is false: a move that throws never reaches the caller.  Storing a value (even in a constructor), moving
one over an error, and swapping a value with an error terminate the program when the move fails, for all types. -/
theorem c129_refuted_moves (T : Elements V E) (w : Cell.World V E) (i j : Nat) (v : V) (e : E) (hi : w.obj i = .error e)
    (hj : w.obj j = .value v) (hf : T.ok .moveV w.done = false) :
    ((Cell.step T (.ofValue i false v)).run w).1 = .terminate ∧ ((Cell.step T (.move i j)).run w).1 = .terminate ∧
    ((Cell.step T (.swap i j)).run w).1 = .terminate := by
  refine ⟨?_, ?_, ?_⟩
  · cases hn : T.nx .moveV <;>
      simp [Cell.step, Cell.ofValue, Cell.nox, St.run, Cell.act, hf, hn, noexcept, bind, St.bind]
  · cases hn : T.nx .moveV <;>
      simp [Cell.step, Cell.moveAssign, Cell.nox, St.run, Cell.act, hf, hn, noexcept, bind, St.bind, hi, hj, St.get]
  · cases hn : T.nx .moveV <;>
      simp [Cell.step, Cell.swap, Cell.nox, St.run, Cell.act, hf, hn, noexcept, bind, St.bind, hi, hj, St.get]

/-- C129 is false: a constructor that throws in `emplace` terminates the program. -/
theorem c129_refuted_emplace (T : Elements V E) (w : Cell.World V E) (i : Nat) (x : Exc) :
    ((Cell.step T (.emplace i (.throw x))).run w).1 = .terminate := rfl

/-- C129 is false: a copy that throws can change its target, if the assignment of values does that. -/
theorem c129_refuted_torn (T : Elements V E) (hn : T.nx .assignV = false) (w : Cell.World V E) (i j : Nat) (old v : V)
    (hi : w.obj i = .value old) (hj : w.obj j = .value v) (hf : T.ok .assignV w.done = false) :
    ∃ w', (Cell.step T (.copy i j)).run w = (.throw (.user 0), w') ∧ (w'.obj i).getValue = .ok (T.tornV old v) := by
  refine ⟨⟨Result.assign w.obj i (.value (T.tornV old v)), w.done + 1⟩, ?_, ?_⟩
  · rw [Cell.step, St.run_bind_ok (St.run_get w), hj, Cell.copyAssign, St.run_bind_ok (St.run_get w), hi]
    simp [bind, St.bind, St.run, Cell.orLeave, Cell.act, hf, hn]
  · simp [Result.assign, Cell.getValue]

/-- A copy that fails changes nothing here, and the exception arrives. -/
example : (St.outcomes (Cell.step { brittle with nx := fun a => a == .moveE || a == .moveV })
    [.ofError 1 false "bad", .copy 0 1, .transform 1 (fun v => .ok (.value (v + 1)))] ⟨fun _ => .value 5, 0⟩).1 =
    [.ok (), .throw (.user 0), .throw (.user 0)] := by decide

/-- A move that fails ends the program. -/
example : (St.outcomes (Cell.step { brittle with ok := fun a _ => a != .moveV }) [.ofValue 0 false 7]
    ⟨fun _ => .value 5, 0⟩).1 = [.terminate] := by decide

end Wite.Props
