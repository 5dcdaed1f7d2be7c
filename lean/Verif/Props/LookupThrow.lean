import Verif.Model.LookupThrow
import Mathlib.Tactic.Ring

/-!
# Property C216: exceptions of keys and values in a lookup
-/

namespace Wite.Props

open Wite Wite.Collections Wite.Collections.LookupThrow

variable {κ ν : Type}

/-- The first of some operations that throws, the first of them being the `n`-th of the program: its position among them and its exception. -/
def firstThrown (F : Ev κ ν → Nat → Option Exc) : Nat → List (Ev κ ν) → Option (Nat × Exc)
  | _, [] => none
  | n, e :: es =>
    match F e n with
    | some x => some (0, x)
    | none => (firstThrown F (n + 1) es).map fun p => (p.1 + 1, p.2)

/-- The operations in copying mappings, each key before its value. -/
def mappingCopies : List (κ × ν) → List (Ev κ ν)
  | [] => []
  | m :: ms => .copyKey m.1 :: .copyValue m.2 :: mappingCopies ms

/-- For each mapping, it and all that follow it are copied and it is assigned. -/
def mappingsTaken : List (κ × ν) → List (Ev κ ν)
  | [] => []
  | m :: others => mappingCopies (m :: others) ++ [.assignKey m.1, .assignValue m.2] ++ mappingsTaken others

/-- The operations inside the constructor: an array of blank pairs is made, then the mappings are taken. -/
def insideConstructor (ms : List (κ × ν)) : List (Ev κ ν) :=
  (List.replicate ms.length [.blankKey, .blankValue]).flatten ++ mappingsTaken ms

/-! ## How computations behave -/

private theorem firstThrown_append (F : Fails κ ν) (n : Nat) (a b : List (Ev κ ν)) :
    firstThrown F n (a ++ b) =
      match firstThrown F n a with
      | some r => some r
      | none => (firstThrown F (n + a.length) b).map fun p => (p.1 + a.length, p.2) := by
  induction a generalizing n with
  | nil => simp [firstThrown]
  | cons e a ih =>
    simp only [List.cons_append, firstThrown]
    cases F e n with
    | some x => rfl
    | none =>
      simp only [ih]
      cases h : firstThrown F (n + 1) a with
      | some r => rfl
      | none =>
        have : n + 1 + a.length = n + (e :: a).length := by simp; omega
        rw [this]
        cases firstThrown F (n + (e :: a).length) b with
        | none => rfl
        | some r => simp; omega

/-- The computation performs the operations and returns `r`; an exception of one ends it, with that exception or the end of the program. -/
private def Ends {α : Type} (F : Fails κ ν) (x : St (List (Ev κ ν)) α) (es : List (Ev κ ν)) (r : Outcome α) (out : Exc → Outcome α → Prop) : Prop :=
  ∀ log, match firstThrown F log.length es with
    | none => x log = (r, log ++ es)
    | some (j, e) => ∃ o, out e o ∧ x log = (o, log ++ es.take (j + 1))

private def Thrown {α : Type} (e : Exc) (o : Outcome α) : Prop := o = .throw e
private def Ended {α : Type} (_ : Exc) (o : Outcome α) : Prop := o = .terminate
private def Either {α : Type} (e : Exc) (o : Outcome α) : Prop := o = .throw e ∨ o = .terminate

private theorem firstThrown_lt (F : Fails κ ν) (n : Nat) (es : List (Ev κ ν)) (j : Nat) (x : Exc) (h : firstThrown F n es = some (j, x)) :
    j < es.length := by
  induction es generalizing n j with
  | nil => simp [firstThrown] at h
  | cons e es ih =>
    simp only [firstThrown] at h
    cases hF : F e n with
    | some y => simp only [hF, Option.some.injEq, Prod.mk.injEq] at h; simp; omega
    | none =>
      simp only [hF, Option.map_eq_some_iff, Prod.mk.injEq] at h
      obtain ⟨⟨i, y⟩, h, rfl, rfl⟩ := h
      have := ih _ _ h
      simp; omega

private theorem ends_bind {α β : Type} {F : Fails κ ν} {x : St (List (Ev κ ν)) α} {f : α → St (List (Ev κ ν)) β} {a b : List (Ev κ ν)} {r : α}
    {q : Outcome β} (out : Exc → ∀ {γ : Type}, Outcome γ → Prop) (hout : ∀ e (γ : Type) (o : Outcome γ), out e o → o = .throw e ∨ o = .terminate)
    (ht : ∀ e (γ δ : Type), out e (.throw e : Outcome γ) → out e (.throw e : Outcome δ))
    (hn : ∀ e (γ δ : Type), out e (.terminate : Outcome γ) → out e (.terminate : Outcome δ))
    (hx : Ends F x a (.ok r) (fun e o => out e o)) (hf : Ends F (f r) b q (fun e o => out e o)) : Ends F (x >>= f) (a ++ b) q (fun e o => out e o) := by
  intro log
  have h1 := hx log
  rw [firstThrown_append]
  cases ha : firstThrown F log.length a with
  | some p =>
    obtain ⟨j, e⟩ := p
    simp only [ha] at h1 ⊢
    obtain ⟨o, ho, h1⟩ := h1
    have hlt := firstThrown_lt F _ _ _ _ ha
    have ht' : (a ++ b).take (j + 1) = a.take (j + 1) := List.take_append_of_le_length (by omega)
    rw [ht']
    rcases hout e _ o ho with rfl | rfl
    · exact ⟨.throw e, ht _ _ _ ho, by simp [bind, St.bind, h1]⟩
    · exact ⟨.terminate, hn _ _ _ ho, by simp [bind, St.bind, h1]⟩
  | none =>
    simp only [ha] at h1 ⊢
    have h2 := hf (log ++ a)
    rw [List.length_append] at h2
    cases hb : firstThrown F (log.length + a.length) b with
    | none =>
      simp only [hb, Option.map_none] at h2 ⊢
      simp [bind, St.bind, h1, h2]
    | some p =>
      obtain ⟨j, e⟩ := p
      simp only [hb, Option.map_some] at h2 ⊢
      obtain ⟨o, ho, h2⟩ := h2
      refine ⟨o, ho, ?_⟩
      have ht' : (a ++ b).take (j + a.length + 1) = a ++ b.take (j + 1) := by
        have e : j + a.length + 1 = a.length + (j + 1) := by omega
        rw [e, List.take_length_add_append]
      simp [bind, St.bind, h1, h2, ht']

private theorem ends_bind_thrown {α β : Type} {F : Fails κ ν} {x : St (List (Ev κ ν)) α} {f : α → St (List (Ev κ ν)) β} {a b : List (Ev κ ν)} {r : α}
    {q : Outcome β} (hx : Ends F x a (.ok r) Thrown) (hf : Ends F (f r) b q Thrown) : Ends F (x >>= f) (a ++ b) q Thrown :=
  ends_bind (fun e _ o => Thrown e o) (fun _ _ _ h => .inl h) (fun _ _ _ _ => rfl) (fun _ _ _ h => by cases h) hx hf

private theorem ends_bind_either {α β : Type} {F : Fails κ ν} {x : St (List (Ev κ ν)) α} {f : α → St (List (Ev κ ν)) β} {a b : List (Ev κ ν)} {r : α}
    {q : Outcome β} (hx : Ends F x a (.ok r) Either) (hf : Ends F (f r) b q Either) : Ends F (x >>= f) (a ++ b) q Either :=
  ends_bind (fun e _ o => Either e o) (fun _ _ _ h => h) (fun _ _ _ _ => .inl rfl) (fun _ _ _ _ => .inr rfl) hx hf

private theorem ends_weaken {α : Type} {F : Fails κ ν} {x : St (List (Ev κ ν)) α} {es : List (Ev κ ν)} {r : Outcome α} {p q : Exc → Outcome α → Prop}
    (h : ∀ e o, p e o → q e o) (hx : Ends F x es r p) : Ends F x es r q := by
  intro log
  have h1 := hx log
  cases hf : firstThrown F log.length es with
  | none => simpa only [hf] using h1
  | some v =>
    simp only [hf] at h1 ⊢
    obtain ⟨o, ho, h1⟩ := h1
    exact ⟨o, h _ _ ho, h1⟩

private theorem ends_nothrow {α : Type} {F : Fails κ ν} {x : St (List (Ev κ ν)) α} {es : List (Ev κ ν)} {r : α}
    (hx : Ends F x es (.ok r) Either) : Ends F (LookupThrow.nothrow x) es (.ok r) Ended := by
  intro log
  have h1 := hx log
  cases hf : firstThrown F log.length es with
  | none =>
    simp only [hf] at h1 ⊢
    simp [LookupThrow.nothrow, St.run, h1, noexcept]
  | some v =>
    simp only [hf] at h1 ⊢
    obtain ⟨o, ho, h1⟩ := h1
    refine ⟨.terminate, rfl, ?_⟩
    rcases ho with rfl | rfl <;> simp [LookupThrow.nothrow, St.run, h1, noexcept]

private theorem ends_pure {α : Type} (F : Fails κ ν) (r : α) (out : Exc → Outcome α → Prop) : Ends F (pure r) [] (.ok r) out := by
  intro log
  simp [firstThrown, pure, St.pure]

private theorem ends_op (F : Fails κ ν) (e : Ev κ ν) : Ends F (op F e) [e] (.ok ()) Thrown := by
  intro log
  simp only [firstThrown, op]
  cases F e log.length with
  | none => simp
  | some x => exact ⟨_, rfl, by simp⟩

private theorem ends_perform (F : Fails κ ν) (es : List (Ev κ ν)) : Ends F (perform F es) es (.ok ()) Thrown := by
  induction es with
  | nil => exact ends_pure F () _
  | cons e es ih => exact ends_bind_thrown (ends_op F e) ih

private theorem copies_eq (ms : List (κ × ν)) : copies ms = mappingCopies ms := by
  induction ms with
  | nil => rfl
  | cons m ms ih => simp only [copies, List.flatMap_cons, mappingCopies] at *; rw [ih]; rfl

private theorem blanks_eq (ms : List (κ × ν)) :
    (ms.flatMap fun _ => [Ev.blankKey, Ev.blankValue] : List (Ev κ ν)) = (List.replicate ms.length [Ev.blankKey, Ev.blankValue]).flatten := by
  induction ms with
  | nil => rfl
  | cons m ms ih => simp only [List.flatMap_cons, ih, List.length_cons, List.replicate_succ, List.flatten_cons]

private theorem thrown_either {α : Type} (e : Exc) (o : Outcome α) (h : Thrown e o) : Either e o := .inl h
private theorem ended_either {α : Type} (e : Exc) (o : Outcome α) (h : Ended e o) : Either e o := .inr h

/-- The operations of `_init` after its parameters were made. -/
private def initWork : List (κ × ν) → List (Ev κ ν)
  | [] => []
  | m :: others => [.assignKey m.1, .assignValue m.2] ++ (mappingCopies others ++ initWork others)

private theorem ends_init (F : Fails κ ν) (ms : List (κ × ν)) : Ends F (init F ms) (initWork ms) (.ok ()) Ended := by
  induction ms with
  | nil => exact ends_pure F () _
  | cons m ms ih =>
    have e : Ends F (perform F (copies ms)) (mappingCopies ms) (.ok ()) Thrown := by rw [copies_eq]; exact ends_perform F _
    exact ends_nothrow (ends_bind_either (ends_weaken thrown_either (ends_perform F _)) (ends_bind_either (ends_weaken thrown_either e)
      (ends_weaken ended_either ih)))

private theorem init_work (ms : List (κ × ν)) : mappingCopies ms ++ initWork ms = mappingsTaken ms := by
  induction ms with
  | nil => rfl
  | cons m ms ih => rw [mappingsTaken, ← ih]; simp [initWork]

private theorem ends_ctor (F : Fails κ ν) (blank : κ × ν) (ms : List (κ × ν)) :
    Ends F (ctor F blank ms) (insideConstructor ms) (.ok (StaticLookup.make blank ms)) Ended := by
  have e1 : Ends F (perform F (ms.flatMap fun _ => [Ev.blankKey, Ev.blankValue])) (List.replicate ms.length [Ev.blankKey, Ev.blankValue]).flatten
      (.ok ()) Either := by
    rw [blanks_eq]; exact ends_weaken thrown_either (ends_perform F _)
  have e2 : Ends F (perform F (copies ms)) (mappingCopies ms) (.ok ()) Either := by
    rw [copies_eq]; exact ends_weaken thrown_either (ends_perform F _)
  have e3 := ends_bind_either (f := fun _ => pure (StaticLookup.make blank ms)) (ends_weaken ended_either (ends_init F ms))
    (ends_pure F (StaticLookup.make blank ms) Either)
  have e4 := ends_bind_either (f := fun _ => init F ms >>= fun _ => pure (StaticLookup.make blank ms)) e2 e3
  have e5 := ends_nothrow (ends_bind_either (f := fun _ => perform F (copies ms) >>= fun _ => init F ms >>= fun _ => pure (StaticLookup.make blank ms)) e1 e4)
  rw [List.append_nil, init_work] at e5
  exact e5

/-! ## The theorems -/

/-- C216, making a lookup of variables: the caller copies each mapping once, and an exception in this reaches the caller; then come the operations
inside the constructor, and an exception in these ends the program; otherwise the lookup is made. -/
theorem c216_construct_partial (F : Fails κ ν) (blank : κ × ν) (ms : List (κ × ν)) (log : List (Ev κ ν)) :
    (construct F blank ms).run log =
      match firstThrown F log.length (mappingCopies ms) with
      | some (j, x) => (.throw x, log ++ (mappingCopies ms).take (j + 1))
      | none =>
        match firstThrown F (log ++ mappingCopies ms).length (insideConstructor ms) with
        | some (j, _) => (.terminate, log ++ mappingCopies ms ++ (insideConstructor ms).take (j + 1))
        | none => (.ok (StaticLookup.make blank ms), log ++ mappingCopies ms ++ insideConstructor ms) := by
  have h1 := ends_perform F (mappingCopies ms) log
  have h2 := ends_ctor F blank ms (log ++ mappingCopies ms)
  simp only [St.run, construct, copies_eq, bind, St.bind]
  cases ha : firstThrown F log.length (mappingCopies ms) with
  | some p =>
    obtain ⟨j, x⟩ := p
    simp only [ha] at h1 ⊢
    obtain ⟨o, rfl, h1⟩ := h1
    simp [h1]
  | none =>
    simp only [ha] at h1 ⊢
    simp only [h1]
    cases hb : firstThrown F (log ++ mappingCopies ms).length (insideConstructor ms) with
    | some p =>
      obtain ⟨j, x⟩ := p
      simp only [hb] at h2 ⊢
      obtain ⟨o, rfl, h2⟩ := h2
      exact h2
    | none =>
      simp only [hb] at h2 ⊢
      exact h2

/-- C216, `make_static_lookup` of variables: the same, with one more copy of each mapping inside, whose exceptions also end the program. -/
theorem c216_make_partial (F : Fails κ ν) (blank : κ × ν) (ms : List (κ × ν)) (log : List (Ev κ ν)) :
    (makeLookup F blank ms).run log =
      match firstThrown F log.length (mappingCopies ms) with
      | some (j, x) => (.throw x, log ++ (mappingCopies ms).take (j + 1))
      | none =>
        match firstThrown F (log ++ mappingCopies ms).length (mappingCopies ms ++ insideConstructor ms) with
        | some (j, _) => (.terminate, log ++ mappingCopies ms ++ (mappingCopies ms ++ insideConstructor ms).take (j + 1))
        | none => (.ok (StaticLookup.make blank ms), log ++ mappingCopies ms ++ (mappingCopies ms ++ insideConstructor ms)) := by
  have h1 := ends_perform F (mappingCopies ms) log
  have h2 := ends_nothrow (ends_bind_either (f := fun _ => ctor F blank ms) (ends_weaken thrown_either (ends_perform F (mappingCopies ms)))
    (ends_weaken ended_either (ends_ctor F blank ms))) (log ++ mappingCopies ms)
  simp only [St.run, makeLookup, copies_eq, bind, St.bind]
  cases ha : firstThrown F log.length (mappingCopies ms) with
  | some p =>
    obtain ⟨j, x⟩ := p
    simp only [ha] at h1 ⊢
    obtain ⟨o, rfl, h1⟩ := h1
    simp [h1]
  | none =>
    simp only [ha] at h1 ⊢
    simp only [h1]
    cases hb : firstThrown F (log ++ mappingCopies ms).length (mappingCopies ms ++ insideConstructor ms) with
    | some p =>
      obtain ⟨j, x⟩ := p
      simp only [hb] at h2 ⊢
      obtain ⟨o, rfl, h2⟩ := h2
      exact h2
    | none =>
      simp only [hb] at h2 ⊢
      exact h2

/-- C216 is false: whichever operation of a key or value inside the constructor throws, the program ends. -/
theorem c216_refuted_terminate (blank : κ × ν) (ms : List (κ × ν)) (j : Nat) (hj : j < (insideConstructor ms).length) (x : Exc) :
    ((construct (fun _ n => if n = (mappingCopies ms).length + j then some x else none) blank ms).run []).1 = .terminate := by
  have quiet : ∀ (es : List (Ev κ ν)) (m n : Nat), m + es.length ≤ n →
      firstThrown (fun _ i => if i = n then some x else none) m es = none := by
    intro es
    induction es with
    | nil => intros; rfl
    | cons e es ih =>
      intro m n h
      simp only [List.length_cons] at h
      simp only [firstThrown]
      rw [if_neg (by omega), ih (m + 1) n (by omega)]
      rfl
  have loud : ∀ (es : List (Ev κ ν)) (m i : Nat), i < es.length →
      firstThrown (fun _ k => if k = m + i then some x else none) m es = some (i, x) := by
    intro es
    induction es with
    | nil => intro m i h; simp at h
    | cons e es ih =>
      intro m i h
      simp only [firstThrown]
      cases i with
      | zero => simp
      | succ i =>
        rw [if_neg (by omega)]
        have : m + (i + 1) = m + 1 + i := by omega
        simp only [this]
        rw [ih (m + 1) i (by simpa using h)]
        rfl
  rw [c216_construct_partial, quiet _ _ _ (by simp)]
  simp only [List.nil_append]
  rw [loud _ _ _ hj]

/-- Whether an operation is a copy of a key. -/
def isKeyCopy : Ev κ ν → Bool
  | .copyKey _ => true
  | _ => false

/-- C216 is false: a lookup of `n` mappings copies not `n` keys but `n + n (n + 1) / 2`, and with `make_static_lookup` `n` more; the constructor copies
mapping `i` once for every mapping up to it. -/
theorem c216_refuted_copies (blank : κ × ν) (ms : List (κ × ν)) :
    2 * (((construct (fun _ _ => none) blank ms).run []).2.filter isKeyCopy).length = 2 * ms.length + ms.length * (ms.length + 1) ∧
    2 * (((makeLookup (fun _ _ => none) blank ms).run []).2.filter isKeyCopy).length = 4 * ms.length + ms.length * (ms.length + 1) ∧
    ((construct (fun _ _ => none) blank ms).run []).2.filter isKeyCopy =
      (ms.map fun m => .copyKey m.1) ++ (List.range ms.length).flatMap fun i => (ms.drop i).map fun m => .copyKey m.1 := by
  have quiet : ∀ (es : List (Ev κ ν)) (m : Nat), firstThrown (fun _ _ => none) m es = none := by
    intro es
    induction es with
    | nil => intros; rfl
    | cons e es ih => intro m; simp [firstThrown, ih]
  have copiesOf : ∀ ms : List (κ × ν), (mappingCopies ms).filter isKeyCopy = ms.map fun m => .copyKey m.1 := by
    intro ms
    induction ms with
    | nil => rfl
    | cons m ms ih =>
      have : (mappingCopies (m :: ms)).filter isKeyCopy = .copyKey m.1 :: (mappingCopies ms).filter isKeyCopy := rfl
      rw [this, ih]
      rfl
  have blanks : ∀ n : Nat, ((List.replicate n [Ev.blankKey, Ev.blankValue]).flatten : List (Ev κ ν)).filter isKeyCopy = [] := by
    intro n
    induction n with
    | zero => rfl
    | succ n ih => simp [List.replicate_succ, isKeyCopy, ih]
  have taken : ∀ ms : List (κ × ν), (mappingsTaken ms).filter isKeyCopy =
      (List.range ms.length).flatMap fun i => (ms.drop i).map fun m => .copyKey m.1 := by
    intro ms
    induction ms with
    | nil => rfl
    | cons m ms ih =>
      rw [mappingsTaken, List.filter_append, List.filter_append, copiesOf, ih, List.length_cons, List.range_succ_eq_map, List.flatMap_cons,
        List.flatMap_map]
      simp [isKeyCopy]
  have inside : (insideConstructor ms).filter isKeyCopy = (List.range ms.length).flatMap fun i => (ms.drop i).map fun m => .copyKey m.1 := by
    rw [insideConstructor, List.filter_append, blanks, List.nil_append, taken]
  have number : ∀ ms : List (κ × ν), 2 * ((mappingsTaken ms).filter isKeyCopy).length = ms.length * (ms.length + 1) := by
    intro ms
    induction ms with
    | nil => rfl
    | cons m ms ih =>
      rw [mappingsTaken, List.filter_append, List.filter_append, copiesOf, List.length_append, Nat.mul_add, ih]
      simp only [List.length_map, List.length_cons, List.length_append, List.filter_cons, isKeyCopy, List.filter_nil, Bool.false_eq_true, if_false,
        List.length_nil]
      ring
  have e1 : ((construct (fun _ _ => none) blank ms).run []).2 = mappingCopies ms ++ insideConstructor ms := by
    rw [c216_construct_partial]; simp [quiet]
  have e2 : ((makeLookup (fun _ _ => none) blank ms).run []).2 = mappingCopies ms ++ (mappingCopies ms ++ insideConstructor ms) := by
    rw [c216_make_partial]; simp [quiet]
  refine ⟨?_, ?_, ?_⟩
  · rw [e1, List.filter_append, List.length_append, copiesOf, inside, ← taken, Nat.mul_add, number]
    simp
  · rw [e2, List.filter_append, List.filter_append, List.length_append, List.length_append, copiesOf, inside, ← taken, Nat.mul_add, Nat.mul_add, number]
    simp only [List.length_map]
    omega
  · rw [e1, List.filter_append, copiesOf, inside]

private theorem ends_search {ρ : Type} (F : Fails κ ν) (cmp : κ × ν → Ev κ ν) (eq : κ × ν → Bool) (result : κ × ν → ρ) (ms : List (κ × ν)) :
    Ends F (search F cmp eq result ms) ((ms.take (ms.findIdx eq + 1)).map cmp)
      (match ms.find? eq with | none => .throw (.outOfRange "Invalid item") | some p => .ok (result p)) Thrown := by
  induction ms with
  | nil =>
    intro log
    simp [firstThrown, search, St.throw]
  | cons m ms ih =>
    cases h : eq m with
    | true =>
      have := ends_bind_thrown (f := fun _ => if eq m then pure (result m) else search F cmp eq result ms) (ends_op F (cmp m))
        (by rw [h]; exact ends_pure F (result m) _)
      simpa [List.findIdx_cons, h, search] using this
    | false =>
      have := ends_bind_thrown (f := fun _ => if eq m then pure (result m) else search F cmp eq result ms) (ends_op F (cmp m))
        (by rw [h]; exact ih)
      simpa [List.findIdx_cons, h, search] using this

/-- C216: `at(k)` compares the keys in order with `k`, up to and with the first that is equal, and nothing else; an exception of a comparison
reaches the caller, and otherwise the result is that of the first mapping with the key, or `std::out_of_range`.  The lookup is not changed. -/
theorem c216_at_partial (F : Fails κ ν) (eq : κ → κ → Bool) (t : StaticLookup κ ν) (k : κ) (log : List (Ev κ ν)) :
    let compared := (t.items.take (t.items.findIdx (fun m => eq m.1 k) + 1)).map fun m => Ev.compareKeys m.1 k
    (LookupThrow.at' F eq t k).run log =
      match firstThrown F log.length compared with
      | some (j, x) => (.throw x, log ++ compared.take (j + 1))
      | none => (StaticLookup.at' eq t k, log ++ compared) := by
  intro compared
  have h := ends_search F (fun m => .compareKeys m.1 k) (fun m => eq m.1 k) Prod.snd t.items log
  cases hf : firstThrown F log.length compared with
  | some p =>
    simp only [compared] at hf
    simp only [hf] at h
    obtain ⟨o, rfl, h⟩ := h
    exact h
  | none =>
    simp only [compared] at hf
    simp only [hf] at h
    exact h

/-- C216: `with(v)` does the same with the values. -/
theorem c216_with_partial (F : Fails κ ν) (eq : ν → ν → Bool) (t : StaticLookup κ ν) (v : ν) (log : List (Ev κ ν)) :
    let compared := (t.items.take (t.items.findIdx (fun m => eq m.2 v) + 1)).map fun m => Ev.compareValues m.2 v
    (LookupThrow.with' F eq t v).run log =
      match firstThrown F log.length compared with
      | some (j, x) => (.throw x, log ++ compared.take (j + 1))
      | none => (StaticLookup.with' eq t v, log ++ compared) := by
  intro compared
  have h := ends_search F (fun m => .compareValues m.2 v) (fun m => eq m.2 v) Prod.fst t.items log
  cases hf : firstThrown F log.length compared with
  | some p =>
    simp only [compared] at hf
    simp only [hf] at h
    obtain ⟨o, rfl, h⟩ := h
    exact h
  | none =>
    simp only [compared] at hf
    simp only [hf] at h
    exact h

/-! ## Examples -/

/-- A lookup of two mappings copies the first key twice and the second three times. -/
example : ((construct (fun _ _ => none) (0, 0) [(1, 10), (2, 20)]).run ([] : List (Ev Nat Nat))).2.filter isKeyCopy =
    [.copyKey 1, .copyKey 2, .copyKey 1, .copyKey 2, .copyKey 2] := by decide +kernel

/-- The second comparison throws; the first copy in the constructor throws; the second copy of the caller throws. -/
example : (LookupThrow.at' (fun _ n => if n = 1 then some (.user 7) else none) (· == ·) ⟨[(1, 10), (2, 20), (3, 30)]⟩ 3).run
      ([] : List (Ev Nat Nat)) = (.throw (.user 7), [.compareKeys 1 3, .compareKeys 2 3]) ∧
    ((construct (fun e n => if e = .copyKey 1 ∧ 4 ≤ n then some (.user 7) else none) (0, 0) [(1, 10), (2, 20)]).run ([] : List (Ev Nat Nat))).1 =
      .terminate ∧
    ((construct (fun e _ => if e = .copyKey 2 then some (.user 7) else none) (0, 0) [(1, 10), (2, 20)]).run ([] : List (Ev Nat Nat))).1 =
      .throw (.user 7) := by decide +kernel

example : (LookupThrow.with' (fun _ _ => none) (· == ·) ⟨[(1, 10), (2, 20), (3, 30)]⟩ 20).run ([] : List (Ev Nat Nat)) =
    (.ok 2, [.compareValues 10 20, .compareValues 20 20]) := by decide +kernel

end Wite.Props
