import Verif.Model.ValueTypes

/-!
# Property C207: the library's types are values made of values
-/

namespace Wite.Props

open Wite.ValueTypes

/-! ## What a type is made of -/

/-- The types a type is made of in the end, by what can be done with their objects: a type of the library is looked through if its
objects consist of values of the types it is of. -/
def atoms : Ty → List Ty
  | .ident t | .range t | .bounded t | .vector t => atoms t
  | .result v e => atoms v ++ atoms e
  | .lookup k v => atoms k ++ atoms v
  | t => [t]

/-- Those of them that are in a vector or result, of which objects come and go when one is assigned. -/
def loose : Ty → List Ty
  | .ident t | .range t | .bounded t => loose t
  | .vector t => atoms t
  | .result v e => atoms v ++ atoms e
  | .lookup k v => loose k ++ loose v
  | _ => []

/-- A type that can be copied can be moved, and one that can be assigned from an lvalue also from an rvalue, as every type that does not
forbid moving. -/
def Sane (t : Ty) : Prop :=
  ((can t).copy = true → (can t).move = true) ∧ ((can t).copyAssign = true → (can t).moveAssign = true)

private theorem bool_or_of_imp {a b : Bool} (h : b = true → a = true) : (a || b) = a := by cases a <;> cases b <;> simp_all

private theorem all_imp {α : Type} {p q : α → Bool} {l : List α} (h : ∀ a ∈ l, p a = true → q a = true) (hp : l.all p = true) : l.all q = true := by
  rw [List.all_eq_true] at *
  exact fun a ha => h a ha (hp a ha)

private theorem loose_sub : ∀ (t : Ty), ∀ a ∈ loose t, a ∈ atoms t := by
  intro t
  induction t with
  | ident t ih | range t ih | bounded t ih => exact ih
  | vector t _ => exact fun a h => h
  | result v e _ _ => exact fun a h => h
  | lookup k v ihk ihv =>
    intro a h
    simp only [loose, atoms, List.mem_append] at *
    exact h.imp (ihk a) (ihv a)
  | _ => intro a h; simp [loose] at h

/-- C207, copying: an object of a type can be copied exactly if objects of all the types it is made of can. -/
theorem c207_copy (t : Ty) : (can t).copy = (atoms t).all (fun a => (can a).copy) := by
  induction t with
  | ident t ih => simp [can, Can.ofMembers, atoms, ih]
  | range t ih => simp [can, Can.ofMembers, atoms, ih]
  | bounded t ih => simp [can, Can.ofMembers, atoms, ih]
  | vector t ih => simp [can, Can.ofMembers, Can.optional, Can.all, atoms, ih]
  | result v e ihv ihe => simp [can, Can.ofMembers, Can.variant, atoms, ihv, ihe]
  | lookup k v ihk ihv => simp [can, Can.ofMembers, atoms, ihk, ihv]
  | _ => simp [atoms]

private theorem sane_all {t : Ty} (h : ∀ a ∈ atoms t, Sane a) :
    (atoms t).all (fun a => (can a).copy) = true → (atoms t).all (fun a => (can a).move) = true :=
  all_imp fun a ha => (h a ha).1

/-- C207, moving: an object of a type can be moved exactly if objects of all the types it is made of can. -/
theorem c207_move (t : Ty) (h : ∀ a ∈ atoms t, Sane a) : (can t).move = (atoms t).all (fun a => (can a).move) := by
  induction t with
  | ident t ih | range t ih | bounded t ih =>
    have := sane_all (t := t) h
    have e := ih h
    have c := c207_copy t
    simp only [can, Can.ofMembers, atoms, List.all_cons, List.all_nil, Bool.and_true, Bool.and_self]
    rw [e, c]
    simp only [bool_or_of_imp this, Bool.and_self]
  | vector t ih =>
    have := sane_all (t := t) h
    have e := ih h
    have c := c207_copy t
    simp only [can, Can.ofMembers, Can.optional, Can.all, atoms, List.all_cons, List.all_nil, Bool.and_true, Bool.and_self]
    rw [e, c]
    simp only [bool_or_of_imp this]
  | result v e ihv ihe =>
    have hv : ∀ a ∈ atoms v, Sane a := fun a ha => h a (by simp [atoms, ha])
    have he : ∀ a ∈ atoms e, Sane a := fun a ha => h a (by simp [atoms, ha])
    have sv := sane_all hv
    have se := sane_all he
    have cv := c207_copy v
    have ce := c207_copy e
    simp only [can, Can.ofMembers, Can.variant, atoms, List.all_cons, List.all_nil, Bool.and_true, List.all_append]
    rw [ihv hv, ihe he, cv, ce]
    generalize (atoms v).all (fun a => (can a).move) = a at *
    generalize (atoms e).all (fun a => (can a).move) = b at *
    generalize (atoms v).all (fun a => (can a).copy) = c at *
    generalize (atoms e).all (fun a => (can a).copy) = d at *
    revert sv se
    cases a <;> cases b <;> cases c <;> cases d <;> decide
  | lookup v e ihv ihe =>
    have hv : ∀ a ∈ atoms v, Sane a := fun a ha => h a (by simp [atoms, ha])
    have he : ∀ a ∈ atoms e, Sane a := fun a ha => h a (by simp [atoms, ha])
    have sv := sane_all hv
    have se := sane_all he
    have cv := c207_copy v
    have ce := c207_copy e
    simp only [can, Can.ofMembers, atoms, List.all_cons, List.all_nil, Bool.and_true, List.all_append]
    rw [ihv hv, ihe he, cv, ce]
    generalize (atoms v).all (fun a => (can a).move) = a at *
    generalize (atoms e).all (fun a => (can a).move) = b at *
    generalize (atoms v).all (fun a => (can a).copy) = c at *
    generalize (atoms e).all (fun a => (can a).copy) = d at *
    revert sv se
    cases a <;> cases b <;> cases c <;> cases d <;> decide
  | _ => simp [atoms]

/-- C207, assigning from an lvalue: possible exactly if it is for all the types a type is made of, and those in a vector or result can also be
copied. -/
theorem c207_assign (t : Ty) : (can t).copyAssign =
    ((atoms t).all (fun a => (can a).copyAssign) && (loose t).all (fun a => (can a).copy)) := by
  induction t with
  | ident t ih => simp [can, Can.ofMembers, atoms, loose, ih]
  | range t ih => simp [can, Can.ofMembers, atoms, loose, ih]
  | bounded t ih => simp [can, Can.ofMembers, atoms, loose, ih]
  | vector t ih =>
    have hl : (atoms t).all (fun a => (can a).copy) = true → (loose t).all (fun a => (can a).copy) = true := by
      intro h
      rw [List.all_eq_true] at *
      exact fun a ha => h a (loose_sub t a ha)
    simp only [can, Can.ofMembers, Can.optional, Can.all, atoms, loose, ih, c207_copy t, List.all_cons, List.all_nil, Bool.and_true]
    revert hl
    generalize (atoms t).all (fun a => (can a).copyAssign) = a
    generalize (atoms t).all (fun a => (can a).copy) = c
    generalize (loose t).all (fun a => (can a).copy) = d
    cases a <;> cases c <;> cases d <;> decide
  | result v e ihv ihe =>
    have hl : ∀ t, (atoms t).all (fun a => (can a).copy) = true → (loose t).all (fun a => (can a).copy) = true := by
      intro t h
      rw [List.all_eq_true] at *
      exact fun a ha => h a (loose_sub t a ha)
    have h1 := hl v
    have h2 := hl e
    simp only [can, Can.ofMembers, Can.variant, atoms, loose, ihv, ihe, c207_copy v, c207_copy e, List.all_cons, List.all_nil,
      Bool.and_true, List.all_append]
    revert h1 h2
    generalize (atoms v).all (fun a => (can a).copyAssign) = a
    generalize (atoms v).all (fun a => (can a).copy) = c
    generalize (loose v).all (fun a => (can a).copy) = d
    generalize (atoms e).all (fun a => (can a).copyAssign) = a'
    generalize (atoms e).all (fun a => (can a).copy) = c'
    generalize (loose e).all (fun a => (can a).copy) = d'
    cases a <;> cases c <;> cases d <;> cases a' <;> cases c' <;> cases d' <;> decide
  | lookup v e ihv ihe =>
    simp only [can, Can.ofMembers, atoms, loose, ihv, ihe, List.all_cons, List.all_nil, Bool.and_true, List.all_append]
    generalize (atoms v).all (fun a => (can a).copyAssign) = a
    generalize (loose v).all (fun a => (can a).copy) = d
    generalize (atoms e).all (fun a => (can a).copyAssign) = a'
    generalize (loose e).all (fun a => (can a).copy) = d'
    cases a <;> cases d <;> cases a' <;> cases d' <;> rfl
  | _ => simp [atoms, loose]

private theorem assign_imp {t : Ty} (h : ∀ a ∈ atoms t, Sane a) :
    ((atoms t).all (fun a => (can a).copyAssign) && (loose t).all (fun a => (can a).copy)) = true →
    ((atoms t).all (fun a => (can a).moveAssign) && (loose t).all (fun a => (can a).move)) = true := by
  simp only [Bool.and_eq_true]
  rintro ⟨h1, h2⟩
  exact ⟨all_imp (fun a ha => (h a ha).2) h1, all_imp (fun a ha => (h a (loose_sub t a ha)).1) h2⟩

/-- C207, assigning from an rvalue: possible exactly if it is for all the types a type is made of, and those in a vector or result can also be
moved. -/
theorem c207_move_assign (t : Ty) (h : ∀ a ∈ atoms t, Sane a) : (can t).moveAssign =
    ((atoms t).all (fun a => (can a).moveAssign) && (loose t).all (fun a => (can a).move)) := by
  induction t with
  | ident t ih | range t ih | bounded t ih =>
    have hi := assign_imp (t := t) h
    have e := ih h
    have c := c207_assign t
    simp only [can, Can.ofMembers, atoms, loose, List.all_cons, List.all_nil, Bool.and_true, Bool.and_self]
    rw [e, c]
    simp only [bool_or_of_imp hi, Bool.and_self]
  | vector t ih =>
    have hl : (atoms t).all (fun a => (can a).move) = true → (loose t).all (fun a => (can a).move) = true := by
      intro h
      rw [List.all_eq_true] at *
      exact fun a ha => h a (loose_sub t a ha)
    have h1 := sane_all (t := t) h
    have h2 := assign_imp (t := t) h
    have hc : (atoms t).all (fun a => (can a).copy) = true → (loose t).all (fun a => (can a).copy) = true := by
      intro h
      rw [List.all_eq_true] at *
      exact fun a ha => h a (loose_sub t a ha)
    simp only [can, Can.ofMembers, Can.optional, Can.all, atoms, loose, ih h, c207_copy t, c207_move t h, c207_assign t, List.all_cons,
      List.all_nil, Bool.and_true]
    revert hl h1 h2 hc
    generalize (atoms t).all (fun a => (can a).moveAssign) = a
    generalize (atoms t).all (fun a => (can a).copyAssign) = b
    generalize (atoms t).all (fun a => (can a).copy) = c
    generalize (atoms t).all (fun a => (can a).move) = d
    generalize (loose t).all (fun a => (can a).move) = e
    generalize (loose t).all (fun a => (can a).copy) = f
    cases a <;> cases b <;> cases c <;> cases d <;> cases e <;> cases f <;> decide
  | result v e ihv ihe =>
    have hv : ∀ a ∈ atoms v, Sane a := fun a ha => h a (by simp [atoms, ha])
    have he : ∀ a ∈ atoms e, Sane a := fun a ha => h a (by simp [atoms, ha])
    have key : ∀ t, (∀ a ∈ atoms t, Sane a) → ((can t).moveAssign =
        ((atoms t).all (fun a => (can a).moveAssign) && (loose t).all (fun a => (can a).move))) →
        ((can t).move && (can t).moveAssign) = ((atoms t).all (fun a => (can a).moveAssign) && (atoms t).all (fun a => (can a).move)) ∧
        (((can t).copy && (can t).copyAssign) = true → ((can t).move && (can t).moveAssign) = true) := by
      intro t ht e
      have hl : (atoms t).all (fun a => (can a).move) = true → (loose t).all (fun a => (can a).move) = true := by
        intro h
        rw [List.all_eq_true] at *
        exact fun a ha => h a (loose_sub t a ha)
      have h1 := sane_all ht
      have h2 := assign_imp ht
      rw [e, c207_copy t, c207_move t ht, c207_assign t]
      constructor
      · revert hl
        generalize (atoms t).all (fun a => (can a).moveAssign) = a
        generalize (atoms t).all (fun a => (can a).move) = b
        generalize (loose t).all (fun a => (can a).move) = c
        cases a <;> cases b <;> cases c <;> decide
      · intro hc
        rw [Bool.and_eq_true] at hc
        rw [h1 hc.1, h2 hc.2]
        rfl
    obtain ⟨k1, k2⟩ := key v hv (ihv hv)
    obtain ⟨k3, k4⟩ := key e he (ihe he)
    have goal : (can (.result v e)).moveAssign =
        (((can v).move && (can v).moveAssign) && ((can e).move && (can e).moveAssign)) := by
      simp only [can, Can.ofMembers, Can.variant, List.all_cons, List.all_nil, Bool.and_true]
      revert k2 k4
      generalize (can v).move = a
      generalize (can v).moveAssign = b
      generalize (can e).move = c
      generalize (can e).moveAssign = d
      generalize (can v).copy = a'
      generalize (can v).copyAssign = b'
      generalize (can e).copy = c'
      generalize (can e).copyAssign = d'
      cases a <;> cases b <;> cases c <;> cases d <;> simp +contextual
    rw [goal, k1, k3]
    simp only [atoms, loose, List.all_append]
    generalize (atoms v).all (fun a => (can a).moveAssign) = a
    generalize (atoms v).all (fun a => (can a).move) = b
    generalize (atoms e).all (fun a => (can a).moveAssign) = c
    generalize (atoms e).all (fun a => (can a).move) = d
    cases a <;> cases b <;> cases c <;> cases d <;> rfl
  | lookup v e ihv ihe =>
    have hv : ∀ a ∈ atoms v, Sane a := fun a ha => h a (by simp [atoms, ha])
    have he : ∀ a ∈ atoms e, Sane a := fun a ha => h a (by simp [atoms, ha])
    have h1 := assign_imp hv
    have h2 := assign_imp he
    rw [← c207_assign, ← ihv hv] at h1
    rw [← c207_assign, ← ihe he] at h2
    have goal : (can (.lookup v e)).moveAssign = ((can v).moveAssign && (can e).moveAssign) := by
      simp only [can, Can.ofMembers, List.all_cons, List.all_nil, Bool.and_true]
      revert h1 h2
      generalize (can v).moveAssign = a
      generalize (can e).moveAssign = b
      generalize (can v).copyAssign = c
      generalize (can e).copyAssign = d
      cases a <;> cases b <;> cases c <;> cases d <;> decide
    rw [goal, ihv hv, ihe he]
    simp only [atoms, loose, List.all_append]
    generalize (atoms v).all (fun a => (can a).moveAssign) = a
    generalize (loose v).all (fun a => (can a).move) = b
    generalize (atoms e).all (fun a => (can a).moveAssign) = c
    generalize (loose e).all (fun a => (can a).move) = d
    cases a <;> cases b <;> cases c <;> cases d <;> rfl
  | _ => simp [atoms, loose]

/-! ## What holds of the claim -/

/-- Everything but `T{}`. -/
def Assignable (t : Ty) : Prop :=
  (can t).copy = true ∧ (can t).move = true ∧ (can t).copyAssign = true ∧ (can t).moveAssign = true ∧ swappable t = true

/-- C207: an object of a type that is made, however deeply, of types of which objects can be copied, moved and assigned can be copied,
moved, assigned and swapped. -/
theorem c207_values_partial (t : Ty) (h : ∀ a ∈ atoms t, Assignable a) : Assignable t := by
  have hs : ∀ a ∈ atoms t, Sane a := fun a ha => ⟨fun _ => (h a ha).2.1, fun _ => (h a ha).2.2.2.1⟩
  have h1 : (can t).copy = true := by rw [c207_copy, List.all_eq_true]; exact fun a ha => (h a ha).1
  have h2 : (can t).move = true := by rw [c207_move t hs, List.all_eq_true]; exact fun a ha => (h a ha).2.1
  have h3 : (can t).copyAssign = true := by
    rw [c207_assign, Bool.and_eq_true, List.all_eq_true, List.all_eq_true]
    exact ⟨fun a ha => (h a ha).2.2.1, fun a ha => (h a (loose_sub t a ha)).1⟩
  have h4 : (can t).moveAssign = true := by
    rw [c207_move_assign t hs, Bool.and_eq_true, List.all_eq_true, List.all_eq_true]
    exact ⟨fun a ha => (h a ha).2.2.2.1, fun a ha => (h a (loose_sub t a ha)).2.1⟩
  exact ⟨h1, h2, h3, h4, by simp [swappable, h2, h4]⟩

/-- C207: made of types that can be copied, moved and assigned, all members of a vector that take an element compile, and all members of a
result; `resize(n)` also needs `T{}`. -/
theorem c207_members_partial (t e : Ty) (ht : ∀ a ∈ atoms t, Assignable a) (he : ∀ a ∈ atoms e, Assignable a) :
    (∀ u : VectorUse, u ≠ .resize → u.compiles (can t) = true) ∧
    (VectorUse.resize.compiles (can t) = (can t).dflt) ∧ ∀ u : ResultUse, u.compiles t e = true := by
  obtain ⟨a1, a2, a3, a4, a5⟩ := c207_values_partial t ht
  obtain ⟨b1, b2, b3, b4, b5⟩ := c207_values_partial e he
  obtain ⟨c1, c2, c3, c4, c5⟩ := c207_values_partial (.result t e) (by
    intro a ha
    simp only [atoms, List.mem_append] at ha
    exact ha.elim (ht a) (he a))
  refine ⟨fun u hu => ?_, ?_, fun u => ?_⟩
  · cases u <;> simp_all [VectorUse.compiles, allocCompiles, Can.optional]
  · simp [VectorUse.compiles, allocCompiles, Can.optional, a1, a2, a3, a4]
  · cases u <;> simp_all [ResultUse.compiles]

/-- C207, `T{}`: of an id or range exactly if it exists for the value, of a result exactly if it does for the value type, whatever the
error type, and always of a vector. -/
theorem c207_default (t e : Ty) :
    (can (.ident t)).dflt = (can t).dflt ∧ (can (.range t)).dflt = (can t).dflt ∧ (can (.result t e)).dflt = (can t).dflt ∧
    (can (.vector t)).dflt = true := by
  simp [can, Can.ofMembers, Can.optional, Can.variant, Can.all]

/-! ## What does not hold -/

/-- C207 is false: `T{}` compiles for no bounded value and no lookup, whatever they are of, although it does for their parts; so an
array or vector of them cannot be given a size only. -/
theorem c207_refuted_default (t u : Ty) :
    (can (.bounded t)).dflt = false ∧ (can (.lookup t u)).dflt = false ∧
    VectorUse.resize.compiles (can (.bounded t)) = false ∧ VectorUse.resize.compiles (can (.lookup t u)) = false := by
  simp [can, VectorUse.compiles]

/-- C207 is false for views and iterators of fragment strings: they can be copied, but nothing in which there is one, however deep, can be
assigned or swapped. -/
theorem c207_refuted_views (t : Ty) (h : Ty.view ∈ atoms t ∨ Ty.fragmentIterator ∈ atoms t) (hs : ∀ a ∈ atoms t, Sane a) :
    (can t).copyAssign = false ∧ (can t).moveAssign = false ∧ swappable t = false := by
  obtain ⟨a, ha, h1, h2⟩ : ∃ a ∈ atoms t, (can a).copyAssign = false ∧ (can a).moveAssign = false := by
    rcases h with h | h
    · exact ⟨_, h, rfl, rfl⟩
    · exact ⟨_, h, rfl, rfl⟩
  have e1 : (can t).copyAssign = false := by
    rw [c207_assign, Bool.and_eq_false_iff]
    exact .inl (List.all_eq_false.2 ⟨a, ha, by simp [h1]⟩)
  have e2 : (can t).moveAssign = false := by
    rw [c207_move_assign t hs, Bool.and_eq_false_iff]
    exact .inl (List.all_eq_false.2 ⟨a, ha, by simp [h2]⟩)
  exact ⟨e1, e2, by simp [swappable, e2]⟩

/-- C207 is false for collections: nothing in which there is one, however deep, can be copied, nor assigned from an lvalue. -/
theorem c207_refuted_collections (t u : Ty) (h : Ty.collection u ∈ atoms t) :
    (can t).copy = false ∧ (can t).copyAssign = false := by
  refine ⟨?_, ?_⟩
  · rw [c207_copy]; exact List.all_eq_false.2 ⟨_, h, by simp [can]⟩
  · rw [c207_assign, Bool.and_eq_false_iff]
    exact .inl (List.all_eq_false.2 ⟨_, h, by simp [can]⟩)

/-- C207: what is made of collections and of types that can be copied, moved and assigned can still be moved, assigned from an rvalue and
swapped. -/
theorem c207_moved_partial (t : Ty) (h : ∀ a ∈ atoms t, Assignable a ∨ ∃ u, a = .collection u) :
    (can t).move = true ∧ (can t).moveAssign = true ∧ swappable t = true := by
  have hm : ∀ a ∈ atoms t, (can a).move = true ∧ (can a).moveAssign = true := by
    intro a ha
    rcases h a ha with h | ⟨u, rfl⟩
    · exact ⟨h.2.1, h.2.2.2.1⟩
    · exact ⟨rfl, rfl⟩
  have hs : ∀ a ∈ atoms t, Sane a := fun a ha => ⟨fun _ => (hm a ha).1, fun _ => (hm a ha).2⟩
  have h2 : (can t).move = true := by rw [c207_move t hs, List.all_eq_true]; exact fun a ha => (hm a ha).1
  have h4 : (can t).moveAssign = true := by
    rw [c207_move_assign t hs, Bool.and_eq_true, List.all_eq_true, List.all_eq_true]
    exact ⟨fun a ha => (hm a ha).2, fun a ha => (hm a (loose_sub t a ha)).1⟩
  exact ⟨h2, h4, by simp [swappable, h2, h4]⟩

example : swappable (.result (.vector (.collection .simple)) .simple) = true :=
  (c207_moved_partial _ (by
    intro a ha
    simp only [atoms, List.mem_append, List.mem_singleton] at ha
    rcases ha with rfl | rfl
    · exact Or.inr ⟨_, rfl⟩
    · exact Or.inl (by unfold Assignable; decide))).2.2

/-- C207 is false for guards: nothing in which there is one, however deep, can be copied, moved or swapped. -/
theorem c207_refuted_guards (t f : Ty) (h : Ty.guard f ∈ atoms t) (hs : ∀ a ∈ atoms t, Sane a) :
    (can t).copy = false ∧ (can t).move = false ∧ swappable t = false := by
  have e1 : (can t).copy = false := by rw [c207_copy]; exact List.all_eq_false.2 ⟨_, h, by simp [can]⟩
  have e2 : (can t).move = false := by rw [c207_move t hs]; exact List.all_eq_false.2 ⟨_, h, by simp [can]⟩
  exact ⟨e1, e2, by simp [swappable, e2]⟩

/-- C207 is false for vectors of objects that can be moved and assigned but not copied, such as collections: there is such a vector, it
can be moved and assigned, but no member that adds an element compiles. -/
theorem c207_refuted_filled (t : Ty) (h : (can t).copy = false) (hm : (can t).move = true) (ha : (can t).moveAssign = true) :
    (can (.vector t)).dflt = true ∧ (can (.vector t)).move = true ∧ (can (.vector t)).moveAssign = true ∧
    ∀ u : VectorUse, u.compiles (can t) = false := by
  refine ⟨?_, ?_, ?_, fun u => ?_⟩
  · simp [can, Can.ofMembers, Can.optional, Can.all]
  · simp [can, Can.ofMembers, Can.optional, Can.all, hm]
  · simp [can, Can.ofMembers, Can.optional, Can.all, hm, ha]
  · cases u <;> simp [VectorUse.compiles, allocCompiles, h]

/-- C207 is false for vectors of objects that can be copied but not assigned, such as views: no member that adds an element compiles. -/
theorem c207_refuted_views_filled (t : Ty) (h1 : (can t).copyAssign = false) (h2 : (can t).moveAssign = false) (u : VectorUse) :
    u.compiles (can t) = false := by
  cases u <;> simp [VectorUse.compiles, allocCompiles, Can.optional, h1, h2]

/-- C207 is false for results of values that can be moved and assigned but not copied: such a result can be made, moved, assigned and
swapped, but `value_or`, `and_then`, `or_else`, `transform` and `transform_error` do not compile. -/
theorem c207_refuted_results (v e : Ty) (h : (can v).copy = false) (hm : (can v).move = true) (ha : (can v).moveAssign = true)
    (he : Assignable e) (u : ResultUse) : u.compiles v e = true ↔ u = .ofValue ∨ u = .ofError ∨ u = .swap := by
  obtain ⟨e1, e2, e3, e4, -⟩ := he
  cases u <;> simp [ResultUse.compiles, swappable, can, Can.ofMembers, Can.variant, h, hm, ha, e2, e4]

/-- C207 is false for results with a view, such as `try_make_byte_read_buffer_view` returns: such a result can be copied and `and_then` and `or_else`
compile, but it cannot be assigned or swapped and `transform` and `transform_error` do not compile, whatever the error. -/
theorem c207_refuted_view_results (e : Ty) (he : Assignable e) (u : ResultUse) :
    (can (.result .view e)).copy = true ∧ (can (.result .view e)).copyAssign = false ∧ (can (.result .view e)).moveAssign = false ∧
    (u.compiles .view e = true ↔ u ≠ .transform ∧ u ≠ .transformError ∧ u ≠ .swap) := by
  obtain ⟨e1, e2, e3, e4, -⟩ := he
  refine ⟨by simp [can, Can.ofMembers, Can.variant, e1], by simp [can, Can.ofMembers, Can.variant],
    by simp [can, Can.ofMembers, Can.variant], ?_⟩
  cases u <;> simp [ResultUse.compiles, swappable, can, Can.ofMembers, Can.variant, e1, e2]

/-- C207 is false for lookups: they need keys and values that can be made without a value, copied and assigned. -/
theorem c207_refuted_lookups (k v : Ty) (h : (can k).dflt = false ∨ (can v).dflt = false ∨ (can k).copy = false ∨ (can v).copy = false ∨
    (can k).copyAssign = false ∨ (can v).copyAssign = false) : lookupCompiles k v = false := by
  unfold lookupCompiles
  rcases h with h | h | h | h | h | h <;> simp [h]

/-- C207: a lookup of keys and values made of types that can be copied, moved and assigned compiles exactly if keys and values can be made
without a value. -/
theorem c207_lookups_partial (k v : Ty) (hk : ∀ a ∈ atoms k, Assignable a) (hv : ∀ a ∈ atoms v, Assignable a) :
    lookupCompiles k v = true ↔ (can k).dflt = true ∧ (can v).dflt = true := by
  obtain ⟨a1, a2, a3, a4, a5⟩ := c207_values_partial k hk
  obtain ⟨b1, b2, b3, b4, b5⟩ := c207_values_partial v hv
  simp [lookupCompiles, a1, a3, b1, b3]

/-- C207: a guard can be assigned though it cannot be copied or moved, from an lvalue exactly if its function can be copied and assigned, from an
rvalue exactly if it can be moved and assigned. -/
theorem c207_guards_partial (f : Ty) (hf : Sane f) :
    (can (.guard f)).copyAssign = ((can f).copy && (can f).copyAssign) ∧
    (can (.guard f)).moveAssign = ((can f).move && (can f).moveAssign) := by
  obtain ⟨h1, h2⟩ := hf
  revert h1 h2
  simp only [can, Can.ofMembers, Can.optional, List.all_cons, List.all_nil, Bool.and_true]
  generalize (can f).move = a
  generalize (can f).moveAssign = b
  generalize (can f).copy = c
  generalize (can f).copyAssign = d
  cases a <;> cases b <;> cases c <;> cases d <;> decide

/-! ## Examples -/

example : Assignable .simple := by unfold Assignable; decide

/-- A vector of results of ranges of ids of numbers. -/
example : Assignable (.vector (.result (.range (.ident (.other .all))) .simple)) :=
  c207_values_partial _ (by
    intro a ha
    simp only [atoms, List.mem_append, List.mem_singleton] at ha
    rcases ha with rfl | rfl <;> (unfold Assignable; decide))

/-- A function pointer in a guard; a lambda, which cannot be assigned. -/
example : can (.guard (.other .all)) = ⟨false, false, false, true, true⟩ ∧
    can (.guard (.other ⟨false, true, true, false, false⟩)) = ⟨false, false, false, false, false⟩ := by decide

/-- A vector of collections, and one of views. -/
example : can (.vector (.collection .simple)) = ⟨true, false, true, false, true⟩ ∧ can (.vector .view) = ⟨true, true, true, false, false⟩ ∧
    VectorUse.pushBackMoved.compiles (can (.collection .simple)) = false ∧ VectorUse.pushBack.compiles (can .view) = false := by decide

example : Sane .view ∧ Sane (.collection .simple) ∧ Sane (.guard (.other .all)) ∧ Ty.view ∈ atoms (.vector (.result .view .simple)) := by
  unfold Sane; decide

example : lookupCompiles (.ident .simple) (.range (.other .all)) = true ∧ lookupCompiles .simple (.bounded .simple) = false := by decide

end Wite.Props
