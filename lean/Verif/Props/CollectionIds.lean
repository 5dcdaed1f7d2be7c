import Verif.Lemmas.CollectionIds

/-!
# Property C180: which item of an `identifiable_item_collection` an id names
-/

namespace Wite.Props

open Wite Wite.Collections Wite.Spec.ItemCollection Wite.Spec.CollectionIds

variable {ι α : Type}

/-- Memory never runs out. -/
private abbrev plenty : Site → Nat → Bool := fun _ _ => true

/-- No call of the program changes the id of an item through a reference. -/
private abbrev KeepsIds (idOf : α → ι) (ops : List (ItemCollection.Op ι α)) : Prop :=
  ∀ op ∈ ops, match op with
    | .modify _ f => ∀ x, idOf (f x) = idOf x
    | _ => True

private theorem keepsIds {idOf : α → ι} {ops : List (ItemCollection.Op ι α)} (h : KeepsIds idOf ops) :
    ∀ op ∈ ops, op.keepsIds idOf := by
  intro op hop
  have := h op hop
  cases op <;> simp_all [ItemCollection.Op.keepsIds]

/-- The state after a program on an empty collection, if no call had undefined behaviour. -/
private abbrev after (c : IdCmp ι) (b : Build) (idOf : α → ι) (ops : List (ItemCollection.Op ι α)) : Option (ItemCollection ι α) :=
  St.history (ItemCollection.stepC c b plenty idOf) ops ItemCollection.empty

/-- What the calls of a program on an empty collection return or throw. -/
private abbrev results (c : IdCmp ι) (b : Build) (idOf : α → ι) (ops : List (ItemCollection.Op ι α)) :
    List (Outcome ItemCollection.Ret) :=
  (St.outcomes (ItemCollection.stepC c b plenty idOf) ops ItemCollection.empty).1

/-- The equivalence of keys of a `std::map` with this comparison: neither is less. -/
private abbrev mapSame (lt : ι → ι → Bool) (x y : ι) : Bool := !lt x y && !lt y x

/-- Keys for an equivalence. -/
private theorem exists_key {c : IdCmp ι} (hs : Equivalence fun x y => c.same x y = true) :
    ∃ (κ : Type) (_ : DecidableEq κ) (q : ι → κ), ∀ x y, c.same x y = decide (q x = q y) := by
  classical
  refine ⟨Quotient ⟨_, hs⟩, inferInstance, fun x => Quotient.mk _ x, ?_⟩
  intro x y
  by_cases h : c.same x y = true
  · rw [h, eq_comm, decide_eq_true_eq]
    exact Quotient.sound (s := ⟨_, hs⟩) h
  · rw [Bool.not_eq_true] at h
    rw [h, eq_comm, decide_eq_false_iff_not]
    intro hq
    have h' : c.same x y = true := Quotient.exact (s := ⟨_, hs⟩) hq
    rw [h] at h'
    cases h'

private theorem inv_empty_keys {κ : Type} [DecidableEq κ] (q : ι → κ) (idOf : α → ι) :
    ItemCollection.Inv (fun x => q (idOf x)) [] (ItemCollection.keys q (ItemCollection.empty : ItemCollection ι α)) :=
  ItemCollection.inv_empty _

/-! ## C180 -/

/-- C180, the case where ids that are `==` are never different keys: at every moment of every program the
collection shows the insertion-ordered list in which no two items have equivalent ids; `insert`, `try_insert`, `emplace`,
`contains`, `at` and `excise` go by equivalence, `erase` by `==`.  Nothing is undefined and no assertion fails.  Missing:
agreement of `erase` with the others for ids that are equivalent but not `==` (false, `c180_refuted_finer`), and ids that are `==` but
different keys (false, `c180_refuted_dangling`). -/
theorem c180_partial (c : IdCmp ι) (hs : Equivalence fun x y => c.same x y = true)
    (heq : ∀ x y, c.eq x y = true → c.same x y = true) (b : Build) (idOf : α → ι)
    (ops : List (ItemCollection.Op ι α)) (h : KeepsIds idOf ops) :
    AgreesC c b plenty idOf ops ItemCollection.empty [] := by
  obtain ⟨κ, _, q, hq⟩ := exists_key hs
  exact ItemCollection.agreesC hq (fun _ _ => rfl) b heq ops (inv_empty_keys q idOf) (keepsIds h)

/-- C180, the same case: the ids of the items are pairwise not equivalent, at every moment. -/
theorem c180_distinct_partial (c : IdCmp ι) (hs : Equivalence fun x y => c.same x y = true)
    (heq : ∀ x y, c.eq x y = true → c.same x y = true) (b : Build) (idOf : α → ι)
    (ops : List (ItemCollection.Op ι α)) (h : KeepsIds idOf ops) :
    ∃ s l, after c b idOf ops = some s ∧ s.iterate = .ok l ∧ l.Pairwise fun x y => c.same (idOf x) (idOf y) = false := by
  obtain ⟨κ, _, q, hq⟩ := exists_key hs
  obtain ⟨s, es, h1, h2⟩ := ItemCollection.reachable_invC hq (mem := plenty) (fun _ _ => rfl) b heq ops (inv_empty_keys q idOf) (keepsIds h)
  refine ⟨s, es.map Prod.snd, h1, (h2.showsC hq).2.2.1, ?_⟩
  have := h2.ids
  rw [List.Nodup, List.pairwise_map] at this
  rw [List.pairwise_map]
  refine this.imp ?_
  intro x y hne
  rw [hq]
  simpa using hne

/-- C180, the whole claim where two ids are `==` exactly if they are the same key: at every moment of every
program `contains(id)` holds exactly if `erase(id)` would return true, exactly if `excise(id)` would return an item, and exactly if `at(id)`
would not throw. -/
theorem c180_same (eq : ι → ι → Bool) (hs : Equivalence fun x y => eq x y = true) (b : Build) (idOf : α → ι)
    (ops : List (ItemCollection.Op ι α)) (h : KeepsIds idOf ops) :
    ∃ s, after ⟨eq, eq⟩ b idOf ops = some s ∧ ∀ id,
      ((ItemCollection.eraseC ⟨eq, eq⟩ idOf id).run s).1 = .ok (s.containsC ⟨eq, eq⟩ id) ∧
      (∃ r, ((ItemCollection.exciseC ⟨eq, eq⟩ b id).run s).1 = .ok r ∧ r.isSome = s.containsC ⟨eq, eq⟩ id) ∧
      (if s.containsC ⟨eq, eq⟩ id then
        ∃ x, s.atIdC ⟨eq, eq⟩ id = .ok x ∧ eq id (idOf x) = true
      else ∃ e, s.atIdC ⟨eq, eq⟩ id = .throw e) := by
  have hsym : ∀ x y, eq x y = eq y x := by
    intro x y
    cases h1 : eq x y with
    | true => exact (hs.symm h1).symm
    | false =>
      cases h2 : eq y x with
      | false => rfl
      | true => rw [hs.symm h2] at h1; cases h1
  obtain ⟨κ, _, q, hq⟩ := exists_key (c := ⟨eq, eq⟩) hs
  have heq' : ∀ x y, (IdCmp.mk eq eq).eq x y = true → (IdCmp.mk eq eq).same x y = true := fun _ _ h => h
  obtain ⟨s, es, h1, h2⟩ := ItemCollection.reachable_invC hq (mem := plenty) (fun _ _ => rfl) b heq' ops (inv_empty_keys q idOf) (keepsIds h)
  obtain ⟨-, -, -, h4, h5, -⟩ := h2.showsC hq
  refine ⟨s, h1, fun id => ⟨?_, ?_, ?_⟩⟩
  · obtain ⟨s', es', h6, -⟩ := ItemCollection.eraseC_run hq h2 heq' id
    rw [h6, h4]
    simp only [namesC, hasC]
    congr 2
    funext x
    exact hsym _ _
  · have ho := ItemCollection.Over.excise (α := α) hq b id s
    rw [h4, ItemCollection.hasC_eq hq]
    rcases ItemCollection.excise_run b h2 (q id) with ⟨hh, hr⟩ | ⟨a, x, s', es', h6, hr, -⟩
    · rw [hr] at ho
      exact ⟨none, (congrArg Prod.fst ho).symm, by rw [hh]; rfl⟩
    · rw [hr] at ho
      refine ⟨some a, (congrArg Prod.fst ho).symm, ?_⟩
      have hm := List.find?_some h6
      have : has (fun x => q (idOf x)) (es.map Prod.snd) (q id) = true := by
        rw [has, List.any_eq_true]
        exact ⟨x, List.mem_of_find?_eq_some h6, hm⟩
      rw [this]; rfl
  · have h5 := h5 id
    rw [h4 id]
    rcases hf : (es.map Prod.snd).find? (fun x => (IdCmp.mk eq eq).same (idOf x) id) with _ | x
    · rw [hf] at h5
      have : hasC ⟨eq, eq⟩ idOf (es.map Prod.snd) id = false := by
        rw [hasC, List.any_eq_false]
        exact List.find?_eq_none.1 hf
      rw [this]
      exact ⟨_, h5⟩
    · rw [hf] at h5
      have hp := List.find?_some hf
      have : hasC ⟨eq, eq⟩ idOf (es.map Prod.snd) id = true := by
        rw [hasC, List.any_eq_true]
        exact ⟨x, List.mem_of_find?_eq_some hf, hp⟩
      rw [this]
      refine ⟨x, h5, ?_⟩
      rw [hsym]
      exact hp

/-- C180, the whole claim for `std::map` where two ids are `==` exactly if neither is less: at every moment of every
program `contains(id)` holds exactly if `erase(id)` would return true, exactly if `excise(id)` would return an item, and exactly if `at(id)`
would not throw. -/
theorem c180_map (lt eq : ι → ι → Bool) (hirr : ∀ x, lt x x = false)
    (htrans : ∀ x y z, mapSame lt x y = true → mapSame lt y z = true → mapSame lt x z = true)
    (heq : ∀ x y, eq x y = mapSame lt x y) (b : Build) (idOf : α → ι)
    (ops : List (ItemCollection.Op ι α)) (h : KeepsIds idOf ops) :
    ∃ s, after ⟨mapSame lt, eq⟩ b idOf ops = some s ∧ ∀ id,
      ((ItemCollection.eraseC ⟨mapSame lt, eq⟩ idOf id).run s).1 = .ok (s.containsC ⟨mapSame lt, eq⟩ id) ∧
      (∃ r, ((ItemCollection.exciseC ⟨mapSame lt, eq⟩ b id).run s).1 = .ok r ∧ r.isSome = s.containsC ⟨mapSame lt, eq⟩ id) ∧
      (if s.containsC ⟨mapSame lt, eq⟩ id then
        ∃ x, s.atIdC ⟨mapSame lt, eq⟩ id = .ok x ∧ eq id (idOf x) = true
      else ∃ e, s.atIdC ⟨mapSame lt, eq⟩ id = .throw e) := by
  have hs : Equivalence fun x y => eq x y = true := by
    have : ∀ x y, (eq x y = true) = (mapSame lt x y = true) := fun x y => by rw [heq]
    simp only [this]
    exact ⟨fun x => by simp [hirr], fun {x y} hxy => (Bool.and_comm _ _).trans hxy, fun {x y z} => htrans x y z⟩
  have he : eq = mapSame lt := by funext x y; exact heq x y
  have := c180_same eq hs b idOf ops h
  rw [he] at this ⊢
  exact this

/-- C180 is false: whenever an id is equivalent to that of an item but not `==` to it, `contains(id)` is true and
`excise(id)` would give the item, but `erase(id)` returns false and leaves it. -/
theorem c180_refuted_finer (c : IdCmp ι) (b : Build) (idOf : α → ι) (x : α) (id : ι)
    (hs : c.same (idOf x) id = true) (heq : c.eq id (idOf x) = false) :
    results c b idOf [.insert x, .erase id] = [.ok .unit, .ok (.flag false)] ∧
    (∃ s, after c b idOf [.insert x, .erase id] = some s ∧ s.containsC c id = true ∧ s.atIdC c id = .ok x ∧
      s.iterate = .ok [x]) ∧
    results c b idOf [.insert x, .excise id] = [.ok .unit, .ok (.owned (some 0))] := by
  have hc : b = .debug ∨ b = .aborting ∨ b = .release := by cases b <;> simp
  have hadd : (ItemCollection.insertC c b plenty idOf x).run ItemCollection.empty =
      (.ok (), ItemCollection.added ItemCollection.empty (idOf x) x 3) := by
    rcases hc with rfl | rfl | rfl <;> rfl
  have h1 : ItemCollection.stepC c b plenty idOf (.insert x) ItemCollection.empty =
      (.ok .unit, ItemCollection.added ItemCollection.empty (idOf x) x 3) := by
    show (ItemCollection.stepC c b plenty idOf (.insert x)).run _ = _
    rw [ItemCollection.stepC, St.run_bind_ok hadd, St.run_pure]
  have h2 : ItemCollection.stepC c b plenty idOf (.erase id) (ItemCollection.added ItemCollection.empty (idOf x) x 3) =
      (.ok (.flag false), ItemCollection.added ItemCollection.empty (idOf x) x 3) := by
    simp [ItemCollection.stepC, ItemCollection.eraseC, ItemCollection.findOrderedC, ItemCollection.added, ItemCollection.empty,
      ItemCollection.deref, heq, bind, St.bind, pure, St.pure, St.get]
  have h3 : ((ItemCollection.stepC c b plenty idOf (.excise id)) (ItemCollection.added ItemCollection.empty (idOf x) x 3)).1 =
      .ok (.owned (some 0)) := by
    simp [ItemCollection.stepC, ItemCollection.exciseC, ItemCollection.exciseOrdered, ItemCollection.mapFindC, ItemCollection.added, ItemCollection.empty,
      hs, bind, St.bind, pure, St.pure, St.get, St.set]
  refine ⟨?_, ⟨ItemCollection.added ItemCollection.empty (idOf x) x 3, ?_, ?_, ?_, ?_⟩, ?_⟩
  · simp only [results, St.outcomes, h1, h2]
  · simp only [after, St.history, h1, h2]
  · simp [ItemCollection.containsC, ItemCollection.mapFindC, ItemCollection.added, ItemCollection.empty, hs]
  · simp [ItemCollection.atIdC, ItemCollection.mapFindC, ItemCollection.added, ItemCollection.empty, hs, ItemCollection.deref]
  · rfl
  · simp only [results, St.outcomes, h1, h3]

/-- C180 is false: whenever an id is `==` to that of an item but a different key, `erase(id)` takes the item out of
the iteration but not out of the map: `size()` is 1, `contains` and `at` find it, and there is nothing to iterate over.  Then
`excise` of the item's id fails its assertion or is undefined. -/
theorem c180_refuted_coarser (c : IdCmp ι) (b : Build) (idOf : α → ι) (x : α) (id : ι)
    (hrefl : c.same (idOf x) (idOf x) = true) (hs : c.same (idOf x) id = false) (heq : c.eq id (idOf x) = true) :
    results c b idOf [.insert x, .erase id] = [.ok .unit, .ok (.flag true)] ∧
    (∃ s, after c b idOf [.insert x, .erase id] = some s ∧ s.iterate = .ok [] ∧ s.size = 1 ∧ s.containsC c id = false ∧
      s.containsC c (idOf x) = true ∧ s.atIdC c (idOf x) = .ok x ∧
      ((ItemCollection.exciseC c b (idOf x)).run s).1 = match b with
        | .debug => .throw (.assertion "Failed to find item in orderer items that was found in associative items")
        | .aborting => .terminate
        | .release => .ub) := by
  have hc : b = .debug ∨ b = .aborting ∨ b = .release := by cases b <;> simp
  have hadd : (ItemCollection.insertC c b plenty idOf x).run ItemCollection.empty =
      (.ok (), ItemCollection.added ItemCollection.empty (idOf x) x 3) := by
    rcases hc with rfl | rfl | rfl <;> rfl
  have h1 : ItemCollection.stepC c b plenty idOf (.insert x) ItemCollection.empty =
      (.ok .unit, ItemCollection.added ItemCollection.empty (idOf x) x 3) := by
    show (ItemCollection.stepC c b plenty idOf (.insert x)).run _ = _
    rw [ItemCollection.stepC, St.run_bind_ok hadd, St.run_pure]
  have h2 : ItemCollection.stepC c b plenty idOf (.erase id) (ItemCollection.added ItemCollection.empty (idOf x) x 3) =
      (.ok (.flag true), { ItemCollection.added ItemCollection.empty (idOf x) x 3 with ordered := [] }) := by
    simp [ItemCollection.stepC, ItemCollection.eraseC, ItemCollection.findOrderedC, ItemCollection.added, ItemCollection.empty,
      ItemCollection.deref, ItemCollection.mapEraseC, ItemCollection.mapFindC, heq, hs, bind, St.bind, pure, St.pure, St.get, St.set]
  refine ⟨?_, { ItemCollection.added ItemCollection.empty (idOf x) x 3 with ordered := [] }, ?_, ?_, ?_, ?_, ?_, ?_, ?_⟩
  · simp only [results, St.outcomes, h1, h2]
  · simp only [after, St.history, h1, h2]
  · rfl
  · rfl
  · simp [ItemCollection.containsC, ItemCollection.mapFindC, ItemCollection.added, ItemCollection.empty, hs]
  · simp [ItemCollection.containsC, ItemCollection.mapFindC, ItemCollection.added, ItemCollection.empty, hrefl]
  · simp [ItemCollection.atIdC, ItemCollection.mapFindC, ItemCollection.added, ItemCollection.empty, hrefl, ItemCollection.deref]
  · rcases hc with rfl | rfl | rfl <;>
    simp [ItemCollection.exciseC, ItemCollection.exciseOrdered, ItemCollection.mapFindC, ItemCollection.added, ItemCollection.empty, hrefl,
      St.run, bind, St.bind, pure, St.pure, St.get, St.set, ItemCollection.free, St.throw, St.lift, St.ub]

/-- C180 is false: whenever two items have ids that are `==` but different keys, erasing the second by its id takes the first
out of the iteration and destroys the second; iterating over the collection is then undefined. -/
theorem c180_refuted_dangling (c : IdCmp ι) (b : Build) (idOf : α → ι) (x y : α)
    (hrefl : c.same (idOf y) (idOf y) = true) (hs : c.same (idOf x) (idOf y) = false) (heq : c.eq (idOf y) (idOf x) = true) :
    results c b idOf [.insert x, .insert y, .erase (idOf y)] = [.ok .unit, .ok .unit, .ok (.flag true)] ∧
    (∃ s, after c b idOf [.insert x, .insert y, .erase (idOf y)] = some s ∧ s.size = 1 ∧ s.iterate = .ub) := by
  have hc : b = .debug ∨ b = .aborting ∨ b = .release := by cases b <;> simp
  have hadd : (ItemCollection.insertC c b plenty idOf x).run ItemCollection.empty =
      (.ok (), ItemCollection.added ItemCollection.empty (idOf x) x 3) := by
    rcases hc with rfl | rfl | rfl <;> rfl
  have h1 : ItemCollection.stepC c b plenty idOf (.insert x) ItemCollection.empty =
      (.ok .unit, ItemCollection.added ItemCollection.empty (idOf x) x 3) := by
    show (ItemCollection.stepC c b plenty idOf (.insert x)).run _ = _
    rw [ItemCollection.stepC, St.run_bind_ok hadd, St.run_pure]
  have h2 : ItemCollection.stepC c b plenty idOf (.insert y) (ItemCollection.added ItemCollection.empty (idOf x) x 3) =
      (.ok .unit, ItemCollection.added (ItemCollection.added ItemCollection.empty (idOf x) x 3) (idOf y) y 6) := by
    rcases hc with rfl | rfl | rfl <;>
    simp [ItemCollection.stepC, ItemCollection.insertC, ItemCollection.containsC, ItemCollection.mapFindC, ItemCollection.newItem,
      ItemCollection.request, ItemCollection.uncheckedInsertC, ItemCollection.deref, ItemCollection.mapInsertC, ItemCollection.pushBack,
      ItemCollection.assertSizes, debugAssert, ItemCollection.added, ItemCollection.empty, hs, bind, St.bind, pure, St.pure, St.get, St.set]
  obtain ⟨s, h3, h4, h5⟩ : ∃ s, ItemCollection.stepC c b plenty idOf (.erase (idOf y))
      (ItemCollection.added (ItemCollection.added ItemCollection.empty (idOf x) x 3) (idOf y) y 6) = (.ok (.flag true), s) ∧
      s.size = 1 ∧ s.iterate = .ub := by
    refine ⟨_, Prod.ext ?_ rfl, ?_, ?_⟩ <;>
    simp [ItemCollection.stepC, ItemCollection.eraseC, ItemCollection.findOrderedC, ItemCollection.added, ItemCollection.empty,
      ItemCollection.deref, ItemCollection.mapEraseC, ItemCollection.mapFindC, ItemCollection.free, ItemCollection.size,
      ItemCollection.iterate, ItemCollection.each, heq, hs, hrefl, bind, St.bind, pure, St.pure, St.get, St.set, List.find?, List.filter]
  refine ⟨?_, s, ?_, h4, h5⟩
  · simp only [results, St.outcomes, h1, h2, h3]
  · simp only [after, St.history, h1, h2, h3]

/-! Concrete ids: a name and a revision, as pairs of numbers. -/

/-- Compares names only. -/
private def byName (x y : Nat × Nat) : Bool := x.1 == y.1

/-- Compares both. -/
private def byBoth (x y : Nat × Nat) : Bool := x == y

private def item (n r v : Nat) : (Nat × Nat) × Nat := ((n, r), v)

-- The keys are equivalent when the names are; `==` compares both parts.
example : AgreesC ⟨byName, byBoth⟩ .debug plenty Prod.fst
    [.insert (item 1 1 10), .tryInsert (item 1 2 20), .insert (item 2 1 30), .erase (1, 2), .erase (2, 1)] ItemCollection.empty [] := by
  refine c180_partial _ ⟨fun _ => beq_self_eq_true _, fun h => beq_iff_eq.2 (beq_iff_eq.1 h).symm,
    fun h h' => beq_iff_eq.2 ((beq_iff_eq.1 h).trans (beq_iff_eq.1 h'))⟩
    (fun _ _ h => beq_iff_eq.2 (congrArg Prod.fst (beq_iff_eq.1 h))) _ _ _ ?_
  simp [KeepsIds]

-- So the second item is refused, (1, 2) is not erased though it is contained, (2, 1) is.
example : results ⟨byName, byBoth⟩ .debug Prod.fst
      [.insert (item 1 1 10), .tryInsert (item 1 2 20), .insert (item 2 1 30), .erase (1, 2), .erase (2, 1)] =
    [.ok .unit, .ok (.flag false), .ok .unit, .ok (.flag false), .ok (.flag true)] := by decide +kernel

-- The other way round, erasing revision 2 hides revision 1 and destroys revision 2.
example : ∃ s, after ⟨byBoth, byName⟩ .release Prod.fst [.insert (item 1 1 10), .insert (item 1 2 20), .erase (1, 2)] = some s ∧
    s.size = 1 ∧ s.iterate = .ub :=
  (c180_refuted_dangling ⟨byBoth, byName⟩ .release Prod.fst (item 1 1 10) (item 1 2 20) (by decide) (by decide) (by decide)).2

-- Numbers as ids: after erasing 1, erasing 7 says whether 7 is contained.
example : ∃ s, after ⟨mapSame fun x y : Nat => decide (x < y), fun x y => x == y⟩ .debug Prod.fst
      [.insert (1, 10), .insert (2, 20), .erase 1] = some s ∧
    ((ItemCollection.eraseC ⟨mapSame fun x y : Nat => decide (x < y), fun x y => x == y⟩ Prod.fst 7).run s).1 =
      .ok (s.containsC ⟨mapSame fun x y : Nat => decide (x < y), fun x y => x == y⟩ 7) := by
  obtain ⟨s, h1, h2⟩ := c180_map (α := Nat × Nat) (fun x y : Nat => decide (x < y)) (fun x y => x == y) (by simp)
    (fun x y z h h' => by simp at h h' ⊢; omega) (fun x y => by rw [Bool.eq_iff_iff]; simp; omega) .debug Prod.fst
    [.insert (1, 10), .insert (2, 20), .erase 1] (by simp [KeepsIds])
  exact ⟨s, h1, (h2 7).1⟩

-- An item found by `contains` but not by `erase`, and the reverse.
example : results ⟨byName, byBoth⟩ .release Prod.fst [.insert (item 1 1 10), .erase (1, 2)] = [.ok .unit, .ok (.flag false)] :=
  (c180_refuted_finer ⟨byName, byBoth⟩ .release Prod.fst (item 1 1 10) (1, 2) (by decide) (by decide)).1
example : results ⟨byBoth, byName⟩ .release Prod.fst [.insert (item 1 1 10), .erase (1, 2)] = [.ok .unit, .ok (.flag true)] :=
  (c180_refuted_coarser ⟨byBoth, byName⟩ .release Prod.fst (item 1 1 10) (1, 2) (by decide) (by decide) (by decide)).1

end Wite.Props
