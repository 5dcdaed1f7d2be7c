import Verif.Lemmas.CollectionAlias

/-!
# Property C182: ids and items given to a collection by reference to where they lie in it
-/

namespace Wite.Props

open Wite Wite.Collections Wite.Spec.ItemCollection

variable {ι α : Type} [DecidableEq ι]

/-- Memory never runs out. -/
private abbrev plenty : Site → Nat → Bool := fun _ _ => true

/-- No call of the program changes the id of an item through a reference. -/
private abbrev KeepsIds (idOf : α → ι) (ops : List (ItemCollection.Op ι α)) : Prop :=
  ∀ op ∈ ops, match op with
    | .modify _ f => ∀ x, idOf (f x) = idOf x
    | _ => True

private theorem keepsIds {idOf : α → ι} {ops : List (ItemCollection.Op ι α)} (h : KeepsIds idOf ops) :
    ∀ op ∈ ops, op.keepsIds idOf := by
  intro op hop
  have := h op hop
  cases op <;> simp_all [ItemCollection.Op.keepsIds]

/-- The state after a program on an empty collection, if no call had undefined behaviour. -/
private abbrev after (b : Build) (idOf : α → ι) (ops : List (ItemCollection.Op ι α)) : Option (ItemCollection ι α) :=
  St.history (ItemCollection.step b plenty idOf) ops ItemCollection.empty

private theorem inv_after {b : Build} {idOf : α → ι} {ops : List (ItemCollection.Op ι α)} (h : KeepsIds idOf ops)
    {s : ItemCollection ι α} (hs : after b idOf ops = some s) : ∃ es, ItemCollection.Inv idOf es s := by
  obtain ⟨s', es, h1, h2⟩ := ItemCollection.reachable_inv (fun _ _ => rfl) b ops (ItemCollection.inv_empty idOf) (keepsIds h)
  have := hs.symm.trans h1
  cases this
  exact ⟨es, h2⟩

/-- The items a collection shows. -/
private abbrev items (s : ItemCollection ι α) (l : List α) : Prop := s.iterate = .ok l

private theorem items_eq {idOf : α → ι} {es : List (Nat × α)} {s : ItemCollection ι α} (h : ItemCollection.Inv idOf es s)
    {l : List α} (hl : items s l) : l = es.map Prod.snd := by
  have := h.shows.2.2.1
  rw [items, this] at hl
  cases hl
  rfl

/-! ## C182 -/

/-- C182: in every collection the functions that take one id do, with a reference to the id of an item of the collection or of one the
caller holds, what they do with a copy of that id. -/
theorem c182_one (b : Build) (idOf : α → ι) (ops : List (ItemCollection.Op ι α)) (h : KeepsIds idOf ops)
    (s : ItemCollection ι α) (hs : after b idOf ops = some s) (r : IdArg ι) (id : ι) (hr : Refers idOf s.heap r id) :
    (ItemCollection.eraseA idOf r).run s = (ItemCollection.erase idOf id).run s ∧
    (∀ b', (ItemCollection.exciseA b' idOf r).run s = (ItemCollection.excise b' id).run s) ∧
    (ItemCollection.containsA idOf r).run s = (.ok (s.contains id), s) ∧
    (ItemCollection.atIdA idOf r).run s = (s.atId id, s) := by
  obtain ⟨es, hi⟩ := inv_after h hs
  refine ⟨ItemCollection.eraseA_eq hi hr, fun b' => ItemCollection.exciseA_eq b' hi hr, ?_, ?_⟩
  · rw [ItemCollection.containsA, St.run_bind_ok (ItemCollection.mapFindA_ok hr)]
    rfl
  · rw [ItemCollection.atIdA, St.run_bind_ok (ItemCollection.mapFindA_ok hr), ItemCollection.atId]
    cases hm : ItemCollection.mapFind s.items id with
    | none => rfl
    | some a =>
      cases hh : s.heap a <;> simp [St.run, ItemCollection.deref, hh]

/-- C182, the part that holds: `erase` of several arguments, each a reference to an id of the caller's, or to the id of an item of the
collection or of one the caller holds, does what it does with copies of the ids, if no argument refers to an item of the collection that
an argument before it names, unless those before it name every item. -/
theorem c182_erase_partial (b : Build) (idOf : α → ι) (ops : List (ItemCollection.Op ι α)) (h : KeepsIds idOf ops)
    (s : ItemCollection ι α) (hs : after b idOf ops = some s) (l : List α) (hl : items s l) (rs : List (IdArg ι)) (ids : List ι)
    (hr : List.Forall₂ (Refers idOf s.heap) rs ids) (hg : ∀ j, Gone s.ordered rs ids j → AllNamed idOf l ids j) :
    (ItemCollection.eraseAllA idOf rs).run s = (ItemCollection.eraseAll idOf ids).run s := by
  obtain ⟨es, hi⟩ := inv_after h hs
  rw [items_eq hi hl] at hg
  obtain ⟨s', e1, e2, -⟩ := ItemCollection.eraseAllA_fine hi hr hg
  exact e1.trans e2.symm

/-- C182, the part that fails: in all other cases the call is undefined, while with copies it is fine. -/
theorem c182_refuted_erase (b : Build) (idOf : α → ι) (ops : List (ItemCollection.Op ι α)) (h : KeepsIds idOf ops)
    (s : ItemCollection ι α) (hs : after b idOf ops = some s) (l : List α) (hl : items s l) (rs : List (IdArg ι)) (ids : List ι)
    (hr : List.Forall₂ (Refers idOf s.heap) rs ids) (j : Nat) (hg : Gone s.ordered rs ids j) (hn : ¬ AllNamed idOf l ids j) :
    ((ItemCollection.eraseAllA idOf rs).run s).1 = .ub ∧ (∃ flags, ((ItemCollection.eraseAll idOf ids).run s).1 = .ok flags) := by
  obtain ⟨es, hi⟩ := inv_after h hs
  rw [items_eq hi hl] at hn
  refine ⟨ItemCollection.eraseAllA_ub hi hr hg hn, ?_⟩
  obtain ⟨s', -, e2, -⟩ := ItemCollection.eraseAllA_eq (ids.map IdArg.own) ids hi (by simp) (by
    intro j r id h1 h2
    rw [List.getElem?_map, h2] at h1
    cases h1
    exact Or.inr ⟨rfl, fun a ha => by cases ha⟩)
  exact ⟨_, by rw [ItemCollection.eraseAll, e2]⟩

/-- C182, the smallest case: naming the same item of a collection twice, by a reference to its id, is undefined exactly if there is
another item in the collection. -/
theorem c182_refuted_twice (b : Build) (idOf : α → ι) (ops : List (ItemCollection.Op ι α)) (h : KeepsIds idOf ops)
    (s : ItemCollection ι α) (hs : after b idOf ops = some s) (a : Nat) (ha : a ∈ s.ordered) :
    (((ItemCollection.eraseAllA idOf [.item a, .item a]).run s).1 = .ub ↔ s.ordered ≠ [a]) ∧
    (s.ordered = [a] → ((ItemCollection.eraseAllA idOf [.item a, .item a]).run s).1 = .ok [true, false]) := by
  obtain ⟨es, hi⟩ := inv_after h hs
  have ha' := ha
  rw [hi.ordered] at ha'
  obtain ⟨e, he, rfl⟩ := List.mem_map.mp ha'
  have href : List.Forall₂ (Refers idOf s.heap) [.item e.1, .item e.1] [idOf e.2, idOf e.2] :=
    .cons ⟨e.2, hi.heap e he, rfl⟩ (.cons ⟨e.2, hi.heap e he, rfl⟩ .nil)
  have hone : s.ordered = [e.1] → ((ItemCollection.eraseAllA idOf [.item e.1, .item e.1]).run s).1 = .ok [true, false] := by
    intro ho
    rw [hi.ordered] at ho
    obtain ⟨e', rfl, he1⟩ := List.map_eq_singleton_iff.mp ho
    obtain rfl : e = e' := by simpa using he
    obtain ⟨s', e1, -⟩ := ItemCollection.eraseAllA_fine hi href (by
      rintro j ⟨c, hj, -, i, hij, -⟩ x hx
      obtain rfl : x = e.2 := by simpa using hx
      rcases j with _ | j
      · omega
      · simp)
    rw [ItemCollection.eraseAllA, e1]
    simp [removeAll, has, remove]
  refine ⟨⟨?_, ?_⟩, hone⟩
  · intro hub ho
    rw [hone ho] at hub
    cases hub
  · intro ho
    refine ItemCollection.eraseAllA_ub hi href (j := 1) ⟨e.1, rfl, ha, 0, by omega, rfl⟩ ?_
    intro hall
    apply ho
    have h1 : ∀ e' ∈ es, e' = e := by
      intro e' he'
      have : idOf e'.2 = idOf e.2 := by simpa using hall e'.2 (List.mem_map_of_mem he')
      exact List.inj_on_of_nodup_map hi.ids he' he this
    rw [hi.ordered]
    have hn : es.Nodup := List.Nodup.of_map _ hi.ids
    match es, h1, hn, he with
    | [x], h1, _, _ => rw [h1 x (by simp)]; rfl
    | x :: y :: t, h1, hn, _ =>
      have : x = y := (h1 x (by simp)).trans (h1 y (by simp)).symm
      simp [this] at hn

/-- C182: inserting a collection into itself adds nothing and reports every item as already there, whatever the build. -/
theorem c182_insert_self (b b' : Build) (idOf : α → ι) (ops : List (ItemCollection.Op ι α)) (h : KeepsIds idOf ops)
    (s : ItemCollection ι α) (hs : after b idOf ops = some s) :
    (∃ s', (ItemCollection.tryInsertSelf b' plenty idOf).run s = (.ok (List.replicate s.size false), s') ∧
      s'.items = s.items ∧ s'.ordered = s.ordered ∧ s'.heap = s.heap ∧ s'.outside = s.outside) ∧
    (∃ s', (ItemCollection.insertSelf b' plenty idOf).run s = (.ok (), s') ∧
      s'.items = s.items ∧ s'.ordered = s.ordered ∧ s'.heap = s.heap ∧ s'.outside = s.outside) := by
  obtain ⟨es, hi⟩ := inv_after h hs
  obtain ⟨s', h1, h2, h3, h4, h5, -⟩ := ItemCollection.tryInsertSelfLoop_run (fun _ _ => rfl) b' es hi fun e he => he
  have hlen : es.length = s.size := by rw [ItemCollection.size, hi.items]; simp
  have hrun : (ItemCollection.tryInsertSelf b' plenty idOf).run s = (.ok (List.replicate s.size false), s') := by
    rw [ItemCollection.tryInsertSelf, St.run_bind_ok (St.run_get s), hi.ordered, h1, hlen]
  refine ⟨⟨s', hrun, h2, h3, h5, h4⟩, ⟨s', ?_, h2, h3, h5, h4⟩⟩
  rw [ItemCollection.insertSelf, St.run_bind_ok hrun]
  rfl

private def three : ItemCollection Nat (Nat × Char) :=
  (after .debug Prod.fst [.insert (2, 'b'), .insert (1, 'a'), .insert (3, 'c')]).getD ItemCollection.empty

example : KeepsIds Prod.fst ([.insert (2, 'b'), .insert (1, 'a'), .insert (3, 'c')] : List (ItemCollection.Op Nat (Nat × Char))) := by
  simp [KeepsIds]
example : (after .debug Prod.fst [.insert (2, 'b'), .insert (1, 'a'), .insert (3, 'c')]).map
    (fun s : ItemCollection Nat (Nat × Char) => s.ordered) = some [0, 1, 2] := by decide +kernel
/-- The item in front is erased by its own id; the id is not looked at after the item is destroyed. -/
example : ((ItemCollection.eraseA Prod.fst (.item 0)).run three).1 = .ok true ∧
    ((ItemCollection.eraseA Prod.fst (.item 0)).run three).2.iterate = .ok [(1, 'a'), (3, 'c')] := by decide +kernel
example : ((ItemCollection.eraseAllA Prod.fst [.item 1, .own 2, .own 1]).run three).1 = .ok [true, true, false] := by
  decide +kernel
/-- `items.erase(x.id(), x.id())`. -/
example : ((ItemCollection.eraseAllA Prod.fst [.item 1, .item 1]).run three).1 = .ub := by decide +kernel
/-- Nothing is left when the third argument is reached. -/
example : ((ItemCollection.eraseAllA Prod.fst [.own 1, .own 2, .own 3, .item 1]).run three).1 = .ok [true, true, true, false] := by
  decide +kernel
example : ((ItemCollection.tryInsertSelf .debug plenty Prod.fst).run three).1 = .ok [false, false, false] := by decide +kernel

end Wite.Props
