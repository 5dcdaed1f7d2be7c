import Verif.Lemmas.CollectionThrow

/-!
# Property C156: exceptions of items, ids and comparisons leave an `identifiable_item_collection` as it was
-/

namespace Wite.Props

open Wite Wite.Collections Wite.Spec.ItemCollection

variable {ι α : Type} [DecidableEq ι]

/-- What the partial claims leave out: memory of the vector of pointers (C103) and the comparisons of the map in `contains`
and in `erase`. -/
structure Calm (o : ItemCollection.Oracle) : Prop where
  order : ∀ n, o (.mem .order) n = none
  contains : ∀ n, o .compareContains n = none
  erase : ∀ n, o .compareErase n = none

/-- No call of the program changes the id of an item through a reference. -/
private abbrev KeepsIds (idOf : α → ι) (ops : List (ItemCollection.Form × ItemCollection.Op ι α)) : Prop :=
  ∀ p ∈ ops, match p.2 with
    | .modify _ f => ∀ x, idOf (f x) = idOf x
    | _ => True

/-- The state after a program on an empty collection: the calls that throw are caught and the program goes on. -/
private abbrev after (b : Build) (o : ItemCollection.Oracle) (idOf : α → ι)
    (ops : List (ItemCollection.Form × ItemCollection.Op ι α)) : Option (ItemCollection ι α) :=
  St.history (ItemCollection.stepT b o idOf) ops ItemCollection.empty

private theorem keepsIds {idOf : α → ι} {ops : List (ItemCollection.Form × ItemCollection.Op ι α)} (h : KeepsIds idOf ops) :
    ∀ p ∈ ops, p.2.keepsIds idOf := by
  rintro ⟨f, op⟩ hop
  have := h (f, op) hop
  cases op <;> simp_all [ItemCollection.Op.keepsIds]

private theorem inv_after {b : Build} {o : ItemCollection.Oracle} (ho : Calm o) {idOf : α → ι}
    {ops : List (ItemCollection.Form × ItemCollection.Op ι α)} (h : KeepsIds idOf ops)
    {s : ItemCollection ι α} (hs : after b o idOf ops = some s) : ∃ es, ItemCollection.Inv idOf es s := by
  obtain ⟨s', es, h1, h2⟩ :=
    ItemCollection.reachableT ho.order ho.contains ho.erase b ops (ItemCollection.inv_empty idOf) (keepsIds h)
  have := hs.symm.trans h1
  cases this
  exact ⟨es, h2⟩

/-- What a call for several arguments may leave when it is stopped: what a first part of the arguments gives.  A call for one
argument leaves the list. -/
def StoppedAt (idOf : α → ι) (l : List α) : ItemCollection.Op ι α → List α → Prop
  | .insertRange xs, l' => ∃ k, l' = (addAll idOf l (xs.take k)).2
  | .tryInsertAll xs, l' => ∃ k, l' = (addAll idOf l (xs.take k)).2
  | .insertAll xs, l' => ∃ k, (addUntil idOf l (xs.take k)).1 = true ∧ l' = (addUntil idOf l (xs.take k)).2
  | .eraseAll ids, l' => ∃ k, l' = (removeAll idOf l (ids.take k)).2
  | _, l' => l' = l

private theorem stoppedAt {idOf : α → ι} {l l' : List α} {op : ItemCollection.Op ι α} (h : ItemCollection.Stopped idOf l op l') :
    StoppedAt idOf l op l' := by
  cases op <;> exact h

/-- C156, what holds: whatever throws in a program (items, their ids, equality, memory, the other comparisons), and
however often, no call has undefined behaviour, ends the program or fails an assertion; the observers always show
one list with distinct ids; and what is alive is what is in the collection or was handed out. -/
theorem c156_programs_partial (b : Build) (o : ItemCollection.Oracle) (ho : Calm o) (idOf : α → ι)
    (ops : List (ItemCollection.Form × ItemCollection.Op ι α)) (h : KeepsIds idOf ops) :
    ∃ s l, after b o idOf ops = some s ∧ Shows idOf s l ∧ (l.map idOf).Nodup ∧
      ∀ a, s.heap a ≠ none ↔ a ∈ s.ordered ∨ a ∈ s.outside := by
  obtain ⟨s', es, h1, h2⟩ :=
    ItemCollection.reachableT ho.order ho.contains ho.erase b ops (ItemCollection.inv_empty idOf) (keepsIds h)
  refine ⟨s', es.map Prod.snd, h1, h2.shows, ?_, h2.live⟩
  rw [List.map_map]
  exact h2.ids

/-- C156, what holds: a call either does what it does for the list, or throws an exception that was thrown inside it and
leaves the list (for several arguments, what a first part of them gives). -/
theorem c156_call_partial (b : Build) (o : ItemCollection.Oracle) (ho : Calm o) (idOf : α → ι)
    (ops : List (ItemCollection.Form × ItemCollection.Op ι α)) (h : KeepsIds idOf ops)
    (s : ItemCollection ι α) (hs : after b o idOf ops = some s) (l : List α) (hl : Shows idOf s l)
    (f : ItemCollection.Form) (op : ItemCollection.Op ι α) (hop : KeepsIds idOf [(f, op)]) :
    ∃ out s' l', ItemCollection.stepT b o idOf (f, op) s = (out, s') ∧ Shows idOf s' l' ∧
      ((l' = (Spec.ItemCollection.step idOf op l).2 ∧ Matches s' out (Spec.ItemCollection.step idOf op l).1) ∨
       ∃ e, (∃ ev n, o ev n = some e) ∧ out = .throw e ∧ StoppedAt idOf l op l') := by
  obtain ⟨es, hi⟩ := inv_after ho h hs
  have hle : l = es.map Prod.snd := by
    have h1 := hl.2.2.1
    rw [hi.shows.2.2.1] at h1
    exact (Outcome.ok.inj h1).symm
  subst hle
  obtain ⟨out, s', es', h1, h2, h3⟩ := ItemCollection.stepT_refines ho.order ho.contains ho.erase b hi f op
    (keepsIds hop (f, op) (by simp))
  refine ⟨out, s', es'.map Prod.snd, h1, h2.shows, ?_⟩
  rcases h3 with h3 | ⟨e, h4, h5, h6⟩
  · exact Or.inl h3
  · exact Or.inr ⟨e, h4, h5, stoppedAt h6⟩

/-- C156, what holds: a call for one item that throws leaves every member and every object as it was, so references
and iterators stay good and the half-made item is destroyed. -/
theorem c156_objects_partial (b : Build) (o : ItemCollection.Oracle) (ho : Calm o) (idOf : α → ι)
    (ops : List (ItemCollection.Form × ItemCollection.Op ι α)) (h : KeepsIds idOf ops)
    (s : ItemCollection ι α) (hs : after b o idOf ops = some s) (x : α) (id : ι) (e : Exc) (s' : ItemCollection ι α)
    (hbad : ItemCollection.insertT b o idOf x s = (.throw e, s') ∨ ItemCollection.tryInsertT b o idOf x s = (.throw e, s') ∨
      ItemCollection.emplaceT b o idOf x s = (.throw e, s') ∨ ItemCollection.eraseT o idOf id s = (.throw e, s')) :
    s'.items = s.items ∧ s'.ordered = s.ordered ∧ s'.heap = s.heap ∧ s'.outside = s.outside := by
  obtain ⟨es, hi⟩ := inv_after ho h hs
  have main : ItemCollection.Same s s' := by
    rcases hbad with hb | hb | hb | hb
    · rcases ItemCollection.insertT_run ho.order ho.contains b hi x with ⟨hd, n, hr⟩ | ⟨hd, t, hr, ht⟩ | ⟨e', t, -, hr, ht⟩
      · have hr' : ItemCollection.insertT b o idOf x s = _ := hr
        rw [hb] at hr'; cases hr'
      · have hr' : ItemCollection.insertT b o idOf x s = _ := hr
        rw [hb] at hr'; cases hr'; exact ht
      · have hr' : ItemCollection.insertT b o idOf x s = _ := hr
        rw [hb] at hr'; cases hr'; exact ht
    · rcases ItemCollection.tryInsertT_run ho.order b hi x with ⟨hd, n, hr⟩ | ⟨hd, t, hr, ht⟩ | ⟨e', t, -, hr, ht⟩
      · have hr' : ItemCollection.tryInsertT b o idOf x s = _ := hr
        rw [hb] at hr'; cases hr'
      · have hr' : ItemCollection.tryInsertT b o idOf x s = _ := hr
        rw [hb] at hr'; cases hr'
      · have hr' : ItemCollection.tryInsertT b o idOf x s = _ := hr
        rw [hb] at hr'; cases hr'; exact ht
    · rcases ItemCollection.emplaceT_run ho.order b hi x with ⟨hd, n, hr⟩ | ⟨hd, t, hr, ht⟩ | ⟨e', t, -, hr, ht⟩
      · have hr' : ItemCollection.emplaceT b o idOf x s = _ := hr
        rw [hb] at hr'; cases hr'
      · have hr' : ItemCollection.emplaceT b o idOf x s = _ := hr
        rw [hb] at hr'; cases hr'; exact ht
      · have hr' : ItemCollection.emplaceT b o idOf x s = _ := hr
        rw [hb] at hr'; cases hr'; exact ht
    · rcases ItemCollection.eraseT_run ho.erase hi id with ⟨t, es', hr, -⟩ | ⟨e', t, -, hr, ht⟩
      · have hr' : ItemCollection.eraseT o idOf id s = _ := hr
        rw [hb] at hr'; cases hr'
      · have hr' : ItemCollection.eraseT o idOf id s = _ := hr
        rw [hb] at hr'; cases hr'; exact ht
  exact ⟨main.1, main.2.1, main.2.2.2.1, main.2.2.1⟩

/-- The third event of a kind and all later ones throw. -/
private abbrev late (ev : Ev) (k : Nat) : ItemCollection.Oracle := fun ev' n => if ev' = ev ∧ k ≤ n then some (.user 7) else none

example : (after .debug (late .copyId 20) Prod.fst [(.sized, .tryInsertAll [(2, 'b'), (1, 'a'), (3, 'c')]),
      (.variadic, .insert (4, 'd')), (.variadic, .erase 1)]).map (fun s => (s.iterate, s.size, s.heap 0, s.heap 2)) =
      some (.ok [(2, 'b')], 1, some (2, 'b'), none) := by decide +kernel

example : (ItemCollection.tryInsertT .debug (late .copyId 0) Prod.fst (1, 'a')
      (ItemCollection.empty : ItemCollection Nat (Nat × Char))).1 = .throw (.user 7) := by decide +kernel

/-- An oracle that throws at one kind of event only. -/
private abbrev only (ev : Ev) (e : Exc) : ItemCollection.Oracle := fun ev' _ => if ev' = ev then some e else none

/-- C156, what holds: `at(id)` gives what it does without exceptions or passes on an exception of the comparison, and
changes nothing. -/
theorem c156_at_partial (o : ItemCollection.Oracle) (idOf : α → ι) (s : ItemCollection ι α) (l : List α) (hl : Shows idOf s l)
    (id : ι) :
    ∃ out s', ItemCollection.atIdT o id s = (out, s') ∧
      s'.items = s.items ∧ s'.ordered = s.ordered ∧ s'.heap = s.heap ∧ s'.outside = s.outside ∧
      ((∃ x, l.find? (fun y => idOf y = id) = some x ∧ out = .ok x) ∨
       (l.find? (fun y => idOf y = id) = none ∧
          out = .throw (.outOfRange "identifiable_item_collection failed to retreive item by ID")) ∨
       ∃ e n, o .compare n = some e ∧ out = .throw e) := by
  cases h : o .compare s.allocs with
  | some e =>
    have hask : (ItemCollection.ask o .compare : St (ItemCollection ι α) Unit) s = (.throw e, ItemCollection.bump s (s.allocs + 1)) := by
      simp [ItemCollection.ask, h, ItemCollection.bump]
    refine ⟨.throw e, ItemCollection.bump s (s.allocs + 1), ?_, rfl, rfl, rfl, rfl, Or.inr (Or.inr ⟨e, _, h, rfl⟩)⟩
    show (ItemCollection.atIdT o id).run s = _
    rw [ItemCollection.atIdT, St.run_bind, show (ItemCollection.ask o .compare).run s = _ from hask]
  | none =>
    have hask : (ItemCollection.ask o .compare : St (ItemCollection ι α) Unit) s = (.ok (), ItemCollection.bump s (s.allocs + 1)) := by
      simp [ItemCollection.ask, h, ItemCollection.bump]
    refine ⟨s.atId id, ItemCollection.bump s (s.allocs + 1), ?_, rfl, rfl, rfl, rfl, ?_⟩
    · show (ItemCollection.atIdT o id).run s = _
      rw [ItemCollection.atIdT, St.run_bind_ok (show (ItemCollection.ask o .compare).run s = _ from hask), St.run_bind_ok (St.run_get _), St.run_lift]
      have hd : ∀ a, (ItemCollection.deref a (ItemCollection.bump s (s.allocs + 1))).1 = (ItemCollection.deref a s).1 := by
        intro a
        simp only [ItemCollection.deref, ItemCollection.bump]
        cases s.heap a <;> rfl
      simp only [ItemCollection.atId, hd]
      rfl
    · rw [hl.2.2.2.2.1 id]
      cases hf : l.find? (fun y => decide (idOf y = id)) with
      | some x => exact Or.inl ⟨x, rfl, rfl⟩
      | none => exact Or.inr (Or.inl ⟨rfl, rfl⟩)

/-- C156: when comparisons throw, `at(id)` does not find anything in a collection that has items: it passes the exception
on. -/
theorem c156_at_throws (o : ItemCollection.Oracle) (idOf : α → ι) (s : ItemCollection ι α) (l : List α) (_hl : Shows idOf s l)
    (_hne : l ≠ []) (e : Exc) (he : ∀ n, o .compare n = some e) (id : ι) :
    (ItemCollection.atIdT o id s).1 = .throw e := by
  have hask : (ItemCollection.ask o .compare : St (ItemCollection ι α) Unit) s = (.throw e, ItemCollection.bump s (s.allocs + 1)) := by
    simp [ItemCollection.ask, he, ItemCollection.bump]
  have : (ItemCollection.atIdT o id).run s = (.throw e, ItemCollection.bump s (s.allocs + 1)) := by
    rw [ItemCollection.atIdT, St.run_bind, show (ItemCollection.ask o .compare).run s = _ from hask]
  exact congrArg Prod.fst this

example : (ItemCollection.atIdT (fun ev _ => if ev = .compare then some (.user 3) else none) 1
      (ItemCollection.insertT .debug (fun _ _ => none) Prod.fst (1, 'a')
        (ItemCollection.empty : ItemCollection Nat (Nat × Char))).2).1 = .throw (.user 3) ∧
    (ItemCollection.atIdT (fun _ _ => none) 1
      (ItemCollection.insertT .debug (fun _ _ => none) Prod.fst (1, 'a')
        (ItemCollection.empty : ItemCollection Nat (Nat × Char))).2).1 = .ok (1, 'a') := by decide +kernel

/-- C156 is false: if a comparison throws when `erase` asks the map, for any item of any collection, the item has left
the sequence but not the map: iteration no longer shows it, while `size`, `contains` and `at` still do.  Then `erase`
returns false for it, `try_insert` does too, and `excise` is undefined (in debug builds an assertion). -/
theorem c156_refuted_erase (b : Build) (o : ItemCollection.Oracle) (ho : Calm o) (idOf : α → ι)
    (ops : List (ItemCollection.Form × ItemCollection.Op ι α)) (h : KeepsIds idOf ops)
    (s : ItemCollection ι α) (hs : after b o idOf ops = some s) (l : List α) (hl : Shows idOf s l)
    (x : α) (hx : x ∈ l) (e : Exc) :
    ∃ s', ItemCollection.eraseT (only .compareErase e) idOf (idOf x) s = (.throw e, s') ∧
      s'.iterate = .ok (l.filter fun y => idOf y ≠ idOf x) ∧ s'.size = l.length ∧ s'.contains (idOf x) = true ∧
      s'.atId (idOf x) = .ok x ∧
      (ItemCollection.eraseT (fun _ _ => none) idOf (idOf x) s').1 = .ok false ∧
      (ItemCollection.tryInsertT .release (fun _ _ => none) idOf x s').1 = .ok false ∧
      (ItemCollection.exciseT .release (fun _ _ => none) (idOf x) s').1 = .ub ∧
      (ItemCollection.exciseT .debug (fun _ _ => none) (idOf x) s').1 =
        .throw (.assertion "Failed to find item in orderer items that was found in associative items") := by
  obtain ⟨es, hi⟩ := inv_after ho h hs
  have hle : l = es.map Prod.snd := by
    have h1 := hl.2.2.1
    rw [hi.shows.2.2.1] at h1
    exact (Outcome.ok.inj h1).symm
  subst hle
  have hhas : has idOf (es.map Prod.snd) (idOf x) = true := by
    simp only [has, List.any_eq_true, decide_eq_true_eq]
    exact ⟨x, hx, rfl⟩
  obtain ⟨pre, p, post, rfl, hid, hpre, hpost⟩ := ItemCollection.split_at hi.ids hhas
  have hxp : x = p.2 := by
    simp only [List.map_append, List.map_cons, List.mem_append, List.mem_cons, List.mem_map] at hx
    rcases hx with ⟨q, hq, rfl⟩ | rfl | ⟨q, hq, rfl⟩
    · exact absurd rfl (hpre q hq)
    · rfl
    · exact absurd rfl (hpost q hq)
  subst hxp
  obtain ⟨n, hr⟩ := ItemCollection.eraseT_half (o := only .compareErase e) (e := e) (fun _ => rfl) (fun _ => rfl) (fun _ => rfl)
    hi hpre
  obtain ⟨g1, g2, g3, g4, g5, g6, g7, g8⟩ := ItemCollection.halfErased_shows hi hpre hpost n
  refine ⟨_, hr, ?_, ?_, g3, g4, g5, g6, g7, g8⟩
  · rw [g1, ← ItemCollection.remove_split rfl hpre hpost]; rfl
  · rw [g2, List.length_map]

example : (ItemCollection.eraseT (only .compareErase (.user 7)) Prod.fst 2
    (ItemCollection.insertRangeT .debug (fun _ _ => none) Prod.fst [(1, 'a'), (2, 'b')] ItemCollection.empty).2).1 =
    .throw (.user 7) := by decide +kernel

/-- C156 is false: `contains` is declared `noexcept`, so a comparison that throws in it ends the program; and `insert`
calls `contains`, for any item and any collection. -/
theorem c156_refuted_contains (b : Build) (idOf : α → ι) (s : ItemCollection ι α) (x : α) (e : Exc) :
    (ItemCollection.containsT (only .compareContains e) (idOf x) s).1 = .terminate ∧
    (ItemCollection.insertT b (only .compareContains e) idOf x s).1 = .terminate := by
  have hc : ∀ t : ItemCollection ι α, (ItemCollection.containsT (only .compareContains e) (idOf x)).run t =
      (.terminate, ItemCollection.bump t (t.allocs + 1)) := fun t => rfl
  refine ⟨by rw [show ItemCollection.containsT (only .compareContains e) (idOf x) s = _ from hc s], ?_⟩
  have ha : (ItemCollection.asks (only .compareContains e) [.pass, .callId]).run s = (.ok (), ItemCollection.bump s (s.allocs + 2)) := rfl
  show ((ItemCollection.insertT b (only .compareContains e) idOf x).run s).1 = _
  rw [ItemCollection.insertT, St.run_bind_ok ha, St.run_bind, hc]

example : (ItemCollection.insertT .debug (late .compareContains 5) Prod.fst (2, 'b')
    (ItemCollection.insertT .debug (late .compareContains 5) Prod.fst (1, 'a')
      (ItemCollection.empty : ItemCollection Nat (Nat × Char))).2).1 = .terminate := by decide +kernel

end Wite.Props
