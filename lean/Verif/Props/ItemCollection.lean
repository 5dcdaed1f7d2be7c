import Verif.Lemmas.ItemCollection

/-!
# Properties C63–C67 and C103: `identifiable_item_collection`
-/

namespace Wite.Props

open Wite Wite.Collections Wite.Spec.ItemCollection

variable {ι α : Type} [DecidableEq ι]

/-- Memory never runs out. -/
private abbrev plenty : Site → Nat → Bool := fun _ _ => true

/-- No call of the program changes the id of an item through a reference. -/
private abbrev KeepsIds (idOf : α → ι) (ops : List (ItemCollection.Op ι α)) : Prop :=
  ∀ op ∈ ops, match op with
    | .modify _ f => ∀ x, idOf (f x) = idOf x
    | _ => True

private theorem keepsIds {idOf : α → ι} {ops : List (ItemCollection.Op ι α)} (h : KeepsIds idOf ops) :
    ∀ op ∈ ops, op.keepsIds idOf := by
  intro op hop
  have := h op hop
  cases op <;> simp_all [ItemCollection.Op.keepsIds]

/-- The state after a program on an empty collection, if no call had undefined behaviour. -/
private abbrev after (b : Build) (idOf : α → ι) (ops : List (ItemCollection.Op ι α)) : Option (ItemCollection ι α) :=
  St.history (ItemCollection.step b plenty idOf) ops ItemCollection.empty

private theorem inv_after {b : Build} {idOf : α → ι} {ops : List (ItemCollection.Op ι α)} (h : KeepsIds idOf ops)
    {s : ItemCollection ι α} (hs : after b idOf ops = some s) : ∃ es, ItemCollection.Inv idOf es s := by
  obtain ⟨s', es, h1, h2⟩ := ItemCollection.reachable_inv (fun _ _ => rfl) b ops (ItemCollection.inv_empty idOf) (keepsIds h)
  have := hs.symm.trans h1
  cases this
  exact ⟨es, h2⟩

private theorem exists_of_map {β γ : Type} {o : Option β} {f : β → γ} {y : γ} (h : o.map f = some y) :
    ∃ s, o = some s ∧ f s = y := by
  cases o with
  | none => cases h
  | some s => exact ⟨s, rfl, by simpa using h⟩

/-! ## C63 -/

/-- C63: at every moment of every program the collection shows the insertion-ordered list of the same calls, and
every call returns or throws what it does for the list; no debug assertion fails. -/
theorem c63_list (b : Build) (idOf : α → ι) (ops : List (ItemCollection.Op ι α)) (h : KeepsIds idOf ops) :
    Agrees b plenty idOf ops ItemCollection.empty [] :=
  ItemCollection.agrees (fun _ _ => rfl) b ops (ItemCollection.inv_empty idOf) (keepsIds h)

/-- C63: the ids of the items are distinct, at every moment. -/
theorem c63_unique (b : Build) (idOf : α → ι) (ops : List (ItemCollection.Op ι α)) (h : KeepsIds idOf ops) :
    ∃ s l, after b idOf ops = some s ∧ s.iterate = .ok l ∧ (l.map idOf).Nodup := by
  obtain ⟨s, es, h1, h2⟩ := ItemCollection.reachable_inv (fun _ _ => rfl) b ops (ItemCollection.inv_empty idOf) (keepsIds h)
  refine ⟨s, es.map Prod.snd, h1, h2.shows.2.2.1, ?_⟩
  rw [List.map_map]
  exact h2.ids

example : (after .debug Prod.fst [.insert (2, 'b'), .tryInsertAll [(1, 'a'), (2, 'c')], .emplace (3, 'd'), .erase 2,
      .insert (2, 'e'), .excise 1, .modify 3 fun x => (x.1, 'z')]).map (fun s => (s.iterate, s.atId 2, s.atIndex 0)) =
    some (.ok [(3, 'z'), (2, 'e')], .ok (2, 'e'), .ok (3, 'z')) := by decide +kernel

/-! ## C64 -/

/-- C64: after every program (which never has undefined behaviour) each pointer of the iteration order is live and owned by
exactly one map entry, no object appears twice, and the live objects are exactly those in the collection and those the
caller got from `excise` and has not destroyed. -/
theorem c64_ownership (b : Build) (idOf : α → ι) (ops : List (ItemCollection.Op ι α)) (h : KeepsIds idOf ops) :
    ∃ s, after b idOf ops = some s ∧ s.ordered.Nodup ∧ (s.items.map Prod.snd).Perm s.ordered ∧
      (∀ a ∈ s.ordered, s.heap a ≠ none ∧ a ∉ s.outside) ∧
      (∀ a, s.heap a ≠ none ↔ a ∈ s.ordered ∨ a ∈ s.outside) := by
  obtain ⟨s, es, h1, h2⟩ := ItemCollection.reachable_inv (fun _ _ => rfl) b ops (ItemCollection.inv_empty idOf) (keepsIds h)
  refine ⟨s, h1, by rw [h2.ordered]; exact h2.addrs, ?_, fun a ha => ⟨(h2.live a).2 (Or.inl ha), h2.disj a ha⟩, h2.live⟩
  rw [h2.items, h2.ordered, List.map_map]
  exact List.Perm.refl _

/-- C64: destroying or clearing the collection then destroys all it owns and nothing else. -/
theorem c64_clear (b : Build) (idOf : α → ι) (ops : List (ItemCollection.Op ι α)) (h : KeepsIds idOf ops)
    (s : ItemCollection ι α) (hs : after b idOf ops = some s) :
    (ItemCollection.clear s).1 = .ok () ∧ (ItemCollection.clear s).2.outside = s.outside ∧
    ∀ a, (ItemCollection.clear s).2.heap a ≠ none ↔ a ∈ s.outside := by
  obtain ⟨es, hi⟩ := inv_after h hs
  obtain ⟨s', h1, h2, h3, h4⟩ := ItemCollection.clear_run hi
  have h1' : ItemCollection.clear s = (.ok (), s') := h1
  rw [h1']
  exact ⟨rfl, h3, h4⟩

/-- C64: a program whose caller destroys what they excised leaks nothing. -/
theorem c64_no_leak (b : Build) (idOf : α → ι) (ops : List (ItemCollection.Op ι α)) (h : KeepsIds idOf ops)
    (s : ItemCollection ι α) (hs : after b idOf ops = some s) (hout : s.outside = []) (a : Nat) :
    (ItemCollection.clear s).2.heap a = none := by
  have := (c64_clear b idOf ops h s hs).2.2 a
  rw [hout] at this
  simpa using this

example : (after .release Prod.fst [.insert (2, 'b'), .insert (1, 'a'), .excise 2, .tryInsert (1, 'x'), .drop 0]).map
      (fun s => (s.outside, s.heap 0, s.heap 1, s.heap 2)) = some ([], none, some (1, 'a'), none) := by decide +kernel

/-! ## C65 -/

/-- C65: inserting an id that is present throws or returns false and changes nothing, objects included. -/
theorem c65_single_partial (b : Build) (idOf : α → ι) (ops : List (ItemCollection.Op ι α)) (h : KeepsIds idOf ops)
    (s : ItemCollection ι α) (hs : after b idOf ops = some s) (x : α) (hx : s.contains (idOf x) = true) :
    (let r := ItemCollection.insert b plenty idOf x s
     r.1 = .throw (.logicError "Insertion of duplicate ID into identifiable_item_collection") ∧
       r.2.items = s.items ∧ r.2.ordered = s.ordered ∧ r.2.heap = s.heap ∧ r.2.outside = s.outside) ∧
    (let r := ItemCollection.tryInsert b plenty idOf x s
     r.1 = .ok false ∧ r.2.items = s.items ∧ r.2.ordered = s.ordered ∧ r.2.heap = s.heap ∧ r.2.outside = s.outside) ∧
    (let r := ItemCollection.emplace b plenty idOf x s
     r.1 = .throw (.logicError "identifiable_item_collection already contains this ID") ∧
       r.2.items = s.items ∧ r.2.ordered = s.ordered ∧ r.2.heap = s.heap ∧ r.2.outside = s.outside) := by
  obtain ⟨es, hi⟩ := inv_after h hs
  rw [hi.contains] at hx
  refine ⟨?_, ?_, ?_⟩
  · rcases ItemCollection.insert_run (mem := plenty) (fun _ => rfl) b hi x with ⟨hd, -⟩ | ⟨hd, hr⟩ | ⟨hbad, -⟩
    · rw [hx] at hd; cases hd
    · have hr' : ItemCollection.insert b plenty idOf x s = (.throw duplicate, s) := hr
      rw [hr']; exact ⟨rfl, rfl, rfl, rfl, rfl⟩
    · exact absurd (fun _ _ => rfl) hbad
  · rcases ItemCollection.tryInsert_run (mem := plenty) (fun _ => rfl) b hi x with ⟨hd, -⟩ | ⟨hd, s', hr, h1, h2, h3, h4, -⟩ | ⟨hbad, -⟩
    · rw [hx] at hd; cases hd
    · have hr' : ItemCollection.tryInsert b plenty idOf x s = (.ok false, s') := hr
      rw [hr']; exact ⟨rfl, h1, h2, h4, h3⟩
    · exact absurd (fun _ _ => rfl) hbad
  · rcases ItemCollection.emplace_run (mem := plenty) (fun _ => rfl) b hi x with ⟨hd, -⟩ | ⟨hd, s', hr, h1, h2, h3, h4, -⟩ | ⟨hbad, -⟩
    · rw [hx] at hd; cases hd
    · have hr' : ItemCollection.emplace b plenty idOf x s =
        (.throw (.logicError "identifiable_item_collection already contains this ID"), s') := hr
      rw [hr']; exact ⟨rfl, h1, h2, h4, h3⟩
    · exact absurd (fun _ _ => rfl) hbad

private theorem has_add (idOf : α → ι) (l : List α) (x : α) (id : ι) :
    has idOf (add idOf l x) id = (has idOf l id || decide (idOf x = id)) := by
  unfold add
  split
  · rename_i hh
    by_cases hid : idOf x = id
    · subst hid; simp [hh]
    · simp [hid]
  · simp [has]

private theorem addAll_flags (idOf : α → ι) (xs : List α) : ∀ (l : List α),
    (addAll idOf l xs).1.length = xs.length ∧
    ∀ i x, xs[i]? = some x →
      ((addAll idOf l xs).1[i]? = some !(has idOf l (idOf x) || has idOf (xs.take i) (idOf x))) := by
  induction xs with
  | nil => intro l; simp [addAll]
  | cons y ys ih =>
    intro l
    obtain ⟨h1, h2⟩ := ih (add idOf l y)
    refine ⟨by simp [addAll, h1], fun i x hx => ?_⟩
    cases i with
    | zero =>
      simp at hx; subst hx
      simp [addAll, has]
    | succ i =>
      simp only [List.getElem?_cons_succ] at hx
      have := h2 i x hx
      simp only [addAll, List.getElem?_cons_succ, this, has_add, List.take_succ_cons]
      simp [has, Bool.or_assoc]

/-- C65: `try_insert` of a range or of several arguments reports for each element, in order, whether its id was new:
neither in the collection nor among the elements before it. -/
theorem c65_flags_partial (b : Build) (idOf : α → ι) (ops : List (ItemCollection.Op ι α)) (h : KeepsIds idOf ops)
    (s : ItemCollection ι α) (hs : after b idOf ops = some s) (xs : List α) :
    ∃ flags s', ItemCollection.tryInsertAll b plenty idOf xs s = (.ok flags, s') ∧ flags.length = xs.length ∧
      ∀ i x, xs[i]? = some x →
        flags[i]? = some (!(s.contains (idOf x) || (xs.take i).any fun y => idOf y = idOf x)) := by
  obtain ⟨es, hi⟩ := inv_after h hs
  obtain ⟨s', es', h1, h2, h3⟩ := ItemCollection.tryInsertAll_run (mem := plenty) (fun _ _ => rfl) b xs hi
  obtain ⟨h4, h5⟩ := addAll_flags idOf xs (es.map Prod.snd)
  refine ⟨_, s', h1, h4, fun i x hx => ?_⟩
  rw [h5 i x hx, hi.contains]; rfl

/-- C65: `insert` of several arguments stops at the first duplicate with the exception; the ones before it are inserted. -/
theorem c65_variadic_partial (b : Build) (idOf : α → ι) (ops : List (ItemCollection.Op ι α)) (h : KeepsIds idOf ops)
    (s : ItemCollection ι α) (hs : after b idOf ops = some s) (l : List α) (hl : s.iterate = .ok l)
    (ys zs : List α) (x : α) (hy : ((l ++ ys).map idOf).Nodup) (hx : idOf x ∈ (l ++ ys).map idOf) :
    ∃ s', ItemCollection.insertAll b plenty idOf (ys ++ x :: zs) s =
        (.throw (.logicError "Insertion of duplicate ID into identifiable_item_collection"), s') ∧
      s'.iterate = .ok (l ++ ys) := by
  obtain ⟨es, hi⟩ := inv_after h hs
  have hle : l = es.map Prod.snd := by
    have := hi.shows.2.2.1
    rw [hl] at this
    injection this
  have hgo : ∀ (ys l : List α), ((l ++ ys).map idOf).Nodup → idOf x ∈ (l ++ ys).map idOf →
      addUntil idOf l (ys ++ x :: zs) = (false, l ++ ys) := by
    intro ys
    induction ys with
    | nil =>
      intro l _ hx
      rw [List.nil_append, addUntil, if_pos]
      · simp
      · simpa [has] using hx
    | cons y ys ih =>
      intro l hn hx
      rw [List.cons_append, addUntil, if_neg]
      · rw [ih (l ++ [y]) (by simpa using hn) (by simpa using hx)]; simp
      · simp only [has, List.any_eq_true, decide_eq_true_eq, not_exists, not_and]
        intro z hz heq
        rw [List.map_append, List.map_cons, List.nodup_append] at hn
        exact hn.2.2 (idOf z) (List.mem_map_of_mem hz) (idOf y) (by simp) heq
  have hau := hgo ys l hy hx
  rw [hle] at hau
  obtain ⟨o, s', es', h1, h2, h3, h4⟩ := ItemCollection.insertAll_run (mem := plenty) (fun _ _ => rfl) b (ys ++ x :: zs) hi
  rw [hau] at h3 h4
  simp only [Bool.false_eq_true, false_and, true_and, false_or] at h4
  subst h4
  refine ⟨s', ?_, ?_⟩
  · show (ItemCollection.insertAll b plenty idOf (ys ++ x :: zs)).run s = _
    rw [ItemCollection.insertAll, St.run_bind_throw h1]; rfl
  · have := h2.shows.2.2.1
    rw [h3, ← hle] at this
    exact this

/-- C65 is false for `insert` of a range (and so for the initialiser-list constructor): duplicates are dropped without a
report, whatever the range. -/
theorem c65_refuted_range (b : Build) (idOf : α → ι) (ops : List (ItemCollection.Op ι α)) (h : KeepsIds idOf ops)
    (s : ItemCollection ι α) (hs : after b idOf ops = some s) (xs : List α) :
    (ItemCollection.insertRange b plenty idOf xs s).1 = .ok () := by
  obtain ⟨es, hi⟩ := inv_after h hs
  obtain ⟨s', es', h1, h2, h3⟩ := ItemCollection.tryInsertAll_run (mem := plenty) (fun _ _ => rfl) b xs hi
  have h1' : (ItemCollection.insertRange b plenty idOf xs).run s = (.ok (), s') := by
    rw [ItemCollection.insertRange, St.run_bind_ok h1, St.run_pure]
  show ((ItemCollection.insertRange b plenty idOf xs).run s).1 = _
  rw [h1']

example : (after .debug Prod.fst [.insertRange [(1, 'a'), (1, 'b')]]).map (·.iterate) = some (.ok [(1, 'a')]) := by
  decide +kernel
example : (ItemCollection.insertAll .debug plenty Prod.fst [(1, 'a'), (2, 'b'), (1, 'c'), (3, 'd')] ItemCollection.empty).2.iterate =
    .ok [(1, 'a'), (2, 'b')] := by decide +kernel

/-! ## C66 -/

/-- The state after the item at one place was assigned to through a reference. -/
private theorem modify_item {idOf : α → ι} {pre post : List (Nat × α)} {e : Nat × α} {s : ItemCollection ι α}
    (h : ItemCollection.Inv idOf (pre ++ e :: post) s) (y : α) :
    ∃ s', ItemCollection.modify (idOf e.2) (fun _ => y) s = (.ok (), s') ∧ s'.items = s.items ∧ s'.ordered = s.ordered ∧
      s'.allocs = s.allocs ∧ s'.next = s.next ∧
      (∀ q ∈ pre ++ (e.1, y) :: post, s'.heap q.1 = some q.2) ∧ s'.heap = (fun a => if a = e.1 then some y else s.heap a) ∧
      (∀ q ∈ pre ++ post, q.1 ≠ e.1) ∧ (∀ q ∈ pre ++ post, idOf q.2 ≠ idOf e.2) ∧
      ItemCollection.mapFind s.items (idOf e.2) = some e.1 := by
  have hids := h.ids
  have hadd := h.addrs
  rw [List.map_append, List.map_cons, List.nodup_append, List.nodup_cons] at hids hadd
  have hne : ∀ q ∈ pre ++ post, q.1 ≠ e.1 := by
    intro q hq heq
    rcases List.mem_append.1 hq with hq | hq
    · exact hadd.2.2 q.1 (List.mem_map_of_mem hq) e.1 (by simp) heq
    · exact hadd.2.1.1 (heq ▸ List.mem_map_of_mem hq)
  have hid : ∀ q ∈ pre ++ post, idOf q.2 ≠ idOf e.2 := by
    intro q hq heq
    rcases List.mem_append.1 hq with hq | hq
    · exact hids.2.2 (idOf q.2) (List.mem_map_of_mem (f := fun e => idOf e.2) hq) (idOf e.2) (by simp) heq
    · exact hids.2.1.1 (heq ▸ List.mem_map_of_mem (f := fun e => idOf e.2) hq)
  have hmf : ItemCollection.mapFind s.items (idOf e.2) = some e.1 := by
    rw [h.mapFind, ItemCollection.find?_split rfl fun p hp => hid p (by simp [hp])]; rfl
  have hhe : s.heap e.1 = some e.2 := h.heap e (by simp)
  refine ⟨{ s with heap := fun a => if a = e.1 then some y else s.heap a }, by simp [ItemCollection.modify, hmf, hhe],
    rfl, rfl, rfl, rfl, ?_, rfl, hne, hid, hmf⟩
  intro q hq
  simp only [List.mem_append, List.mem_cons] at hq
  rcases hq with hq | rfl | hq
  · simp [hne q (by simp [hq]), h.heap q (by simp [hq])]
  · simp
  · simp [hne q (by simp [hq]), h.heap q (by simp [hq])]

private theorem entries_of {pre post : List α} {x : α} {es : List (Nat × α)} (h : es.map Prod.snd = pre ++ x :: post) :
    ∃ pre' e post', es = pre' ++ e :: post' ∧ pre'.map Prod.snd = pre ∧ e.2 = x ∧ post'.map Prod.snd = post := by
  obtain ⟨p, q, rfl, h1, h2⟩ := List.map_eq_append_iff.1 h
  obtain ⟨e, q', rfl, h3, h4⟩ := List.map_eq_cons_iff.1 h2
  exact ⟨p, e, q', rfl, h1, h3, h4⟩

private theorem entries_after {b : Build} {idOf : α → ι} {ops : List (ItemCollection.Op ι α)} (h : KeepsIds idOf ops)
    {s : ItemCollection ι α} (hs : after b idOf ops = some s) {pre post : List α} {x : α}
    (hl : s.iterate = .ok (pre ++ x :: post)) :
    ∃ pre' e post', ItemCollection.Inv idOf (pre' ++ e :: post') s ∧ pre'.map Prod.snd = pre ∧ e.2 = x ∧
      post'.map Prod.snd = post := by
  obtain ⟨es, hi⟩ := inv_after h hs
  have hle : es.map Prod.snd = pre ++ x :: post := by
    have := hi.shows.2.2.1
    rw [hl] at this
    injection this.symm
  obtain ⟨p, e, q, rfl, h1, h2, h3⟩ := entries_of hle
  exact ⟨p, e, q, hi, h1, h2, h3⟩

private theorem iterate_of {s : ItemCollection ι α} {es : List (Nat × α)} (ho : s.ordered = es.map Prod.fst)
    (hh : ∀ e ∈ es, s.heap e.1 = some e.2) : s.iterate = .ok (es.map Prod.snd) := by
  have := ItemCollection.readAll_run s es hh
  rw [← ho] at this
  show ((ItemCollection.each ItemCollection.deref s.ordered).run s).1 = _
  rw [this]

private theorem find_entry {idOf : α → ι} {id : ι} {pre post : List (Nat × α)} {e : Nat × α}
    (hp : ∀ q ∈ pre, idOf q.2 ≠ id) (he : idOf e.2 = id) :
    (pre ++ e :: post).findIdx? (fun e => decide (idOf e.2 = id)) = some pre.length := by
  have h0 : pre.findIdx? (fun e => decide (idOf e.2 = id)) = none := by
    rw [List.findIdx?_eq_none_iff]; simpa using hp
  rw [List.findIdx?_append, h0, List.findIdx?_cons]
  simp [he]

private theorem erase_idx {pre post : List (Nat × α)} {e : Nat × α} :
    ((pre ++ e :: post).map Prod.fst).eraseIdx pre.length = (pre ++ post).map Prod.fst := by
  rw [List.map_append, List.map_cons, List.eraseIdx_append_of_length_le (by simp)]
  simp

/-- C66 is false whenever an id is changed, in every state of every collection: an item assigned another id through the
reference `emplace` returned is shown by the iteration, but the map does not see the change.  Lookup by the old id
finds the item with the other id, `contains` says of every id what it said before, and erasing the old id does nothing. -/
theorem c66_refuted_change_id (b : Build) (idOf : α → ι) (ops : List (ItemCollection.Op ι α)) (h : KeepsIds idOf ops)
    (s : ItemCollection ι α) (hs : after b idOf ops = some s) (pre post : List α) (x y : α)
    (hl : s.iterate = .ok (pre ++ x :: post)) (hxy : idOf y ≠ idOf x) :
    ∃ s', ItemCollection.modify (idOf x) (fun _ => y) s = (.ok (), s') ∧ s'.iterate = .ok (pre ++ y :: post) ∧
      s'.size = s.size ∧ s'.atId (idOf x) = .ok y ∧ (∀ id, s'.contains id = s.contains id) ∧
      ItemCollection.erase idOf (idOf x) s' = (.ok false, s') := by
  obtain ⟨p, e, q, hi, rfl, rfl, rfl⟩ := entries_after h hs hl
  obtain ⟨s', h1, h2, h3, -, -, h4, h5, hne, hid, hmf⟩ := modify_item hi y
  have hord : s'.ordered = (p ++ (e.1, y) :: q).map Prod.fst := by rw [h3, hi.ordered]; simp
  refine ⟨s', h1, by rw [iterate_of hord h4]; simp, by rw [ItemCollection.size, h2]; rfl, ?_, ?_, ?_⟩
  · rw [ItemCollection.atId, h2, hmf]
    simp [ItemCollection.deref, h5]
  · intro id
    rw [ItemCollection.contains, h2]; rfl
  · have hf := ItemCollection.findOrdered_run idOf (idOf e.2) s' _ h4
    have hnone : (p ++ (e.1, y) :: q).findIdx? (fun a => decide (idOf a.2 = idOf e.2)) = none := by
      rw [List.findIdx?_eq_none_iff]
      intro a ha
      simp only [List.mem_append, List.mem_cons] at ha
      rcases ha with ha | rfl | ha
      · simpa using hid a (by simp [ha])
      · simpa using hxy
      · simpa using hid a (by simp [ha])
    rw [← hord, hnone] at hf
    show (ItemCollection.erase idOf (idOf e.2)).run s' = _
    rw [ItemCollection.erase, St.run_bind_ok (St.run_get s'), St.run_bind_ok hf]
    rfl

/-- C66: … and, if no item has the new id, erasing it returns `true` and takes the item out of the iteration only: the size and
lookup by the old id stay.  After that `excise` of the old id has undefined behaviour in release builds and
fails an assertion in the others, and inserting any item with a new id fails an assertion in builds with assertions. -/
theorem c66_refuted_excise (b : Build) (idOf : α → ι) (ops : List (ItemCollection.Op ι α)) (h : KeepsIds idOf ops)
    (s : ItemCollection ι α) (hs : after b idOf ops = some s) (pre post : List α) (x y : α)
    (hl : s.iterate = .ok (pre ++ x :: post)) (hxy : idOf y ≠ idOf x) (hnew : ∀ z ∈ pre ++ post, idOf z ≠ idOf y) :
    ∃ s' s'', ItemCollection.modify (idOf x) (fun _ => y) s = (.ok (), s') ∧
      ItemCollection.erase idOf (idOf y) s' = (.ok true, s'') ∧ s''.iterate = .ok (pre ++ post) ∧ s''.size = s.size ∧
      s''.atId (idOf x) = .ok y ∧
      (ItemCollection.excise .release (idOf x) s'').1 = .ub ∧
      (ItemCollection.excise .aborting (idOf x) s'').1 = .terminate ∧
      (ItemCollection.excise .debug (idOf x) s'').1 =
        .throw (.assertion "Failed to find item in orderer items that was found in associative items") ∧
      ∀ w, s.contains (idOf w) = false →
        (ItemCollection.insert .debug plenty idOf w s'').1 = .throw (.assertion "item container size mismatch") ∧
        (ItemCollection.insert .aborting plenty idOf w s'').1 = .terminate := by
  obtain ⟨p, e, q, hi, rfl, rfl, rfl⟩ := entries_after h hs hl
  obtain ⟨s', h1, h2, h3, ha, hn, h4, h5, hne, hid, hmf⟩ := modify_item hi y
  have hord : s'.ordered = (p ++ (e.1, y) :: q).map Prod.fst := by rw [h3, hi.ordered]; simp
  have hnew' : ∀ z ∈ p ++ q, idOf z.2 ≠ idOf y := by
    intro z hz
    apply hnew z.2
    rw [← List.map_append]
    exact List.mem_map_of_mem hz
  have hf := ItemCollection.findOrdered_run idOf (idOf y) s' _ h4
  rw [find_entry (fun z hz => hnew' z (by simp [hz])) rfl, ← hord] at hf
  have hmy : ItemCollection.mapFind s.items (idOf y) = none := by
    rw [hi.mapFind]
    have : (p ++ e :: q).find? (fun a => decide (idOf a.2 = idOf y)) = none := by
      rw [List.find?_eq_none]
      intro a ha
      simp only [List.mem_append, List.mem_cons] at ha
      rcases ha with ha | rfl | ha
      · simpa using hnew' a (by simp [ha])
      · simpa using fun hh => hxy hh.symm
      · simpa using hnew' a (by simp [ha])
    rw [this]; rfl
  obtain ⟨t, ht, ht1, ht2, ht3, ht4⟩ : ∃ t : ItemCollection ι α, t = { s' with ordered := (p ++ q).map Prod.fst } ∧
      t.items = s.items ∧ t.ordered = (p ++ q).map Prod.fst ∧ t.heap = s'.heap ∧ t.next = s.next :=
    ⟨_, rfl, h2, rfl, rfl, hn⟩
  have hfo : t.ordered.findIdx? (fun a => decide (a = e.1)) = none := by
    rw [ht2, List.findIdx?_eq_none_iff]
    intro a ha
    obtain ⟨z, hz, rfl⟩ := List.mem_map.1 ha
    simpa using hne z hz
  have hlen : t.items.length = t.ordered.length + 1 := by
    rw [ht1, ht2, hi.items]; simp; omega
  have hex : ∀ b', (ItemCollection.excise b' (idOf e.2) t).1 = ((ItemCollection.exciseOrdered b' e.1)
      { t with items := t.items.filter fun r => r.1 ≠ idOf e.2 }).1.bind fun _ => .ok (some e.1) := by
    intro b'
    show ((ItemCollection.excise b' (idOf e.2)).run t).1 = _
    rw [ItemCollection.excise, St.run_bind_ok (St.run_get t)]
    simp only [ht1, hmf]
    rw [St.run_bind_ok (St.run_set _ _), St.run_bind]
    simp only [St.run]
    split <;> rename_i heq <;> rw [heq] <;> rfl
  have hhe : t.heap e.1 = some y := by rw [ht3, h5]; simp
  refine ⟨s', t, h1, ?_, ?_, by simp only [ItemCollection.size, ht1], ?_, ?_, ?_, ?_, ?_⟩
  · show (ItemCollection.erase idOf (idOf y)).run s' = _
    rw [ItemCollection.erase, St.run_bind_ok (St.run_get s'), St.run_bind_ok hf]
    simp only []
    have hme : (ItemCollection.mapErase (idOf y)).run { s' with ordered := s'.ordered.eraseIdx p.length } = (.ok (), t) := by
      rw [ItemCollection.mapErase, St.run_bind_ok (St.run_get _)]
      simp only [h2, hmy]
      rw [St.run_pure, ht, hord, erase_idx, h2]
    rw [St.run_bind_ok (St.run_get s'), St.run_bind_ok (St.run_set _ _), St.run_bind_ok hme, St.run_pure]
  · rw [iterate_of ht2, List.map_append]
    intro z hz
    rw [ht3]
    refine h4 z ?_
    rcases List.mem_append.1 hz with hz | hz <;> simp [hz]
  · rw [ItemCollection.atId, ht1, hmf]
    simp [ItemCollection.deref, hhe]
  · rw [hex]
    simp only [ItemCollection.exciseOrdered, bind, St.bind, St.get, hfo, St.ub]
    rfl
  · rw [hex]
    simp only [ItemCollection.exciseOrdered, bind, St.bind, St.get, hfo, St.lift]
    rfl
  · rw [hex]
    simp only [ItemCollection.exciseOrdered, bind, St.bind, St.get, hfo, ItemCollection.free, hhe, St.throw]
    rfl
  · intro w hw
    have hw' : ItemCollection.mapFind t.items (idOf w) = none := by
      rw [ht1]
      simpa [ItemCollection.contains] using hw
    have hlen' : t.items.length ≠ t.ordered.length := by omega
    constructor <;>
    · show ((ItemCollection.insert _ plenty idOf w).run t).1 = _
      simp [ItemCollection.insert, ItemCollection.uncheckedInsert, ItemCollection.newItem, ItemCollection.request,
        ItemCollection.mapInsert, ItemCollection.pushBack, ItemCollection.deref, ItemCollection.assertSizes, debugAssert, St.run,
        pure, St.pure, bind, St.bind, St.get, St.set, ItemCollection.contains, hw', hlen', plenty]

private theorem iterate_ub {s : ItemCollection ι α} {as bs : List Nat} {a : Nat} (ho : s.ordered = as ++ a :: bs)
    (hl : ∀ c ∈ as, ∃ x, s.heap c = some x) (hd : s.heap a = none) : s.iterate = .ub := by
  have key : ∀ cs : List Nat, (∀ c ∈ cs, ∃ x, s.heap c = some x) →
      ((ItemCollection.each ItemCollection.deref (cs ++ a :: bs)).run s).1 = (.ub : Outcome (List α)) := by
    intro cs
    induction cs with
    | nil =>
      intro _
      have : (ItemCollection.deref a).run s = (.ub, s) := by simp [ItemCollection.deref, St.run, hd]
      rw [List.nil_append, ItemCollection.each, St.run_bind, this]
    | cons c cs ih =>
      intro hc
      obtain ⟨x, hx⟩ := hc c (by simp)
      have : (ItemCollection.deref c).run s = (.ok x, s) := by simp [ItemCollection.deref, St.run, hx]
      have ih := ih fun c hc' => hc c (by simp [hc'])
      rw [List.cons_append, ItemCollection.each, St.run_bind_ok this, St.run_bind]
      rcases hr : (ItemCollection.each ItemCollection.deref (cs ++ a :: bs)).run s with ⟨o, t⟩
      rw [hr] at ih
      simp only at ih
      subst ih
      rfl
  show ((ItemCollection.each ItemCollection.deref s.ordered).run s).1 = _
  rw [ho]
  exact key as hl

/-- C66: a changed id can also make two items share an id.  If the changed item comes first, erasing that id frees
the other object, which is still in the iteration order: iterating has undefined behaviour.  If it comes second, the other
item is erased properly and the changed one stays. -/
theorem c66_refuted_dangling (b : Build) (idOf : α → ι) (ops : List (ItemCollection.Op ι α)) (h : KeepsIds idOf ops)
    (s : ItemCollection ι α) (hs : after b idOf ops = some s) (pre mid post : List α) (x z y : α)
    (hl : s.iterate = .ok (pre ++ x :: mid ++ z :: post)) :
    (idOf y = idOf z → ∃ s' s'', ItemCollection.modify (idOf x) (fun _ => y) s = (.ok (), s') ∧
      ItemCollection.erase idOf (idOf z) s' = (.ok true, s'') ∧ s''.iterate = .ub) ∧
    (idOf y = idOf x → ∃ s' s'', ItemCollection.modify (idOf z) (fun _ => y) s = (.ok (), s') ∧
      ItemCollection.erase idOf (idOf x) s' = (.ok true, s'') ∧ s''.iterate = .ok (pre ++ mid ++ y :: post)) := by
  constructor
  · intro hy
    obtain ⟨p, e, r, hi, rfl, rfl, hr⟩ := entries_after h hs (pre := pre) (x := x) (post := mid ++ z :: post)
      (by rw [hl, List.append_assoc, List.cons_append])
    obtain ⟨m, f, q, rfl, rfl, rfl, rfl⟩ := entries_of hr
    obtain ⟨s', h1, h2, h3, -, -, h4, h5, hne, hid, hmf⟩ := modify_item hi y
    have hids := hi.ids
    have hi2 : ItemCollection.Inv idOf ((p ++ e :: m) ++ f :: q) s := by simpa using hi
    obtain ⟨-, -, -, -, -, -, -, -, hne2, hid2, hmf2⟩ := modify_item hi2 y
    have hord : s'.ordered = (p ++ (e.1, y) :: (m ++ f :: q)).map Prod.fst := by rw [h3, hi.ordered]; simp
    have hf := ItemCollection.findOrdered_run idOf (idOf f.2) s' _ h4
    rw [find_entry (fun z hz => hid2 z (by simp [hz])) hy, ← hord] at hf
    have hff : s'.heap f.1 = some f.2 := h4 f (by simp)
    refine ⟨s', { s' with
      ordered := (p ++ (m ++ f :: q)).map Prod.fst
      items := s'.items.filter fun r => r.1 ≠ idOf f.2
      heap := fun a => if a = f.1 then none else s'.heap a }, h1, ?_, ?_⟩
    · show (ItemCollection.erase idOf (idOf f.2)).run s' = _
      rw [ItemCollection.erase, St.run_bind_ok (St.run_get s'), St.run_bind_ok hf]
      simp only []
      have hme : (ItemCollection.mapErase (idOf f.2)).run { s' with ordered := s'.ordered.eraseIdx p.length } =
          (.ok (), { s' with
            ordered := (p ++ (m ++ f :: q)).map Prod.fst
            items := s'.items.filter fun r => r.1 ≠ idOf f.2
            heap := fun a => if a = f.1 then none else s'.heap a }) := by
        rw [ItemCollection.mapErase, St.run_bind_ok (St.run_get _)]
        simp only [h2, hmf2]
        rw [St.run_bind_ok (St.run_set _ _), hord, erase_idx]
        simp [ItemCollection.free, St.run, hff]
      rw [St.run_bind_ok (St.run_get s'), St.run_bind_ok (St.run_set _ _), St.run_bind_ok hme, St.run_pure]
    · refine iterate_ub (as := (p ++ m).map Prod.fst) (a := f.1) (bs := q.map Prod.fst) (by simp) ?_ (by simp)
      intro c hc
      obtain ⟨z, hz, rfl⟩ := List.mem_map.1 hc
      refine ⟨z.2, ?_⟩
      have hzf : z.1 ≠ f.1 := hne2 z (by rcases List.mem_append.1 hz with hz | hz <;> simp [hz])
      simp only [hzf, if_false]
      exact h4 z (by rcases List.mem_append.1 hz with hz | hz <;> simp [hz])
  · intro hy
    obtain ⟨p, e, r, hi, rfl, rfl, hr⟩ := entries_after h hs (pre := pre) (x := x) (post := mid ++ z :: post)
      (by rw [hl, List.append_assoc, List.cons_append])
    obtain ⟨m, f, q, rfl, rfl, rfl, rfl⟩ := entries_of hr
    have hi2 : ItemCollection.Inv idOf ((p ++ e :: m) ++ f :: q) s := by simpa using hi
    obtain ⟨-, -, -, -, -, -, -, -, hne, hid, hmf⟩ := modify_item hi y
    obtain ⟨s', h1, h2, h3, -, -, h4, h5, hne2, hid2, hmf2⟩ := modify_item hi2 y
    have hord : s'.ordered = (p ++ e :: (m ++ (f.1, y) :: q)).map Prod.fst := by rw [h3, hi.ordered]; simp
    have h4' : ∀ z ∈ p ++ e :: (m ++ (f.1, y) :: q), s'.heap z.1 = some z.2 := by
      intro z hz
      exact h4 z (by simpa using hz)
    have hf := ItemCollection.findOrdered_run idOf (idOf e.2) s' _ h4'
    rw [find_entry (fun z hz => hid z (by simp [hz])) rfl, ← hord] at hf
    have hee : s'.heap e.1 = some e.2 := h4' e (by simp)
    refine ⟨s', { s' with
      ordered := (p ++ (m ++ (f.1, y) :: q)).map Prod.fst
      items := s'.items.filter fun r => r.1 ≠ idOf e.2
      heap := fun a => if a = e.1 then none else s'.heap a }, h1, ?_, ?_⟩
    · show (ItemCollection.erase idOf (idOf e.2)).run s' = _
      rw [ItemCollection.erase, St.run_bind_ok (St.run_get s'), St.run_bind_ok hf]
      simp only []
      have hme : (ItemCollection.mapErase (idOf e.2)).run { s' with ordered := s'.ordered.eraseIdx p.length } =
          (.ok (), { s' with
            ordered := (p ++ (m ++ (f.1, y) :: q)).map Prod.fst
            items := s'.items.filter fun r => r.1 ≠ idOf e.2
            heap := fun a => if a = e.1 then none else s'.heap a }) := by
        rw [ItemCollection.mapErase, St.run_bind_ok (St.run_get _)]
        simp only [h2, hmf]
        rw [St.run_bind_ok (St.run_set _ _), hord, erase_idx]
        simp [ItemCollection.free, St.run, hee]
      rw [St.run_bind_ok (St.run_get s'), St.run_bind_ok (St.run_set _ _), St.run_bind_ok hme, St.run_pure]
    · rw [iterate_of rfl]
      · simp
      · intro z hz
        have hze : z.1 ≠ e.1 := by
          simp only [List.mem_append, List.mem_cons] at hz
          rcases hz with hz | hz | rfl | hz
          · exact hne z (by simp [hz])
          · exact hne z (by simp [hz])
          · exact hne f (by simp)
          · exact hne z (by simp [hz])
        simp only [hze, if_false]
        refine h4' z ?_
        simp only [List.mem_append, List.mem_cons] at hz ⊢
        tauto

example : (after .release Prod.fst [.emplace (1, 'a'), .emplace (2, 'b'), .modify 1 (fun x => (2, x.2)), .erase 2]).map
      (·.iterate) = some .ub := by decide +kernel
example : (after .release Prod.fst [.emplace (1, 'a'), .modify 1 fun x => (2, x.2)]).map (fun s =>
    decide (s.atId 1 = .ok (2, 'a') ∧ s.contains 2 = false ∧ s.iterate = .ok [(2, 'a')] ∧
      (ItemCollection.erase Prod.fst 1 s).1 = .ok false ∧ (ItemCollection.erase Prod.fst 2 s).2.size = 1)) = some true := by
  decide +kernel

/-- C66, what holds: modifications that keep the id are seen by every observer and break nothing; C63 and C64 include them.
This is the single step. -/
theorem c66_keep_id_partial (b : Build) (idOf : α → ι) (ops : List (ItemCollection.Op ι α)) (h : KeepsIds idOf ops)
    (s : ItemCollection ι α) (hs : after b idOf ops = some s) (l : List α) (hl : s.iterate = .ok l) (id : ι) (f : α → α)
    (hf : ∀ x, idOf (f x) = idOf x) :
    ∃ s', ItemCollection.modify id f s = (.ok (), s') ∧ Shows idOf s' (l.map fun x => if idOf x = id then f x else x) := by
  obtain ⟨es, hi⟩ := inv_after h hs
  have hle : l = es.map Prod.snd := by
    have := hi.shows.2.2.1
    rw [hl] at this
    injection this
  obtain ⟨s', es', h1, h2, h3, -⟩ := ItemCollection.modify_run hi id f hf
  refine ⟨s', h1, ?_⟩
  rw [hle, ← h3]
  exact h2.shows

/-! ## C67 -/

/-- C67: lookups throw exactly for absent ids and indices not below the size; `erase` returns false and `excise` null
exactly for absent ids, and then nothing changes. -/
theorem c67_failures (b : Build) (idOf : α → ι) (ops : List (ItemCollection.Op ι α)) (h : KeepsIds idOf ops)
    (s : ItemCollection ι α) (hs : after b idOf ops = some s) :
    ∃ l, s.iterate = .ok l ∧
    (∀ id, s.atId id = .throw (.outOfRange "identifiable_item_collection failed to retreive item by ID") ↔
      ∀ x ∈ l, idOf x ≠ id) ∧
    (∀ i, s.atIndex i = .throw (.outOfRange "identifiable_item_collection failed to retreive item by index") ↔ i ≥ s.size) ∧
    (∀ id, (ItemCollection.erase idOf id s).1 = .ok false ↔ ∀ x ∈ l, idOf x ≠ id) ∧
    (∀ id, (∀ x ∈ l, idOf x ≠ id) → ItemCollection.erase idOf id s = (.ok false, s)) ∧
    (∀ id, (ItemCollection.excise b id s).1 = .ok none ↔ ∀ x ∈ l, idOf x ≠ id) ∧
    (∀ id, (∀ x ∈ l, idOf x ≠ id) → ItemCollection.excise b id s = (.ok none, s)) := by
  obtain ⟨es, hi⟩ := inv_after h hs
  have hno : ∀ id, has idOf (es.map Prod.snd) id = false ↔ ∀ x ∈ es.map Prod.snd, idOf x ≠ id := by
    intro id; simp only [has, List.any_eq_false, decide_eq_true_eq]
  obtain ⟨a1, -, a2, a3, a4, a5⟩ := hi.shows
  have ers : ∀ id, ∃ s', ItemCollection.erase idOf id s = (.ok (has idOf (es.map Prod.snd) id), s') ∧
      (has idOf (es.map Prod.snd) id = false → s' = s) := by
    intro id
    obtain ⟨s', es', h1, h2, h3, h4, -⟩ := ItemCollection.erase_run hi id
    exact ⟨s', h1, h4⟩
  refine ⟨es.map Prod.snd, a2, ?_, ?_, ?_, ?_, ?_, ?_⟩
  · intro id
    rw [a4 id]
    rcases hf : (es.map Prod.snd).find? (fun x => decide (idOf x = id)) with _ | x
    · simp only [true_iff]
      intro x hx
      have := List.find?_eq_none.1 hf x hx
      simpa using this
    · simp only [reduceCtorEq, false_iff, not_forall]
      exact ⟨x, List.mem_of_find?_eq_some hf, by simpa using List.find?_some hf⟩
  · intro i
    rw [a5 i, a1]
    rcases hf : (es.map Prod.snd)[i]? with _ | x
    · simp only [true_iff]
      exact List.getElem?_eq_none_iff.1 hf
    · simp only [reduceCtorEq, false_iff]
      have := (List.getElem?_eq_some_iff.1 hf).1
      omega
  · intro id
    obtain ⟨s', h1, -⟩ := ers id
    rw [h1, ← hno]
    simp
  · intro id hid
    obtain ⟨s', h1, h2⟩ := ers id
    rw [← hno] at hid
    rw [h1, hid, h2 hid]
  · intro id
    rw [← hno]
    rcases ItemCollection.excise_run b hi id with ⟨hh, hr⟩ | ⟨a, x, s', es', h1, h2, -⟩
    · have hr' : ItemCollection.excise b id s = (.ok none, s) := hr
      simp [hr', hh]
    · have hr' : ItemCollection.excise b id s = (.ok (some a), s') := h2
      have : has idOf (es.map Prod.snd) id = true := by
        rw [has, List.any_eq_true]
        exact ⟨x, List.mem_of_find?_eq_some h1, by simpa using List.find?_some h1⟩
      simp [hr', this]
  · intro id hid
    rw [← hno] at hid
    rcases ItemCollection.excise_run b hi id with ⟨hh, hr⟩ | ⟨a, x, s', es', h1, h2, -⟩
    · exact hr
    · have : has idOf (es.map Prod.snd) id = true := by
        rw [has, List.any_eq_true]
        exact ⟨x, List.mem_of_find?_eq_some h1, by simpa using List.find?_some h1⟩
      rw [hid] at this; cases this

/-! ## C103 -/

/-- Memory runs out exactly when the vector of pointers grows. -/
private abbrev noOrder : Site → Nat → Bool := fun site _ => site ≠ .order

/-- C103 is false: if the vector of pointers cannot grow, `insert`, `try_insert` and `emplace` throw but leave the item in the
map: size and lookup show it, iteration and `erase` do not. -/
theorem c103_refuted_vector (b : Build) : ∃ s : ItemCollection Nat (Nat × Char),
    ItemCollection.insert b noOrder Prod.fst (1, 'a') ItemCollection.empty = (.throw .badAlloc, s) ∧
    s.size = 1 ∧ s.contains 1 = true ∧ s.atId 1 = .ok (1, 'a') ∧ s.iterate = .ok [] ∧
    (ItemCollection.erase Prod.fst 1 s).1 = .ok false ∧
    (ItemCollection.excise .release 1 s).1 = .ub := by
  have h1 : (ItemCollection.insert b noOrder Prod.fst (1, 'a') (ItemCollection.empty : ItemCollection Nat (Nat × Char))).1 =
      .throw .badAlloc := by cases b <;> decide +kernel
  refine ⟨(ItemCollection.insert b noOrder Prod.fst (1, 'a') ItemCollection.empty).2, by rw [← h1], ?_⟩
  cases b <;> decide +kernel

/-- C103 is false for every collection and every new item: if the vector cannot grow, the insertion throws, size, `contains` and
`at` count the item and iteration shows the old list. -/
theorem c103_refuted_every (b : Build) (idOf : α → ι) (ops : List (ItemCollection.Op ι α)) (h : KeepsIds idOf ops)
    (s : ItemCollection ι α) (hs : after b idOf ops = some s) (l : List α) (hl : Shows idOf s l) (x : α)
    (hx : s.contains (idOf x) = false) :
    ∃ s', ItemCollection.insert b noOrder idOf x s = (.throw .badAlloc, s') ∧
      ItemCollection.tryInsert b noOrder idOf x s = (.throw .badAlloc, s') ∧
      ItemCollection.emplace b noOrder idOf x s = (.throw .badAlloc, s') ∧
      s'.size = l.length + 1 ∧ s'.contains (idOf x) = true ∧ s'.atId (idOf x) = .ok x ∧ s'.iterate = .ok l := by
  obtain ⟨es, hi⟩ := inv_after h hs
  have hle : l = es.map Prod.snd := by
    have h1 := hl.2.2.1
    rw [hi.shows.2.2.1] at h1
    exact (Outcome.ok.inj h1).symm
  subst hle
  have hf : ItemCollection.mapFind s.items (idOf x) = none := by
    rw [ItemCollection.contains] at hx
    cases hh : ItemCollection.mapFind s.items (idOf x) with
    | none => rfl
    | some a => rw [hh] at hx; cases hx
  have hfree : s.heap s.next = none := hi.next _ (Nat.le_refl _)
  have hfind : ItemCollection.mapFind (s.items ++ [(idOf x, s.next)]) (idOf x) = some s.next := by
    rw [ItemCollection.mapFind] at hf ⊢
    rw [Option.map_eq_none_iff] at hf
    rw [List.find?_append, hf]
    simp
  let t : ItemCollection ι α := { s with
    heap := fun a => if a = s.next then some x else s.heap a
    next := s.next + 1
    allocs := s.allocs + 1 + 1 + 1
    items := s.items ++ [(idOf x, s.next)] }
  refine ⟨t, ?_, ?_, ?_, ?_, ?_, ?_, ?_⟩
  · simp [t, ItemCollection.insert, hx, ItemCollection.newItem, ItemCollection.request, ItemCollection.uncheckedInsert,
      ItemCollection.deref, ItemCollection.mapInsert, ItemCollection.pushBack, hf, St.get, St.set, pure, St.pure, bind, St.bind,
      St.throw]
  · simp [t, ItemCollection.tryInsert, ItemCollection.newItem, ItemCollection.request, ItemCollection.tryUncheckedInsert,
      ItemCollection.deref, ItemCollection.mapInsert, ItemCollection.pushBack, hf, St.get, St.set, pure, St.pure, bind, St.bind,
      St.throw]
  · simp [t, ItemCollection.emplace, ItemCollection.newItem, ItemCollection.request, ItemCollection.tryUncheckedInsert,
      ItemCollection.deref, ItemCollection.mapInsert, ItemCollection.pushBack, hf, St.get, St.set, pure, St.pure, bind, St.bind,
      St.throw]
  · simp [t, ItemCollection.size, hi.items]
  · simp [t, ItemCollection.contains, hfind]
  · simp [t, ItemCollection.atId, hfind, ItemCollection.deref]
  · have := ItemCollection.readAll_run t es (fun e he => by
      have h1 := hi.heap e he
      have h2 : e.1 ≠ s.next := by rintro h3; rw [h3, hfree] at h1; cases h1
      simp [t, h2, h1])
    rw [← hi.ordered] at this
    show ((ItemCollection.each ItemCollection.deref s.ordered).run t).1 = _
    rw [this]

example : ((after .debug Prod.fst [.insert (2, 'b')]).map fun s =>
    let r := (ItemCollection.tryInsert .debug noOrder Prod.fst (1, 'a') s)
    (r.1, r.2.size, r.2.iterate)) = some (.throw .badAlloc, 2, .ok [(2, 'b')]) := by decide +kernel

/-- C103, what holds: if the item or the map node cannot be allocated, the exception leaves everything as it was, objects
included; and no other failure of memory is visible. -/
theorem c103_item_node_partial (b : Build) (idOf : α → ι) (ops : List (ItemCollection.Op ι α)) (h : KeepsIds idOf ops)
    (s : ItemCollection ι α) (hs : after b idOf ops = some s) (x : α) (mem : Site → Nat → Bool)
    (hmem : ∀ n, mem .order n = true) (s' : ItemCollection ι α)
    (hbad : ItemCollection.insert b mem idOf x s = (.throw .badAlloc, s') ∨
      ItemCollection.tryInsert b mem idOf x s = (.throw .badAlloc, s') ∨
      ItemCollection.emplace b mem idOf x s = (.throw .badAlloc, s')) :
    s'.items = s.items ∧ s'.ordered = s.ordered ∧ s'.heap = s.heap ∧ s'.outside = s.outside ∧
    ∃ l, Shows idOf s l ∧ Shows idOf s' l := by
  obtain ⟨es, hi⟩ := inv_after h hs
  have main : ItemCollection.Same s s' := by
    rcases hbad with hb | hb | hb
    · rcases ItemCollection.insert_run hmem b hi x with ⟨hd, n, hr⟩ | ⟨hd, hr⟩ | ⟨-, t, hr, ht⟩
      · have hr' : ItemCollection.insert b mem idOf x s = _ := hr
        rw [hb] at hr'; cases hr'
      · have hr' : ItemCollection.insert b mem idOf x s = _ := hr
        rw [hb] at hr'; cases hr'
      · have hr' : ItemCollection.insert b mem idOf x s = _ := hr
        rw [hb] at hr'; cases hr'; exact ht
    · rcases ItemCollection.tryInsert_run hmem b hi x with ⟨hd, n, hr⟩ | ⟨hd, t, hr, ht⟩ | ⟨-, t, hr, ht⟩
      · have hr' : ItemCollection.tryInsert b mem idOf x s = _ := hr
        rw [hb] at hr'; cases hr'
      · have hr' : ItemCollection.tryInsert b mem idOf x s = _ := hr
        rw [hb] at hr'; cases hr'
      · have hr' : ItemCollection.tryInsert b mem idOf x s = _ := hr
        rw [hb] at hr'; cases hr'; exact ht
    · rcases ItemCollection.emplace_run hmem b hi x with ⟨hd, n, hr⟩ | ⟨hd, t, hr, ht⟩ | ⟨-, t, hr, ht⟩
      · have hr' : ItemCollection.emplace b mem idOf x s = _ := hr
        rw [hb] at hr'; cases hr'
      · have hr' : ItemCollection.emplace b mem idOf x s = _ := hr
        rw [hb] at hr'; cases hr'
      · have hr' : ItemCollection.emplace b mem idOf x s = _ := hr
        rw [hb] at hr'; cases hr'; exact ht
  exact ⟨main.1, main.2.1, main.2.2.2.1, main.2.2.1, es.map Prod.snd, hi.shows, (hi.same main).shows⟩

/-- An insertion for which the map finds no memory. -/
private abbrev noNode : Outcome Unit × ItemCollection Nat (Nat × Char) :=
  ItemCollection.insert .debug (fun site _ => site ≠ .node) Prod.fst (1, 'a') ItemCollection.empty

example : noNode.1 = .throw .badAlloc ∧ noNode.2.size = 0 ∧ noNode.2.heap 0 = none := by decide +kernel

end Wite.Props
