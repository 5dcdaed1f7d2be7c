import Verif.Spec.ItemCollection
import Mathlib.Data.List.Nodup

/-!
# Lemmas about the model of `identifiable_item_collection`
-/

namespace Wite.Collections.ItemCollection

open Wite.Spec.ItemCollection

variable {ι α : Type} [DecidableEq ι]

/-- The invariant; `es` are the addresses and items in order. -/
structure Inv (idOf : α → ι) (es : List (Nat × α)) (s : ItemCollection ι α) : Prop where
  ordered : s.ordered = es.map Prod.fst
  items : s.items = es.map fun e => (idOf e.2, e.1)
  heap : ∀ e ∈ es, s.heap e.1 = some e.2
  ids : (es.map fun e => idOf e.2).Nodup
  addrs : (es.map Prod.fst).Nodup
  live : ∀ a, s.heap a ≠ none ↔ a ∈ s.ordered ∨ a ∈ s.outside
  disj : ∀ a, a ∈ s.ordered → a ∉ s.outside
  next : ∀ a, s.next ≤ a → s.heap a = none

/-- Nothing changed that anybody can see. -/
def Same (s s' : ItemCollection ι α) : Prop :=
  s'.items = s.items ∧ s'.ordered = s.ordered ∧ s'.outside = s.outside ∧ s'.heap = s.heap ∧ s.next ≤ s'.next

theorem Same.refl (s : ItemCollection ι α) : Same s s := ⟨rfl, rfl, rfl, rfl, Nat.le_refl _⟩

theorem Inv.same {idOf : α → ι} {es : List (Nat × α)} {s s' : ItemCollection ι α} (h : Inv idOf es s) (hs : Same s s') :
    Inv idOf es s' := by
  obtain ⟨h1, h2, h3, h4, h5⟩ := hs
  refine ⟨by rw [h2, h.ordered], by rw [h1, h.items], by rw [h4]; exact h.heap, h.ids, h.addrs, ?_, ?_, ?_⟩
  · rw [h2, h3, h4]; exact h.live
  · rw [h2, h3]; exact h.disj
  · intro a ha; rw [h4]; exact h.next a (by omega)

theorem inv_empty (idOf : α → ι) : Inv idOf [] (empty : ItemCollection ι α) :=
  ⟨rfl, rfl, by simp, by simp, by simp, by simp [empty], by simp [empty], by simp [empty]⟩

theorem Inv.mapFind {idOf : α → ι} {es : List (Nat × α)} {s : ItemCollection ι α} (h : Inv idOf es s) (id : ι) :
    mapFind s.items id = (es.find? fun e => idOf e.2 = id).map Prod.fst := by
  rw [ItemCollection.mapFind, h.items, List.find?_map, Option.map_map]
  rfl

theorem has_eq (idOf : α → ι) (es : List (Nat × α)) (id : ι) :
    has idOf (es.map Prod.snd) id = (es.find? fun e => idOf e.2 = id).isSome := by
  rw [has, List.any_map, List.isSome_find?]
  rfl

theorem Inv.contains {idOf : α → ι} {es : List (Nat × α)} {s : ItemCollection ι α} (h : Inv idOf es s) (id : ι) :
    s.contains id = has idOf (es.map Prod.snd) id := by
  rw [ItemCollection.contains, h.mapFind, has_eq]
  simp

theorem find?_none_of {idOf : α → ι} {es : List (Nat × α)} {id : ι} (h : has idOf (es.map Prod.snd) id = false) :
    es.find? (fun e => idOf e.2 = id) = none := by
  rw [has_eq] at h
  simpa using h

/-- The state after creating an object and a new entry for it. -/
def added (s : ItemCollection ι α) (id : ι) (x : α) (n : Nat) : ItemCollection ι α :=
  { heap := fun a => if a = s.next then some x else s.heap a
    next := s.next + 1
    allocs := n
    items := s.items ++ [(id, s.next)]
    ordered := s.ordered ++ [s.next]
    outside := s.outside }

theorem Inv.next_not {idOf : α → ι} {es : List (Nat × α)} {s : ItemCollection ι α} (h : Inv idOf es s) :
    s.next ∉ s.ordered ∧ s.next ∉ s.outside := by
  have := h.next s.next (Nat.le_refl _)
  have hl := h.live s.next
  rw [this] at hl
  simp at hl
  exact hl

theorem Inv.added {idOf : α → ι} {es : List (Nat × α)} {s : ItemCollection ι α} (h : Inv idOf es s) (x : α) (n : Nat)
    (hnew : has idOf (es.map Prod.snd) (idOf x) = false) : Inv idOf (es ++ [(s.next, x)]) (added s (idOf x) x n) := by
  obtain ⟨hn1, hn2⟩ := h.next_not
  refine ⟨by simp [ItemCollection.added, h.ordered], by simp [ItemCollection.added, h.items], ?_, ?_, ?_, ?_, ?_, ?_⟩
  · intro e he
    simp only [List.mem_append, List.mem_singleton] at he
    rcases he with he | rfl
    · have hne : e.1 ≠ s.next := by
        intro heq
        apply hn1
        rw [h.ordered, ← heq]
        exact List.mem_map_of_mem he
      simp [ItemCollection.added, hne, h.heap e he]
    · simp [ItemCollection.added]
  · rw [List.map_append, List.nodup_append]
    refine ⟨h.ids, by simp, ?_⟩
    intro a ha b hb
    simp only [List.map_cons, List.map_nil, List.mem_singleton] at hb
    subst hb
    rintro rfl
    simp only [List.mem_map] at ha
    obtain ⟨e, he, hid⟩ := ha
    simp only [has, List.any_map, List.any_eq_false] at hnew
    exact hnew e he (by simpa using hid)
  · rw [List.map_append, List.nodup_append]
    refine ⟨h.addrs, by simp, ?_⟩
    intro a ha b hb
    simp only [List.map_cons, List.map_nil, List.mem_singleton] at hb
    subst hb
    rintro rfl
    rw [← h.ordered] at ha
    exact hn1 ha
  · intro a
    simp only [ItemCollection.added, List.mem_append, List.mem_singleton]
    by_cases ha : a = s.next
    · simp [ha]
    · simp [ha, h.live a]
  · intro a ha
    simp only [ItemCollection.added, List.mem_append, List.mem_singleton] at ha ⊢
    rcases ha with ha | rfl
    · exact h.disj a ha
    · exact hn2
  · intro a ha
    simp only [ItemCollection.added] at ha ⊢
    rw [if_neg (by omega)]
    exact h.next a (by omega)

/-- `try_insert`, as long as the vector finds memory. -/
theorem tryInsert_run {mem : Site → Nat → Bool} (hmem : ∀ n, mem .order n = true) (b : Build) {idOf : α → ι}
    {es : List (Nat × α)} {s : ItemCollection ι α} (h : Inv idOf es s) (x : α) :
    (has idOf (es.map Prod.snd) (idOf x) = false ∧
      ∃ n, (tryInsert b mem idOf x).run s = (.ok true, added s (idOf x) x n)) ∨
    (has idOf (es.map Prod.snd) (idOf x) = true ∧ ∃ s', (tryInsert b mem idOf x).run s = (.ok false, s') ∧ Same s s') ∨
    (¬ (∀ st n, mem st n = true) ∧ ∃ s', (tryInsert b mem idOf x).run s = (.throw .badAlloc, s') ∧ Same s s') := by
  have hfree : s.heap s.next = none := h.next _ (Nat.le_refl _)
  have hlen : s.items.length = s.ordered.length := by rw [h.items, h.ordered]; simp
  have hundo : (fun b => if b = s.next then none else if b = s.next then some x else s.heap b) = s.heap := by
    funext b; by_cases hb : b = s.next <;> simp [hb, hfree]
  have hassert : ∀ p : Prop, [Decidable p] → p → ∀ msg, debugAssert b (decide p) msg = .ok () := by
    intro p _ hp msg; cases b <;> simp [debugAssert, hp]
  by_cases hi : mem .item s.allocs = true
  · by_cases hd : has idOf (es.map Prod.snd) (idOf x) = true
    · refine Or.inr (Or.inl ⟨hd, ?_⟩)
      have hf : ∃ a, ItemCollection.mapFind s.items (idOf x) = some a := by
        have := h.contains (idOf x)
        rw [hd, ItemCollection.contains, Option.isSome_iff_exists] at this
        exact this
      obtain ⟨a, hf⟩ := hf
      refine ⟨{ s with allocs := s.allocs + 1, next := s.next + 1 }, ?_, rfl, rfl, rfl, rfl, by simp⟩
      simp [tryInsert, newItem, request, tryUncheckedInsert, deref, mapInsert, free, pushBack, assertSizes, St.run_bind, St.run,
        hi, hf, St.get, St.set, pure, St.pure, hundo, hassert _ hlen, bind, St.bind]
    · have hd' : has idOf (es.map Prod.snd) (idOf x) = false := by simpa using hd
      have hf : ItemCollection.mapFind s.items (idOf x) = none := by
        rw [h.mapFind, find?_none_of hd']; rfl
      by_cases hn : mem .node (s.allocs + 1) = true
      · refine Or.inl ⟨hd', s.allocs + 1 + 1 + 1, ?_⟩
        have hlen' : (s.items ++ [(idOf x, s.next)]).length = (s.ordered ++ [s.next]).length := by simp [hlen]
        simp [tryInsert, newItem, request, tryUncheckedInsert, deref, mapInsert, free, pushBack, assertSizes, St.run_bind, St.run,
          hi, hf, hn, hmem, St.get, St.set, pure, St.pure, bind, St.bind, added]
        simp only [hassert _ hlen]
      · refine Or.inr (Or.inr ⟨fun hall => hn (hall _ _), ?_⟩)
        refine ⟨{ s with allocs := s.allocs + 1 + 1, next := s.next + 1 }, ?_, rfl, rfl, rfl, rfl, by simp⟩
        simp [tryInsert, newItem, request, tryUncheckedInsert, deref, mapInsert, free, pushBack, assertSizes, St.run_bind, St.run,
          hi, hf, hn, St.get, St.set, pure, St.pure, hundo, bind, St.bind, St.throw]
  · refine Or.inr (Or.inr ⟨fun hall => hi (hall _ _), ?_⟩)
    refine ⟨{ s with allocs := s.allocs + 1 }, ?_, rfl, rfl, rfl, rfl, by simp⟩
    simp [tryInsert, newItem, request, St.run_bind, St.run, hi, pure, St.pure, bind, St.bind, St.throw]

/-- `insert`, as long as the vector finds memory. -/
theorem insert_run {mem : Site → Nat → Bool} (hmem : ∀ n, mem .order n = true) (b : Build) {idOf : α → ι}
    {es : List (Nat × α)} {s : ItemCollection ι α} (h : Inv idOf es s) (x : α) :
    (has idOf (es.map Prod.snd) (idOf x) = false ∧
      ∃ n, (insert b mem idOf x).run s = (.ok (), added s (idOf x) x n)) ∨
    (has idOf (es.map Prod.snd) (idOf x) = true ∧ (insert b mem idOf x).run s = (.throw duplicate, s)) ∨
    (¬ (∀ st n, mem st n = true) ∧ ∃ s', (insert b mem idOf x).run s = (.throw .badAlloc, s') ∧ Same s s') := by
  have hfree : s.heap s.next = none := h.next _ (Nat.le_refl _)
  have hlen : s.items.length = s.ordered.length := by rw [h.items, h.ordered]; simp
  have hundo : (fun b => if b = s.next then none else if b = s.next then some x else s.heap b) = s.heap := by
    funext b; by_cases hb : b = s.next <;> simp [hb, hfree]
  have hassert : ∀ p : Prop, [Decidable p] → p → ∀ msg, debugAssert b (decide p) msg = .ok () := by
    intro p _ hp msg; cases b <;> simp [debugAssert, hp]
  by_cases hd : has idOf (es.map Prod.snd) (idOf x) = true
  · refine Or.inr (Or.inl ⟨hd, ?_⟩)
    simp [insert, St.run_bind, h.contains, hd, duplicate]
  · have hd' : has idOf (es.map Prod.snd) (idOf x) = false := by simpa using hd
    have hf : ItemCollection.mapFind s.items (idOf x) = none := by
      rw [h.mapFind, find?_none_of hd']; rfl
    have hc : s.contains (idOf x) = false := by rw [h.contains, hd']
    by_cases hi : mem .item s.allocs = true
    · by_cases hn : mem .node (s.allocs + 1) = true
      · refine Or.inl ⟨hd', s.allocs + 1 + 1 + 1, ?_⟩
        simp [insert, hc, newItem, request, uncheckedInsert, deref, mapInsert, free, pushBack, assertSizes, St.run_bind, St.run,
          hi, hf, hn, hmem, St.get, St.set, pure, St.pure, bind, St.bind, added]
        simp only [hassert _ hlen]
      · refine Or.inr (Or.inr ⟨fun hall => hn (hall _ _), ?_⟩)
        refine ⟨{ s with allocs := s.allocs + 1 + 1, next := s.next + 1 }, ?_, rfl, rfl, rfl, rfl, by simp⟩
        simp [insert, hc, newItem, request, uncheckedInsert, deref, mapInsert, free, pushBack, assertSizes, St.run_bind, St.run,
          hi, hf, hn, St.get, St.set, pure, St.pure, hundo, bind, St.bind, St.throw]
    · refine Or.inr (Or.inr ⟨fun hall => hi (hall _ _), ?_⟩)
      refine ⟨{ s with allocs := s.allocs + 1 }, ?_, rfl, rfl, rfl, rfl, by simp⟩
      simp [insert, hc, newItem, request, St.run_bind, St.run, hi, pure, St.pure, bind, St.bind, St.throw, St.get]

/-- `emplace`, as long as the vector finds memory. -/
theorem emplace_run {mem : Site → Nat → Bool} (hmem : ∀ n, mem .order n = true) (b : Build) {idOf : α → ι}
    {es : List (Nat × α)} {s : ItemCollection ι α} (h : Inv idOf es s) (x : α) :
    (has idOf (es.map Prod.snd) (idOf x) = false ∧
      ∃ n, (emplace b mem idOf x).run s = (.ok s.next, added s (idOf x) x n)) ∨
    (has idOf (es.map Prod.snd) (idOf x) = true ∧ ∃ s', (emplace b mem idOf x).run s =
      (.throw (.logicError "identifiable_item_collection already contains this ID"), s') ∧ Same s s') ∨
    (¬ (∀ st n, mem st n = true) ∧ ∃ s', (emplace b mem idOf x).run s = (.throw .badAlloc, s') ∧ Same s s') := by
  have hfree : s.heap s.next = none := h.next _ (Nat.le_refl _)
  have hlen : s.items.length = s.ordered.length := by rw [h.items, h.ordered]; simp
  have hundo : (fun b => if b = s.next then none else if b = s.next then some x else s.heap b) = s.heap := by
    funext b; by_cases hb : b = s.next <;> simp [hb, hfree]
  have hassert : ∀ p : Prop, [Decidable p] → p → ∀ msg, debugAssert b (decide p) msg = .ok () := by
    intro p _ hp msg; cases b <;> simp [debugAssert, hp]
  by_cases hi : mem .item s.allocs = true
  · by_cases hd : has idOf (es.map Prod.snd) (idOf x) = true
    · refine Or.inr (Or.inl ⟨hd, ?_⟩)
      have hf : ∃ a, ItemCollection.mapFind s.items (idOf x) = some a := by
        have := h.contains (idOf x)
        rw [hd, ItemCollection.contains, Option.isSome_iff_exists] at this
        exact this
      obtain ⟨a, hf⟩ := hf
      refine ⟨{ s with allocs := s.allocs + 1, next := s.next + 1 }, ?_, rfl, rfl, rfl, rfl, by simp⟩
      simp [emplace, newItem, request, tryUncheckedInsert, deref, mapInsert, free, pushBack, assertSizes, St.run_bind, St.run,
        hi, hf, St.get, St.set, pure, St.pure, hundo, hassert _ hlen, bind, St.bind, St.throw]
    · have hd' : has idOf (es.map Prod.snd) (idOf x) = false := by simpa using hd
      have hf : ItemCollection.mapFind s.items (idOf x) = none := by
        rw [h.mapFind, find?_none_of hd']; rfl
      by_cases hn : mem .node (s.allocs + 1) = true
      · refine Or.inl ⟨hd', s.allocs + 1 + 1 + 1, ?_⟩
        simp [emplace, newItem, request, tryUncheckedInsert, deref, mapInsert, free, pushBack, assertSizes, St.run_bind, St.run,
          hi, hf, hn, hmem, St.get, St.set, pure, St.pure, bind, St.bind, added]
        simp only [hassert _ hlen]
        rfl
      · refine Or.inr (Or.inr ⟨fun hall => hn (hall _ _), ?_⟩)
        refine ⟨{ s with allocs := s.allocs + 1 + 1, next := s.next + 1 }, ?_, rfl, rfl, rfl, rfl, by simp⟩
        simp [emplace, newItem, request, tryUncheckedInsert, deref, mapInsert, free, pushBack, assertSizes, St.run_bind, St.run,
          hi, hf, hn, St.get, St.set, pure, St.pure, hundo, bind, St.bind, St.throw]
  · refine Or.inr (Or.inr ⟨fun hall => hi (hall _ _), ?_⟩)
    refine ⟨{ s with allocs := s.allocs + 1 }, ?_, rfl, rfl, rfl, rfl, by simp⟩
    simp [emplace, newItem, request, St.run_bind, St.run, hi, pure, St.pure, bind, St.bind, St.throw]

/-- The entry with a given id, and that no other has it. -/
theorem split_at {idOf : α → ι} {es : List (Nat × α)} (hn : (es.map fun e => idOf e.2).Nodup) {id : ι}
    (h : has idOf (es.map Prod.snd) id = true) :
    ∃ pre e post, es = pre ++ e :: post ∧ idOf e.2 = id ∧ (∀ p ∈ pre, idOf p.2 ≠ id) ∧ (∀ p ∈ post, idOf p.2 ≠ id) := by
  simp only [has, List.any_map, List.any_eq_true, Function.comp, decide_eq_true_eq] at h
  obtain ⟨e, he, hid⟩ := h
  obtain ⟨pre, post, rfl⟩ := List.append_of_mem he
  refine ⟨pre, e, post, rfl, hid, ?_, ?_⟩
  · intro p hp heq
    rw [List.map_append, List.map_cons, List.nodup_append] at hn
    exact hn.2.2 (idOf p.2) (List.mem_map_of_mem hp) (idOf e.2) (by simp) (by rw [heq, hid])
  · intro p hp heq
    rw [List.map_append, List.map_cons, List.nodup_append, List.nodup_cons] at hn
    apply hn.2.1.1
    rw [hid, ← heq]
    exact List.mem_map_of_mem hp

theorem find?_split {idOf : α → ι} {pre post : List (Nat × α)} {e : Nat × α} {id : ι} (he : idOf e.2 = id)
    (hpre : ∀ p ∈ pre, idOf p.2 ≠ id) :
    (pre ++ e :: post).find? (fun e => idOf e.2 = id) = some e := by
  have : pre.find? (fun e => idOf e.2 = id) = none := by
    rw [List.find?_eq_none]; simpa using hpre
  rw [List.find?_append, this, List.find?_cons_of_pos (by simpa using he)]
  rfl

theorem filter_split {idOf : α → ι} {pre post : List (Nat × α)} {e : Nat × α} {id : ι} (he : idOf e.2 = id)
    (hpre : ∀ p ∈ pre, idOf p.2 ≠ id) (hpost : ∀ p ∈ post, idOf p.2 ≠ id) :
    ((pre ++ e :: post).map fun e => (idOf e.2, e.1)).filter (fun p => p.1 ≠ id) = (pre ++ post).map fun e => (idOf e.2, e.1) := by
  have h1 : (pre.map fun e => (idOf e.2, e.1)).filter (fun p => p.1 ≠ id) = pre.map fun e => (idOf e.2, e.1) := by
    rw [List.filter_eq_self]
    intro p hp
    simp only [List.mem_map] at hp
    obtain ⟨q, hq, rfl⟩ := hp
    simpa using hpre q hq
  have h2 : (post.map fun e => (idOf e.2, e.1)).filter (fun p => p.1 ≠ id) = post.map fun e => (idOf e.2, e.1) := by
    rw [List.filter_eq_self]
    intro p hp
    simp only [List.mem_map] at hp
    obtain ⟨q, hq, rfl⟩ := hp
    simpa using hpost q hq
  rw [List.map_append, List.map_cons, List.filter_append, List.filter_cons_of_neg (by simpa using he), h1, h2, List.map_append]

theorem remove_split {idOf : α → ι} {pre post : List (Nat × α)} {e : Nat × α} {id : ι} (he : idOf e.2 = id)
    (hpre : ∀ p ∈ pre, idOf p.2 ≠ id) (hpost : ∀ p ∈ post, idOf p.2 ≠ id) :
    remove idOf ((pre ++ e :: post).map Prod.snd) id = (pre ++ post).map Prod.snd := by
  have h1 : (pre.map Prod.snd).filter (fun x => idOf x ≠ id) = pre.map Prod.snd := by
    rw [List.filter_eq_self]
    intro p hp
    simp only [List.mem_map] at hp
    obtain ⟨q, hq, rfl⟩ := hp
    simpa using hpre q hq
  have h2 : (post.map Prod.snd).filter (fun x => idOf x ≠ id) = post.map Prod.snd := by
    rw [List.filter_eq_self]
    intro p hp
    simp only [List.mem_map] at hp
    obtain ⟨q, hq, rfl⟩ := hp
    simpa using hpost q hq
  rw [remove, List.map_append, List.map_cons, List.filter_append, List.filter_cons_of_neg (by simpa using he), h1, h2,
    List.map_append]

theorem remove_absent {idOf : α → ι} {l : List α} {id : ι} (h : has idOf l id = false) : remove idOf l id = l := by
  rw [remove, List.filter_eq_self]
  intro x hx
  simp only [has, List.any_eq_false, decide_eq_true_eq] at h
  simpa using h x hx

theorem findOrdered_run (idOf : α → ι) (id : ι) (s : ItemCollection ι α) (es : List (Nat × α))
    (h : ∀ e ∈ es, s.heap e.1 = some e.2) :
    (findOrdered idOf id (es.map Prod.fst)).run s = (.ok (es.findIdx? fun e => idOf e.2 = id), s) := by
  induction es with
  | nil => rfl
  | cons e es ih =>
    have he := h e (by simp)
    have ih := ih fun e he => h e (by simp [he])
    have hd : (deref e.1).run s = (.ok e.2, s) := by simp [deref, St.run, he]
    rw [List.map_cons, findOrdered, St.run_bind_ok hd, List.findIdx?_cons]
    by_cases hid : id = idOf e.2
    · simp [hid]
    · have hid' : ¬ idOf e.2 = id := fun hh => hid hh.symm
      rw [if_neg hid, St.run_bind_ok ih]
      simp [hid']

/-- Taking out an entry, whose object is destroyed or handed out. -/
theorem Inv.removed {idOf : α → ι} {pre post : List (Nat × α)} {e : Nat × α} {s s' : ItemCollection ι α}
    (h : Inv idOf (pre ++ e :: post) s)
    (h1 : s'.ordered = (pre ++ post).map Prod.fst) (h2 : s'.items = (pre ++ post).map fun e => (idOf e.2, e.1))
    (h3 : s'.next = s.next)
    (h4 : (s'.outside = s.outside ∧ s'.heap = fun b => if b = e.1 then none else s.heap b) ∨
      (s'.outside = e.1 :: s.outside ∧ s'.heap = s.heap)) :
    Inv idOf (pre ++ post) s' ∧ e.1 ∉ s'.ordered := by
  have hsub : (pre ++ post).Sublist (pre ++ e :: post) := List.Sublist.append_left (List.sublist_cons_self _ _) _
  have hnot : e.1 ∉ (pre ++ post).map Prod.fst := by
    have := h.addrs
    rw [List.map_append, List.map_cons, List.nodup_append, List.nodup_cons] at this
    rw [List.map_append, List.mem_append]
    rintro (hp | hp)
    · exact this.2.2 e.1 hp e.1 (by simp) rfl
    · exact this.2.1.1 hp
  have hmem : ∀ a, a ∈ s.ordered ↔ a = e.1 ∨ a ∈ s'.ordered := by
    intro a
    rw [h.ordered, h1]
    simp only [List.map_append, List.map_cons, List.mem_append, List.mem_cons]
    tauto
  have hheap : ∀ q ∈ pre ++ post, s'.heap q.1 = some q.2 := by
    intro q hq
    have := h.heap q (hsub.subset hq)
    have hne : q.1 ≠ e.1 := fun heq => hnot (heq ▸ List.mem_map_of_mem hq)
    rcases h4 with ⟨-, h4⟩ | ⟨-, h4⟩
    · rw [h4]; simp [hne, this]
    · rw [h4]; exact this
  refine ⟨⟨h1, h2, hheap, h.ids.sublist (hsub.map _), h.addrs.sublist (hsub.map _), ?_, ?_, ?_⟩, by rw [h1]; exact hnot⟩
  · intro a
    have hl := h.live a
    have hd := h.disj a
    have hm := hmem a
    have hn : a = e.1 → a ∉ s'.ordered := by rintro rfl; rw [h1]; exact hnot
    rcases h4 with ⟨h5, h4⟩ | ⟨h5, h4⟩
    · rw [h5, h4]
      by_cases ha : a = e.1
      · simp only [ha, if_true, ne_eq, not_true_eq_false, false_iff, not_or]
        rw [← ha]
        exact ⟨hn ha, hd (hm.2 (Or.inl ha))⟩
      · simp only [ha, if_false]
        rw [hl, hm]
        simp [ha]
    · rw [h5, h4, hl, hm]
      simp only [List.mem_cons]
      tauto
  · intro a ha
    have hd := h.disj a ((hmem a).2 (Or.inr ha))
    rcases h4 with ⟨h5, h4⟩ | ⟨h5, h4⟩
    · rw [h5]; exact hd
    · rw [h5]
      simp only [List.mem_cons, not_or]
      refine ⟨?_, hd⟩
      rintro rfl
      rw [h1] at ha
      exact hnot ha
  · intro a ha
    have := h.next a (by omega)
    rcases h4 with ⟨-, h4⟩ | ⟨-, h4⟩
    · rw [h4]; simp [this]
    · rw [h4]; exact this

theorem erase_run {idOf : α → ι} {es : List (Nat × α)} {s : ItemCollection ι α} (h : Inv idOf es s) (id : ι) :
    ∃ s' es', (erase idOf id).run s = (.ok (has idOf (es.map Prod.snd) id), s') ∧ Inv idOf es' s' ∧
      es'.map Prod.snd = remove idOf (es.map Prod.snd) id ∧
      (has idOf (es.map Prod.snd) id = false → s' = s) ∧ s'.outside = s.outside := by
  have hf := findOrdered_run idOf id s es h.heap
  rw [← h.ordered] at hf
  by_cases hh : has idOf (es.map Prod.snd) id = true
  · obtain ⟨pre, e, post, rfl, hid, hpre, hpost⟩ := split_at h.ids hh
    have hidx : (pre ++ e :: post).findIdx? (fun e => decide (idOf e.2 = id)) = some pre.length := by
      have h0 : pre.findIdx? (fun e => decide (idOf e.2 = id)) = none := by
        rw [List.findIdx?_eq_none_iff]; simpa using hpre
      rw [List.findIdx?_append, h0, List.findIdx?_cons]
      simp [hid]
    rw [hidx] at hf
    have hord : s.ordered.eraseIdx pre.length = (pre ++ post).map Prod.fst := by
      rw [h.ordered, List.map_append, List.map_cons, List.eraseIdx_append_of_length_le (by simp)]
      simp
    have hmf : ItemCollection.mapFind s.items id = some e.1 := by
      rw [h.mapFind, find?_split hid hpre]; rfl
    have hit : s.items.filter (fun p => p.1 ≠ id) = (pre ++ post).map fun e => (idOf e.2, e.1) := by
      rw [h.items, filter_split hid hpre hpost]
    have hhe : s.heap e.1 = some e.2 := h.heap e (by simp)
    have hrem := h.removed (s' := { s with
        ordered := (pre ++ post).map Prod.fst
        items := (pre ++ post).map fun e => (idOf e.2, e.1)
        heap := fun b => if b = e.1 then none else s.heap b }) rfl rfl rfl (Or.inl ⟨rfl, rfl⟩)
    refine ⟨{ s with
        ordered := (pre ++ post).map Prod.fst
        items := (pre ++ post).map fun e => (idOf e.2, e.1)
        heap := fun b => if b = e.1 then none else s.heap b }, pre ++ post, ?_,
      hrem.1, (remove_split hid hpre hpost).symm, fun hc => absurd (hh.symm.trans hc) (by simp), rfl⟩
    rw [hh, erase, St.run_bind_ok (St.run_get s), St.run_bind_ok hf]
    have hme : (mapErase id).run { s with ordered := s.ordered.eraseIdx pre.length } = (.ok (), { s with
        ordered := (pre ++ post).map Prod.fst
        items := (pre ++ post).map fun e => (idOf e.2, e.1)
        heap := fun b => if b = e.1 then none else s.heap b }) := by
      rw [mapErase, St.run_bind_ok (St.run_get _)]
      simp only [hmf]
      rw [St.run_bind_ok (St.run_set _ _), hit, hord]
      simp [free, St.run, hhe]
    simp only []
    rw [St.run_bind_ok (St.run_get s), St.run_bind_ok (St.run_set _ _), St.run_bind_ok hme, St.run_pure]
  · have hh' : has idOf (es.map Prod.snd) id = false := by simpa using hh
    have hidx : es.findIdx? (fun e => decide (idOf e.2 = id)) = none := by
      rw [List.findIdx?_eq_none_iff]
      intro x hx
      simp only [has, List.any_map, List.any_eq_false, Function.comp] at hh'
      simpa using hh' x hx
    rw [hidx] at hf
    refine ⟨s, es, ?_, h, (remove_absent hh').symm, fun _ => rfl, rfl⟩
    rw [hh', erase, St.run_bind_ok (St.run_get s), St.run_bind_ok hf]
    rfl

theorem excise_run (b : Build) {idOf : α → ι} {es : List (Nat × α)} {s : ItemCollection ι α} (h : Inv idOf es s) (id : ι) :
    (has idOf (es.map Prod.snd) id = false ∧ (excise b id).run s = (.ok none, s)) ∨
    (∃ a x s' es', (es.map Prod.snd).find? (fun x => idOf x = id) = some x ∧ (excise b id).run s = (.ok (some a), s') ∧
      Inv idOf es' s' ∧ es'.map Prod.snd = remove idOf (es.map Prod.snd) id ∧ s'.heap a = some x ∧ a ∈ s'.outside ∧
      a ∉ s'.ordered) := by
  by_cases hh : has idOf (es.map Prod.snd) id = true
  · right
    obtain ⟨pre, e, post, rfl, hid, hpre, hpost⟩ := split_at h.ids hh
    have hmf : ItemCollection.mapFind s.items id = some e.1 := by
      rw [h.mapFind, find?_split hid hpre]; rfl
    have hit : s.items.filter (fun p => p.1 ≠ id) = (pre ++ post).map fun e => (idOf e.2, e.1) := by
      rw [h.items, filter_split hid hpre hpost]
    have hhe : s.heap e.1 = some e.2 := h.heap e (by simp)
    have hord : s.ordered.eraseIdx pre.length = (pre ++ post).map Prod.fst := by
      rw [h.ordered, List.map_append, List.map_cons, List.eraseIdx_append_of_length_le (by simp)]
      simp
    have hidx : s.ordered.findIdx? (fun a => decide (a = e.1)) = some pre.length := by
      have ha := h.addrs
      rw [List.map_append, List.map_cons, List.nodup_append] at ha
      have h0 : (pre.map Prod.fst).findIdx? (fun a => decide (a = e.1)) = none := by
        rw [List.findIdx?_eq_none_iff]
        intro x hx
        simp only [decide_eq_false_iff_not]
        exact ha.2.2 x hx e.1 (by simp)
      rw [h.ordered, List.map_append, List.map_cons, List.findIdx?_append, h0, List.findIdx?_cons]
      simp
    have hrem := h.removed (s' := { s with
        ordered := (pre ++ post).map Prod.fst
        items := (pre ++ post).map fun e => (idOf e.2, e.1)
        outside := e.1 :: s.outside }) rfl rfl rfl (Or.inr ⟨rfl, rfl⟩)
    refine ⟨e.1, e.2, _, pre ++ post, ?_, ?_, hrem.1, (remove_split hid hpre hpost).symm, hhe, by simp, hrem.2⟩
    · rw [List.find?_map]
      have := find?_split (post := post) hid hpre
      simp only [Function.comp_def, this]; rfl
    · rw [excise, St.run_bind_ok (St.run_get s)]
      simp only [hmf, exciseOrdered, St.run_bind, St.run_set, St.run_get, hidx, hit, hord, St.run_pure]
  · left
    have hh' : has idOf (es.map Prod.snd) id = false := by simpa using hh
    refine ⟨hh', ?_⟩
    have hmf : ItemCollection.mapFind s.items id = none := by rw [h.mapFind, find?_none_of hh']; rfl
    rw [excise, St.run_bind_ok (St.run_get s)]
    simp only [hmf, St.run_pure]

theorem freeAll_run (ps : List (ι × Nat)) : ∀ (s : ItemCollection ι α), (ps.map Prod.snd).Nodup →
    (∀ p ∈ ps, s.heap p.2 ≠ none) →
    ∃ us, (each (fun p : ι × Nat => free p.2) ps).run s =
      (.ok us, { s with heap := fun a => if a ∈ ps.map Prod.snd then none else s.heap a }) := by
  induction ps with
  | nil => intro s _ _; exact ⟨[], by simp [each]⟩
  | cons p ps ih =>
    intro s hn hl
    rw [List.map_cons, List.nodup_cons] at hn
    obtain ⟨x, hx⟩ := Option.ne_none_iff_exists'.1 (hl p (by simp))
    have hf : (free p.2).run s = (.ok (), { s with heap := fun b => if b = p.2 then none else s.heap b }) := by
      simp [free, St.run, hx]
    obtain ⟨us, hus⟩ := ih { s with heap := fun b => if b = p.2 then none else s.heap b } hn.2 (by
      intro q hq
      have hne : q.2 ≠ p.2 := fun heq => hn.1 (heq ▸ List.mem_map_of_mem hq)
      simp only [hne, if_false]
      exact hl q (by simp [hq]))
    refine ⟨() :: us, ?_⟩
    rw [each, St.run_bind_ok hf, St.run_bind_ok hus, St.run_pure]
    congr 2
    funext a
    by_cases h1 : a = p.2 <;> by_cases h2 : a ∈ ps.map Prod.snd <;> simp [h1, h2]

theorem clear_run {idOf : α → ι} {es : List (Nat × α)} {s : ItemCollection ι α} (h : Inv idOf es s) :
    ∃ s', (clear).run s = (.ok (), s') ∧ Inv idOf [] s' ∧ s'.outside = s.outside ∧
      ∀ a, s'.heap a ≠ none ↔ a ∈ s.outside := by
  have hsnd : s.items.map Prod.snd = s.ordered := by
    rw [h.items, h.ordered, List.map_map]; rfl
  obtain ⟨us, hus⟩ := freeAll_run s.items s (by rw [hsnd, h.ordered]; exact h.addrs) (by
    intro p hp
    rw [h.live]
    left
    rw [← hsnd]
    exact List.mem_map_of_mem hp)
  rw [hsnd] at hus
  have hlive : ∀ a, (if a ∈ s.ordered then none else s.heap a) ≠ none ↔ a ∈ s.outside := by
    intro a
    have hl := h.live a
    have hd := h.disj a
    by_cases ha : a ∈ s.ordered
    · simp [ha, hd ha]
    · simp only [ha, if_false]
      rw [hl]; simp [ha]
  refine ⟨{ s with heap := fun a => if a ∈ s.ordered then none else s.heap a, items := [], ordered := [] }, ?_,
    ⟨rfl, rfl, by simp, by simp, by simp, ?_, by simp, ?_⟩, rfl, hlive⟩
  · rw [clear, St.run_bind_ok (St.run_get s), St.run_bind_ok hus]
    simp only [St.run_bind, St.run_get, St.run_set]
  · intro a
    simp only [List.not_mem_nil, false_or]
    exact hlive a
  · intro a ha
    simp only
    split
    · rfl
    · exact h.next a ha

theorem modify_run {idOf : α → ι} {es : List (Nat × α)} {s : ItemCollection ι α} (h : Inv idOf es s) (id : ι) (f : α → α)
    (hf : ∀ x, idOf (f x) = idOf x) :
    ∃ s' es', (modify id f).run s = (.ok (), s') ∧ Inv idOf es' s' ∧
      es'.map Prod.snd = (es.map Prod.snd).map (fun x => if idOf x = id then f x else x) ∧
      s'.ordered = s.ordered ∧ s'.outside = s.outside := by
  by_cases hh : has idOf (es.map Prod.snd) id = true
  · obtain ⟨pre, e, post, rfl, hid, hpre, hpost⟩ := split_at h.ids hh
    have hmf : ItemCollection.mapFind s.items id = some e.1 := by
      rw [h.mapFind, find?_split hid hpre]; rfl
    have hhe : s.heap e.1 = some e.2 := h.heap e (by simp)
    have hi : e.1 ∈ s.ordered := by rw [h.ordered]; simp
    refine ⟨{ s with heap := fun b => if b = e.1 then some (f e.2) else s.heap b }, pre ++ (e.1, f e.2) :: post, ?_, ?_, ?_, rfl, rfl⟩
    · simp [modify, St.run, hmf, hhe]
    · refine ⟨by rw [h.ordered]; simp, by rw [h.items]; simp [hf], ?_, ?_, ?_, ?_, h.disj, ?_⟩
      · intro q hq
        have hne : ∀ q, q ∈ pre ++ post → q.1 ≠ e.1 := by
          intro q hq heq
          have := h.addrs
          rw [List.map_append, List.map_cons, List.nodup_append, List.nodup_cons] at this
          rw [List.mem_append] at hq
          rcases hq with hq | hq
          · exact this.2.2 q.1 (List.mem_map_of_mem hq) e.1 (by simp) heq
          · exact this.2.1.1 (heq ▸ List.mem_map_of_mem hq)
        simp only [List.mem_append, List.mem_cons] at hq
        rcases hq with hq | rfl | hq
        · simp [hne q (by simp [hq]), h.heap q (by simp [hq])]
        · simp
        · simp [hne q (by simp [hq]), h.heap q (by simp [hq])]
      · have := h.ids
        simpa [hf] using this
      · have := h.addrs
        simpa using this
      · intro a
        by_cases ha : a = e.1
        · simp [ha, hi]
        · simp only [ha, if_false]; exact h.live a
      · intro a ha
        have hne : a ≠ e.1 := by
          rintro rfl
          rw [h.next _ ha] at hhe; cases hhe
        simp only [hne, if_false]
        exact h.next a ha
    · have h1 : pre.map (fun e => if idOf e.2 = id then f e.2 else e.2) = pre.map Prod.snd :=
        List.map_congr_left fun q hq => by simp [hpre q hq]
      have h2 : post.map (fun e => if idOf e.2 = id then f e.2 else e.2) = post.map Prod.snd :=
        List.map_congr_left fun q hq => by simp [hpost q hq]
      simp [List.map_append, hid, Function.comp_def, h1, h2]
  · have hh' : has idOf (es.map Prod.snd) id = false := by simpa using hh
    have hmf : ItemCollection.mapFind s.items id = none := by rw [h.mapFind, find?_none_of hh']; rfl
    refine ⟨s, es, by simp [modify, St.run, hmf], h, ?_, rfl, rfl⟩
    simp only [has, List.any_map, List.any_eq_false, Function.comp, decide_eq_true_eq] at hh'
    rw [List.map_map]
    exact (List.map_congr_left fun q hq => by simp [hh' q hq]).symm

theorem drop_run {idOf : α → ι} {es : List (Nat × α)} {s : ItemCollection ι α} (h : Inv idOf es s) (a : Nat) :
    ∃ s', (drop a).run s = (.ok (), s') ∧ Inv idOf es s' ∧ s'.ordered = s.ordered := by
  by_cases ha : a ∈ s.outside
  · have hno : a ∉ s.ordered := fun hi => h.disj a hi ha
    obtain ⟨x, hx⟩ := Option.ne_none_iff_exists'.1 ((h.live a).2 (Or.inr ha))
    refine ⟨{ s with outside := s.outside.filter (· ≠ a), heap := fun b => if b = a then none else s.heap b }, ?_, ?_, rfl⟩
    · rw [drop, St.run_bind_ok (St.run_get s), if_pos ha, St.run_bind_ok (St.run_set _ _)]
      simp [free, St.run, hx]
    · refine ⟨h.ordered, h.items, ?_, h.ids, h.addrs, ?_, ?_, ?_⟩
      · intro e he
        have : e.1 ≠ a := by
          rintro rfl
          apply hno; rw [h.ordered]; exact List.mem_map_of_mem he
        simp [this, h.heap e he]
      · intro b
        by_cases hb : b = a
        · simp [hb, hno]
        · simp [hb, h.live b]
      · intro b hb
        simp only [List.mem_filter, not_and]
        intro hc; exact absurd hc (h.disj b hb)
      · intro b hb
        simp only
        split
        · rfl
        · exact h.next b hb
  · exact ⟨s, by simp [drop, St.run_bind, ha], h, rfl⟩

/-! ### The forms for several items -/

theorem tryInsertAll_run {mem : Site → Nat → Bool} (hmem : ∀ st n, mem st n = true) (b : Build) {idOf : α → ι} (xs : List α) :
    ∀ {es : List (Nat × α)} {s : ItemCollection ι α}, Inv idOf es s →
    ∃ s' es', (each (tryInsert b mem idOf) xs).run s = (.ok (addAll idOf (es.map Prod.snd) xs).1, s') ∧ Inv idOf es' s' ∧
      es'.map Prod.snd = (addAll idOf (es.map Prod.snd) xs).2 := by
  induction xs with
  | nil => intro es s h; exact ⟨s, es, rfl, h, rfl⟩
  | cons x xs ih =>
    intro es s h
    rcases tryInsert_run (fun n => hmem _ n) b h x with ⟨hd, n, hr⟩ | ⟨hd, s', hr, hs⟩ | ⟨hbad, -⟩
    · obtain ⟨s'', es'', h1, h2, h3⟩ := ih (h.added x n hd)
      rw [List.map_append] at h1 h3
      refine ⟨s'', es'', ?_, h2, ?_⟩
      · rw [each, St.run_bind_ok hr, St.run_bind_ok h1]
        simp [addAll, add, hd]
      · simpa [addAll, add, hd] using h3
    · obtain ⟨s'', es'', h1, h2, h3⟩ := ih (h.same hs)
      refine ⟨s'', es'', ?_, h2, ?_⟩
      · rw [each, St.run_bind_ok hr, St.run_bind_ok h1]
        simp [addAll, add, hd]
      · simpa [addAll, add, hd] using h3
    · exact absurd hmem hbad

theorem insertAll_run {mem : Site → Nat → Bool} (hmem : ∀ st n, mem st n = true) (b : Build) {idOf : α → ι} (xs : List α) :
    ∀ {es : List (Nat × α)} {s : ItemCollection ι α}, Inv idOf es s →
    ∃ o s' es', (each (insert b mem idOf) xs).run s = (o, s') ∧ Inv idOf es' s' ∧
      es'.map Prod.snd = (addUntil idOf (es.map Prod.snd) xs).2 ∧
      (((addUntil idOf (es.map Prod.snd) xs).1 = true ∧ ∃ us, o = .ok us) ∨
       ((addUntil idOf (es.map Prod.snd) xs).1 = false ∧ o = .throw duplicate)) := by
  induction xs with
  | nil => intro es s h; exact ⟨_, s, es, rfl, h, rfl, Or.inl ⟨rfl, _, rfl⟩⟩
  | cons x xs ih =>
    intro es s h
    rcases insert_run (fun n => hmem _ n) b h x with ⟨hd, n, hr⟩ | ⟨hd, hr⟩ | ⟨hbad, -⟩
    · obtain ⟨o, s'', es'', h1, h2, h3, h4⟩ := ih (h.added x n hd)
      have e : addUntil idOf (es.map Prod.snd) (x :: xs) = addUntil idOf ((es ++ [(s.next, x)]).map Prod.snd) xs := by
        rw [addUntil, if_neg (by simp [hd]), List.map_append]; rfl
      rw [e]
      rcases h4 with ⟨h5, us, rfl⟩ | ⟨h5, rfl⟩
      · exact ⟨.ok (() :: us), s'', es'', by rw [each, St.run_bind_ok hr, St.run_bind_ok h1, St.run_pure], h2, h3,
          Or.inl ⟨h5, _, rfl⟩⟩
      · exact ⟨_, s'', es'', by rw [each, St.run_bind_ok hr, St.run_bind_throw h1], h2, h3, Or.inr ⟨h5, rfl⟩⟩
    · have e : addUntil idOf (es.map Prod.snd) (x :: xs) = (false, es.map Prod.snd) := by rw [addUntil, if_pos hd]
      rw [e]
      exact ⟨_, s, es, by rw [each, St.run_bind_throw hr], h, rfl, Or.inr ⟨rfl, rfl⟩⟩
    · exact absurd hmem hbad

theorem eraseAll_run {idOf : α → ι} (ids : List ι) :
    ∀ {es : List (Nat × α)} {s : ItemCollection ι α}, Inv idOf es s →
    ∃ s' es', (each (erase idOf) ids).run s = (.ok (removeAll idOf (es.map Prod.snd) ids).1, s') ∧ Inv idOf es' s' ∧
      es'.map Prod.snd = (removeAll idOf (es.map Prod.snd) ids).2 := by
  induction ids with
  | nil => intro es s h; exact ⟨s, es, rfl, h, rfl⟩
  | cons id ids ih =>
    intro es s h
    obtain ⟨s', es', h1, h2, h3, -⟩ := erase_run h id
    obtain ⟨s'', es'', h4, h5, h6⟩ := ih h2
    rw [h3] at h4 h6
    refine ⟨s'', es'', ?_, h5, h6⟩
    rw [each, St.run_bind_ok h1, St.run_bind_ok h4]
    rfl

/-! ### Observers -/

theorem readAll_run (s : ItemCollection ι α) (es : List (Nat × α)) (h : ∀ e ∈ es, s.heap e.1 = some e.2) :
    (each deref (es.map Prod.fst)).run s = (.ok (es.map Prod.snd), s) := by
  induction es with
  | nil => rfl
  | cons e es ih =>
    have hd : (deref e.1).run s = (.ok e.2, s) := by simp [deref, St.run, h e (by simp)]
    rw [List.map_cons, each, St.run_bind_ok hd, St.run_bind_ok (ih fun e he => h e (by simp [he]))]
    rfl

theorem Inv.shows {idOf : α → ι} {es : List (Nat × α)} {s : ItemCollection ι α} (h : Inv idOf es s) :
    Shows idOf s (es.map Prod.snd) := by
  refine ⟨?_, ?_, ?_, h.contains, ?_, ?_⟩
  · simp [size, h.items]
  · rw [isEmpty, h.items]; cases es <;> rfl
  · have := readAll_run s es h.heap
    rw [← h.ordered] at this
    show ((each deref s.ordered).run s).1 = _
    rw [this]
  · intro id
    rw [atId, h.mapFind, List.find?_map]
    simp only [Function.comp_def]
    rcases hf : es.find? (fun e => decide (idOf e.2 = id)) with _ | e
    · simp only [hf, Option.map_none]
    · have hm := List.mem_of_find?_eq_some hf
      simp [hf, deref, h.heap e hm]
  · intro i
    rw [atIndex, h.ordered, List.getElem?_map, List.getElem?_map]
    rcases hf : es[i]? with _ | e
    · rfl
    · have hm := List.mem_of_getElem? hf
      simp [deref, h.heap e hm]

/-! ### Programs -/

/-- A call that does not change the id of an item. -/
def Op.keepsIds (idOf : α → ι) : Op ι α → Prop
  | .modify _ f => ∀ x, idOf (f x) = idOf x
  | _ => True

theorem step_refines {mem : Site → Nat → Bool} (hmem : ∀ st n, mem st n = true) (b : Build) {idOf : α → ι}
    {es : List (Nat × α)} {s : ItemCollection ι α} (h : Inv idOf es s) (op : Op ι α) (hop : op.keepsIds idOf) :
    ∃ o s' es', (ItemCollection.step b mem idOf op).run s = (o, s') ∧ Inv idOf es' s' ∧
      es'.map Prod.snd = (Spec.ItemCollection.step idOf op (es.map Prod.snd)).2 ∧
      Matches s' o (Spec.ItemCollection.step idOf op (es.map Prod.snd)).1 := by
  cases op with
  | insert x =>
    rcases insert_run (fun n => hmem _ n) b h x with ⟨hd, n, hr⟩ | ⟨hd, hr⟩ | ⟨hbad, -⟩
    · refine ⟨_, _, _, by rw [ItemCollection.step, St.run_bind_ok hr, St.run_pure], h.added x n hd, ?_⟩
      simp [Spec.ItemCollection.step, hd, Matches]
    · refine ⟨_, _, es, by rw [ItemCollection.step, St.run_bind_throw hr], h, ?_⟩
      simp [Spec.ItemCollection.step, hd, Matches]
    · exact absurd hmem hbad
  | insertRange xs =>
    obtain ⟨s', es', h1, h2, h3⟩ := tryInsertAll_run hmem b xs h
    have h1' : (insertRange b mem idOf xs).run s = (.ok (), s') := by rw [insertRange, St.run_bind_ok h1, St.run_pure]
    refine ⟨_, s', es', by rw [ItemCollection.step, St.run_bind_ok h1', St.run_pure], h2, h3, ?_⟩
    simp [Spec.ItemCollection.step, Matches]
  | insertAll xs =>
    obtain ⟨o, s', es', h1, h2, h3, h4⟩ := insertAll_run hmem b xs h
    rcases h4 with ⟨h5, us, rfl⟩ | ⟨h5, rfl⟩
    · have h1' : (insertAll b mem idOf xs).run s = (.ok (), s') := by rw [insertAll, St.run_bind_ok h1, St.run_pure]
      refine ⟨_, s', es', by rw [ItemCollection.step, St.run_bind_ok h1', St.run_pure], h2, h3, ?_⟩
      simp [Spec.ItemCollection.step, Matches, h5]
    · have h1' : (insertAll b mem idOf xs).run s = (.throw duplicate, s') := by rw [insertAll, St.run_bind_throw h1]
      refine ⟨_, s', es', by rw [ItemCollection.step, St.run_bind_throw h1'], h2, h3, ?_⟩
      simp [Spec.ItemCollection.step, Matches, h5]
  | tryInsert x =>
    rcases tryInsert_run (fun n => hmem _ n) b h x with ⟨hd, n, hr⟩ | ⟨hd, s', hr, hs⟩ | ⟨hbad, -⟩
    · refine ⟨_, _, _, by rw [ItemCollection.step, St.run_bind_ok hr, St.run_pure], h.added x n hd, ?_⟩
      simp [Spec.ItemCollection.step, hd, Matches, add]
    · refine ⟨_, _, es, by rw [ItemCollection.step, St.run_bind_ok hr, St.run_pure], h.same hs, ?_⟩
      simp [Spec.ItemCollection.step, hd, Matches, add]
    · exact absurd hmem hbad
  | tryInsertAll xs =>
    obtain ⟨s', es', h1, h2, h3⟩ := tryInsertAll_run hmem b xs h
    refine ⟨_, s', es', by rw [ItemCollection.step, tryInsertAll, St.run_bind_ok h1, St.run_pure], h2, h3, ?_⟩
    simp [Spec.ItemCollection.step, Matches]
  | erase id =>
    obtain ⟨s', es', h1, h2, h3, -⟩ := erase_run h id
    refine ⟨_, s', es', by rw [ItemCollection.step, St.run_bind_ok h1, St.run_pure], h2, h3, ?_⟩
    simp [Spec.ItemCollection.step, Matches]
  | eraseAll ids =>
    obtain ⟨s', es', h1, h2, h3⟩ := eraseAll_run ids h
    refine ⟨_, s', es', by rw [ItemCollection.step, eraseAll, St.run_bind_ok h1, St.run_pure], h2, h3, ?_⟩
    simp [Spec.ItemCollection.step, Matches]
  | emplace x =>
    rcases emplace_run (fun n => hmem _ n) b h x with ⟨hd, n, hr⟩ | ⟨hd, s', hr, hs⟩ | ⟨hbad, -⟩
    · refine ⟨_, _, _, by rw [ItemCollection.step, St.run_bind_ok hr, St.run_pure], h.added x n hd, ?_⟩
      simp [Spec.ItemCollection.step, hd, Matches, added]
    · refine ⟨_, _, es, by rw [ItemCollection.step, St.run_bind_throw hr], h.same hs, ?_⟩
      simp [Spec.ItemCollection.step, hd, Matches]
    · exact absurd hmem hbad
  | excise id =>
    rcases excise_run b h id with ⟨hh, hr⟩ | ⟨a, x, s', es', h1, h2, h3, h4, h5, h6, h7⟩
    · refine ⟨_, _, es, by rw [ItemCollection.step, St.run_bind_ok hr, St.run_pure], h, (remove_absent hh).symm, ?_⟩
      have : (es.map Prod.snd).find? (fun x => decide (idOf x = id)) = none := by
        rw [List.find?_map]
        have := find?_none_of hh
        simp only [Function.comp_def, this, Option.map_none]
      simp only [Spec.ItemCollection.step, this, Matches]
    · refine ⟨_, s', es', by rw [ItemCollection.step, St.run_bind_ok h2, St.run_pure], h3, h4, ?_⟩
      simp only [Spec.ItemCollection.step, h1, Matches]
      exact ⟨h5, h6, h7⟩
  | clear =>
    obtain ⟨s', h1, h2, -⟩ := clear_run h
    refine ⟨_, s', [], by rw [ItemCollection.step, St.run_bind_ok h1, St.run_pure], h2, rfl, ?_⟩
    simp [Spec.ItemCollection.step, Matches]
  | modify id f =>
    obtain ⟨s', es', h1, h2, h3, -⟩ := modify_run h id f hop
    refine ⟨_, s', es', by rw [ItemCollection.step, St.run_bind_ok h1, St.run_pure], h2, h3, ?_⟩
    simp [Spec.ItemCollection.step, Matches]
  | drop a =>
    obtain ⟨s', h1, h2, -⟩ := drop_run h a
    refine ⟨_, s', es, by rw [ItemCollection.step, St.run_bind_ok h1, St.run_pure], h2, rfl, ?_⟩
    simp [Spec.ItemCollection.step, Matches]

theorem agrees {mem : Site → Nat → Bool} (hmem : ∀ st n, mem st n = true) (b : Build) {idOf : α → ι} (ops : List (Op ι α)) :
    ∀ {es : List (Nat × α)} {s : ItemCollection ι α}, Inv idOf es s → (∀ op ∈ ops, op.keepsIds idOf) →
    Agrees b mem idOf ops s (es.map Prod.snd) := by
  induction ops with
  | nil => intro es s h _; exact h.shows
  | cons op ops ih =>
    intro es s h hops
    obtain ⟨o, s', es', h1, h2, h3, h4⟩ := step_refines hmem b h op (hops op (by simp))
    have h1' : ItemCollection.step b mem idOf op s = (o, s') := h1
    refine ⟨h.shows, ?_, ?_⟩
    · rw [h1']; exact h4
    · rw [h1', ← h3]
      exact ih h2 fun op hop => hops op (by simp [hop])

theorem reachable_inv {mem : Site → Nat → Bool} (hmem : ∀ st n, mem st n = true) (b : Build) {idOf : α → ι} (ops : List (Op ι α)) :
    ∀ {es : List (Nat × α)} {s : ItemCollection ι α}, Inv idOf es s → (∀ op ∈ ops, op.keepsIds idOf) →
    ∃ s' es', St.history (ItemCollection.step b mem idOf) ops s = some s' ∧ Inv idOf es' s' := by
  induction ops with
  | nil => intro es s h _; exact ⟨s, es, rfl, h⟩
  | cons op ops ih =>
    intro es s h hops
    obtain ⟨o, s', es', h1, h2, h3, h4⟩ := step_refines hmem b h op (hops op (by simp))
    have h1' : ItemCollection.step b mem idOf op s = (o, s') := h1
    obtain ⟨s'', es'', h5, h6⟩ := ih h2 fun op hop => hops op (by simp [hop])
    refine ⟨s'', es'', ?_, h6⟩
    cases o with
    | ok r => simp only [St.history, h1']; exact h5
    | throw e => simp only [St.history, h1']; exact h5
    | ub => simp [Matches] at h4
    | terminate => simp [Matches] at h4
    | diverge => simp [Matches] at h4

end Wite.Collections.ItemCollection
