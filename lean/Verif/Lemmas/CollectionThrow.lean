import Verif.Lemmas.ItemCollection
import Verif.Model.CollectionThrow
import Mathlib.Tactic.Tauto

/-!
# Lemmas about the collection when items, ids and comparisons throw
-/

namespace Wite.Collections.ItemCollection

open Wite.Spec.ItemCollection

variable {ι α : Type} [DecidableEq ι]

/-- Only the number of events is different. -/
def bump (s : ItemCollection ι α) (n : Nat) : ItemCollection ι α := { s with allocs := n }

/-- The exception comes from the oracle. -/
def Thrown (o : Oracle) (e : Exc) : Prop := ∃ ev n, o ev n = some e

theorem Same.bump {s s' : ItemCollection ι α} (h : Same s s') (n : Nat) : Same s (bump s' n) := h

theorem Same.trans {s s' s'' : ItemCollection ι α} (h : Same s s') (h' : Same s' s'') : Same s s'' := by
  obtain ⟨h1, h2, h3, h4, h5⟩ := h
  obtain ⟨g1, g2, g3, g4, g5⟩ := h'
  exact ⟨g1.trans h1, g2.trans h2, g3.trans h3, g4.trans h4, Nat.le_trans h5 g5⟩

theorem ask_run (o : Oracle) (ev : Ev) (s : ItemCollection ι α) :
    (ask o ev).run s = (.ok (), bump s (s.allocs + 1)) ∨
    ∃ e, o ev s.allocs = some e ∧ (ask o ev).run s = (.throw e, bump s (s.allocs + 1)) := by
  cases h : o ev s.allocs with
  | none => exact Or.inl (by simp [ask, St.run, h, bump])
  | some e => exact Or.inr ⟨e, rfl, by simp [ask, St.run, h, bump]⟩

theorem asks_run (o : Oracle) (evs : List Ev) : ∀ s : ItemCollection ι α,
    (∃ n, (asks o evs).run s = (.ok (), bump s n)) ∨
    ∃ e n, (∃ ev ∈ evs, ∃ m, o ev m = some e) ∧ (asks o evs).run s = (.throw e, bump s n) := by
  induction evs with
  | nil => intro s; exact Or.inl ⟨s.allocs, rfl⟩
  | cons ev evs ih =>
    intro s
    rcases ask_run o ev s with h | ⟨e, he, h⟩
    · rcases ih (bump s (s.allocs + 1)) with ⟨n, h'⟩ | ⟨e, n, ⟨ev', hm, hh⟩, h'⟩
      · exact Or.inl ⟨n, by rw [asks, St.run_bind_ok h, h']; rfl⟩
      · exact Or.inr ⟨e, n, ⟨ev', List.mem_cons_of_mem _ hm, hh⟩, by rw [asks, St.run_bind_ok h, h']; rfl⟩
    · exact Or.inr ⟨e, _, ⟨ev, List.mem_cons_self, _, he⟩, by rw [asks, St.run_bind_throw h]⟩

/-- A new object, not yet in the collection. -/
def fresh (s : ItemCollection ι α) (x : α) (n : Nat) : ItemCollection ι α :=
  { s with heap := fun a => if a = s.next then some x else s.heap a, next := s.next + 1, allocs := n }

/-- The new object is gone again. -/
theorem free_fresh {s : ItemCollection ι α} (h : s.heap s.next = none) (x : α) (n : Nat) :
    ∃ s', (free s.next).run (fresh s x n) = (.ok (), s') ∧ Same s s' := by
  refine ⟨{ s with next := s.next + 1, allocs := n }, ?_, rfl, rfl, rfl, rfl, by simp⟩
  have hundo : (fun b => if b = s.next then none else if b = s.next then some x else s.heap b) = s.heap := by
    funext b; by_cases hb : b = s.next <;> simp [hb, h]
  simp [free, St.run, fresh, hundo]

theorem owning_asks {s : ItemCollection ι α} (h : s.heap s.next = none) (o : Oracle) (evs : List Ev) (x : α) (n : Nat) :
    (∃ m, (owning s.next (asks o evs)).run (fresh s x n) = (.ok (), fresh s x m)) ∨
    ∃ e s', Thrown o e ∧ (owning s.next (asks o evs)).run (fresh s x n) = (.throw e, s') ∧ Same s s' := by
  rcases asks_run o evs (fresh s x n) with ⟨m, hr⟩ | ⟨e, m, ⟨ev, -, k, he⟩, hr⟩
  · refine Or.inl ⟨m, ?_⟩
    have hr' : asks o evs (fresh s x n) = (.ok (), bump (fresh s x n) m) := hr
    simp only [owning, St.run, hr']
    rfl
  · obtain ⟨s', hf, hs⟩ := free_fresh h x m
    refine Or.inr ⟨e, s', ⟨ev, k, he⟩, ?_, hs⟩
    have hr' : asks o evs (fresh s x n) = (.throw e, fresh s x m) := hr
    have hf' : free s.next (fresh s x m) = (.ok (), s') := hf
    simp only [owning, St.run, hr', hf']

theorem newItemT_run (o : Oracle) (how : Ev) (x : α) (s : ItemCollection ι α) :
    (∃ n, (newItemT o how x).run s = (.ok s.next, fresh s x n)) ∨
    ∃ e s', Thrown o e ∧ (newItemT o how x).run s = (.throw e, s') ∧ Same s s' := by
  rcases asks_run o [.mem .item, how] s with ⟨n, hr⟩ | ⟨e, n, ⟨ev, -, k, he⟩, hr⟩
  · exact Or.inl ⟨n, by rw [newItemT, St.run_bind_ok hr, St.run_bind_ok (St.run_get _), St.run_bind_ok (St.run_set _ _)]; rfl⟩
  · exact Or.inr ⟨e, _, ⟨ev, k, he⟩, by rw [newItemT, St.run_bind_throw hr], (Same.refl s).bump n⟩

theorem mapInsertT_run {s : ItemCollection ι α} (h : s.heap s.next = none) (o : Oracle) (id : ι) (x : α) (n : Nat) :
    (mapFind s.items id = none ∧ ∃ m, (mapInsertT o id s.next).run (fresh s x n) =
      (.ok true, { fresh s x m with items := s.items ++ [(id, s.next)] })) ∨
    ((∃ a, mapFind s.items id = some a) ∧ ∃ s', (mapInsertT o id s.next).run (fresh s x n) = (.ok false, s') ∧ Same s s') ∨
    ∃ e s', Thrown o e ∧ (mapInsertT o id s.next).run (fresh s x n) = (.throw e, s') ∧ Same s s' := by
  rcases owning_asks h o [.moveId, .compare] x n with ⟨m, hr⟩ | ⟨e, s', he, hr, hs⟩
  · cases hf : mapFind s.items id with
    | some a =>
      obtain ⟨s', hfr, hs⟩ := free_fresh h x m
      refine Or.inr (Or.inl ⟨⟨a, rfl⟩, s', ?_, hs⟩)
      rw [mapInsertT, St.run_bind_ok hr, St.run_bind_ok (St.run_get _)]
      have hf' : mapFind (fresh s x m).items id = some a := hf
      simp only [hf']
      rw [St.run_bind_ok hfr, St.run_pure]
    | none =>
      have hf' : mapFind (fresh s x m).items id = none := hf
      rcases owning_asks h o [.mem .node, .copyId] x m with ⟨k, hr'⟩ | ⟨e, s', he, hr', hs⟩
      · refine Or.inl ⟨rfl, k, ?_⟩
        rw [mapInsertT, St.run_bind_ok hr, St.run_bind_ok (St.run_get _)]
        simp only [hf']
        rw [St.run_bind_ok hr', St.run_bind_ok (St.run_get _), St.run_bind_ok (St.run_set _ _), St.run_pure]
        rfl
      · refine Or.inr (Or.inr ⟨e, s', he, ?_, hs⟩)
        rw [mapInsertT, St.run_bind_ok hr, St.run_bind_ok (St.run_get _)]
        simp only [hf']
        rw [St.run_bind_throw hr']
  · exact Or.inr (Or.inr ⟨e, s', he, by rw [mapInsertT, St.run_bind_throw hr], hs⟩)

theorem pushBackT_run {o : Oracle} (ho : ∀ n, o (.mem .order) n = none) (a : Nat) (s : ItemCollection ι α) :
    ∃ n, (pushBackT o a).run s = (.ok (), { s with ordered := s.ordered ++ [a], allocs := n }) := by
  rcases ask_run o (.mem .order) s with h | ⟨e, he, -⟩
  · exact ⟨s.allocs + 1, by rw [pushBackT, St.run_bind_ok h, St.run_bind_ok (St.run_get _), St.run_set]; rfl⟩
  · rw [ho] at he; cases he

theorem assertSizes_run (b : Build) (s : ItemCollection ι α) (h : s.items.length = s.ordered.length) :
    (assertSizes b).run s = (.ok (), s) := by
  cases b <;> simp [assertSizes, St.run, debugAssert, h]

/-- `_try_unchecked_insert` of a new object. -/
theorem tryUncheckedInsertT_run {o : Oracle} (ho : ∀ n, o (.mem .order) n = none) (b : Build) {idOf : α → ι}
    {es : List (Nat × α)} {s : ItemCollection ι α} (h : Inv idOf es s) (x : α) (n : Nat) :
    (has idOf (es.map Prod.snd) (idOf x) = false ∧
      ∃ m, (tryUncheckedInsertT b o idOf s.next).run (fresh s x n) = (.ok true, added s (idOf x) x m)) ∨
    (has idOf (es.map Prod.snd) (idOf x) = true ∧
      ∃ s', (tryUncheckedInsertT b o idOf s.next).run (fresh s x n) = (.ok false, s') ∧ Same s s') ∨
    ∃ e s', Thrown o e ∧ (tryUncheckedInsertT b o idOf s.next).run (fresh s x n) = (.throw e, s') ∧ Same s s' := by
  have hfree : s.heap s.next = none := h.next _ (Nat.le_refl _)
  have hlen : s.items.length = s.ordered.length := by rw [h.items, h.ordered]; simp
  have hc := h.contains (idOf x)
  rcases owning_asks hfree o [.callId, .copyId] x n with ⟨m, hr⟩ | ⟨e, s', he, hr, hs⟩
  · have hd : (deref s.next).run (fresh s x m) = (.ok x, fresh s x m) := by simp [deref, St.run, fresh]
    rcases mapInsertT_run hfree o (idOf x) x m with ⟨hf, k, hi⟩ | ⟨⟨a, hf⟩, s', hi, hs⟩ | ⟨e, s', he, hi, hs⟩
    · left
      refine ⟨by rw [← hc, ItemCollection.contains, hf]; rfl, ?_⟩
      obtain ⟨j, hp⟩ := pushBackT_run ho s.next { fresh s x k with items := s.items ++ [(idOf x, s.next)] }
      refine ⟨j, ?_⟩
      rw [tryUncheckedInsertT, St.run_bind_ok hr, St.run_bind_ok hd, St.run_bind_ok hi]
      simp only [if_true]
      rw [St.run_bind_ok hp, St.run_bind_ok (assertSizes_run b _ (by simp [fresh, hlen])), St.run_pure]
      rfl
    · right; left
      refine ⟨by rw [← hc, ItemCollection.contains, hf]; rfl, s', ?_, hs⟩
      rw [tryUncheckedInsertT, St.run_bind_ok hr, St.run_bind_ok hd, St.run_bind_ok hi]
      simp only [Bool.false_eq_true, if_false]
      rw [St.run_bind_ok (assertSizes_run b _ (by rw [hs.1, hs.2.1, hlen])), St.run_pure]
    · right; right
      exact ⟨e, s', he, by rw [tryUncheckedInsertT, St.run_bind_ok hr, St.run_bind_ok hd, St.run_bind_throw hi], hs⟩
  · exact Or.inr (Or.inr ⟨e, s', he, by rw [tryUncheckedInsertT, St.run_bind_throw hr], hs⟩)

theorem Inv.bump {idOf : α → ι} {es : List (Nat × α)} {s : ItemCollection ι α} (h : Inv idOf es s) (n : Nat) :
    Inv idOf es (bump s n) := h.same ((Same.refl s).bump n)

theorem tryInsertT_run {o : Oracle} (ho : ∀ n, o (.mem .order) n = none) (b : Build) {idOf : α → ι}
    {es : List (Nat × α)} {s : ItemCollection ι α} (h : Inv idOf es s) (x : α) :
    (has idOf (es.map Prod.snd) (idOf x) = false ∧
      ∃ m, (tryInsertT b o idOf x).run s = (.ok true, added s (idOf x) x m)) ∨
    (has idOf (es.map Prod.snd) (idOf x) = true ∧ ∃ s', (tryInsertT b o idOf x).run s = (.ok false, s') ∧ Same s s') ∨
    ∃ e s', Thrown o e ∧ (tryInsertT b o idOf x).run s = (.throw e, s') ∧ Same s s' := by
  rcases ask_run o .pass s with hp | ⟨e, he, hp⟩
  · rcases newItemT_run o .move x (ItemCollection.bump s (s.allocs + 1)) with ⟨n, hn⟩ | ⟨e, s', he, hn, hs⟩
    · rcases tryUncheckedInsertT_run ho b (h.bump (s.allocs + 1)) x n with ⟨hd, m, hr⟩ | ⟨hd, s', hr, hs⟩ | ⟨e, s', he, hr, hs⟩
      · exact Or.inl ⟨hd, m, by rw [tryInsertT, St.run_bind_ok hp, St.run_bind_ok hn, hr]; rfl⟩
      · exact Or.inr (Or.inl ⟨hd, s', by rw [tryInsertT, St.run_bind_ok hp, St.run_bind_ok hn, hr], hs⟩)
      · exact Or.inr (Or.inr ⟨e, s', he, by rw [tryInsertT, St.run_bind_ok hp, St.run_bind_ok hn, hr], hs⟩)
    · exact Or.inr (Or.inr ⟨e, s', he, by rw [tryInsertT, St.run_bind_ok hp, St.run_bind_throw hn], hs⟩)
  · exact Or.inr (Or.inr ⟨e, _, ⟨_, _, he⟩, by rw [tryInsertT, St.run_bind_throw hp], (Same.refl s).bump _⟩)

theorem emplaceT_run {o : Oracle} (ho : ∀ n, o (.mem .order) n = none) (b : Build) {idOf : α → ι}
    {es : List (Nat × α)} {s : ItemCollection ι α} (h : Inv idOf es s) (x : α) :
    (has idOf (es.map Prod.snd) (idOf x) = false ∧
      ∃ m, (emplaceT b o idOf x).run s = (.ok s.next, added s (idOf x) x m)) ∨
    (has idOf (es.map Prod.snd) (idOf x) = true ∧ ∃ s', (emplaceT b o idOf x).run s =
      (.throw (.logicError "identifiable_item_collection already contains this ID"), s') ∧ Same s s') ∨
    ∃ e s', Thrown o e ∧ (emplaceT b o idOf x).run s = (.throw e, s') ∧ Same s s' := by
  rcases newItemT_run o .make x s with ⟨n, hn⟩ | ⟨e, s', he, hn, hs⟩
  · rcases tryUncheckedInsertT_run ho b h x n with ⟨hd, m, hr⟩ | ⟨hd, s', hr, hs⟩ | ⟨e, s', he, hr, hs⟩
    · exact Or.inl ⟨hd, m, by rw [emplaceT, St.run_bind_ok hn, St.run_bind_ok hr]; rfl⟩
    · exact Or.inr (Or.inl ⟨hd, s', by rw [emplaceT, St.run_bind_ok hn, St.run_bind_ok hr]; rfl, hs⟩)
    · exact Or.inr (Or.inr ⟨e, s', he, by rw [emplaceT, St.run_bind_ok hn, St.run_bind_throw hr], hs⟩)
  · exact Or.inr (Or.inr ⟨e, s', he, by rw [emplaceT, St.run_bind_throw hn], hs⟩)

theorem containsT_run {o : Oracle} (hc : ∀ n, o .compareContains n = none) (id : ι) (s : ItemCollection ι α) :
    (containsT o id).run s = (.ok (s.contains id), bump s (s.allocs + 1)) := by
  simp [containsT, ask, hc, St.run, ItemCollection.contains, bump]

theorem insertT_run {o : Oracle} (ho : ∀ n, o (.mem .order) n = none) (hc : ∀ n, o .compareContains n = none) (b : Build)
    {idOf : α → ι} {es : List (Nat × α)} {s : ItemCollection ι α} (h : Inv idOf es s) (x : α) :
    (has idOf (es.map Prod.snd) (idOf x) = false ∧
      ∃ m, (insertT b o idOf x).run s = (.ok (), added s (idOf x) x m)) ∨
    (has idOf (es.map Prod.snd) (idOf x) = true ∧ ∃ s', (insertT b o idOf x).run s = (.throw duplicate, s') ∧ Same s s') ∨
    ∃ e s', Thrown o e ∧ (insertT b o idOf x).run s = (.throw e, s') ∧ Same s s' := by
  rcases asks_run o [.pass, .callId] s with ⟨n, hp⟩ | ⟨e, n, ⟨ev, -, k, he⟩, hp⟩
  · have hcr := containsT_run hc (idOf x) (ItemCollection.bump s n)
    have hcs : (ItemCollection.bump s n).contains (idOf x) = has idOf (es.map Prod.snd) (idOf x) := h.contains _
    rw [hcs] at hcr
    cases hd : has idOf (es.map Prod.snd) (idOf x) with
    | true =>
      rw [hd] at hcr
      refine Or.inr (Or.inl ⟨rfl, _, ?_, (Same.refl s).bump (n + 1)⟩)
      rw [insertT, St.run_bind_ok hp, St.run_bind_ok hcr]
      rfl
    | false =>
      rw [hd] at hcr
      have key : (insertT b o idOf x).run s =
          ((newItemT o .move x >>= fun a => uncheckedInsertT b o idOf a)).run (ItemCollection.bump s (n + 1)) := by
        rw [insertT, St.run_bind_ok hp, St.run_bind_ok hcr]; rfl
      rw [key]
      rcases newItemT_run o .move x (ItemCollection.bump s (n + 1)) with ⟨n', hn⟩ | ⟨e, s', he, hn, hs⟩
      · rw [St.run_bind_ok hn]
        have hfree : s.heap s.next = none := h.next _ (Nat.le_refl _)
        have hlen : s.items.length = s.ordered.length := by rw [h.items, h.ordered]; simp
        show _ ∨ _ ∨ ∃ e s', Thrown o e ∧ (uncheckedInsertT b o idOf s.next).run (fresh s x n') = _ ∧ _
        rcases owning_asks hfree o [.callId, .copyId] x n' with ⟨m, hr⟩ | ⟨e, s', he, hr, hs⟩
        · have hdr : (deref s.next).run (fresh s x m) = (.ok x, fresh s x m) := by simp [deref, St.run, fresh]
          rcases mapInsertT_run hfree o (idOf x) x m with ⟨hf, k, hi⟩ | ⟨⟨a, hf⟩, s', hi, hs⟩ | ⟨e, s', he, hi, hs⟩
          · left
            obtain ⟨j, hpb⟩ := pushBackT_run ho s.next { fresh s x k with items := s.items ++ [(idOf x, s.next)] }
            refine ⟨rfl, j, ?_⟩
            show (uncheckedInsertT b o idOf s.next).run (fresh s x n') = _
            rw [uncheckedInsertT, St.run_bind_ok hr, St.run_bind_ok hdr, St.run_bind_ok hi, St.run_bind_ok hpb,
              assertSizes_run b _ (by simp [fresh, hlen])]
            rfl
          · have : s.contains (idOf x) = true := by rw [ItemCollection.contains, hf]; rfl
            rw [h.contains, hd] at this
            cases this
          · right; right
            exact ⟨e, s', he, by rw [uncheckedInsertT, St.run_bind_ok hr, St.run_bind_ok hdr, St.run_bind_throw hi], hs⟩
        · exact Or.inr (Or.inr ⟨e, s', he, by rw [uncheckedInsertT, St.run_bind_throw hr], hs⟩)
      · exact Or.inr (Or.inr ⟨e, s', he, by rw [St.run_bind_throw hn], hs⟩)
  · exact Or.inr (Or.inr ⟨e, _, ⟨ev, k, he⟩, by rw [insertT, St.run_bind_throw hp], (Same.refl s).bump n⟩)

theorem findOrderedT_run (o : Oracle) (idOf : α → ι) (id : ι) (es : List (Nat × α)) :
    ∀ s : ItemCollection ι α, (∀ e ∈ es, s.heap e.1 = some e.2) →
    (∃ n, (findOrderedT o idOf id (es.map Prod.fst)).run s = (.ok (es.findIdx? fun e => idOf e.2 = id), bump s n)) ∨
    ∃ e n, Thrown o e ∧ (findOrderedT o idOf id (es.map Prod.fst)).run s = (.throw e, bump s n) := by
  induction es with
  | nil => intro s _; exact Or.inl ⟨s.allocs, rfl⟩
  | cons e es ih =>
    intro s h
    rcases asks_run o [.callId, .equal] s with ⟨n, hr⟩ | ⟨x, n, ⟨ev, -, k, he⟩, hr⟩
    · have hd : (deref e.1).run (bump s n) = (.ok e.2, bump s n) := by simp [deref, St.run, bump, h e (by simp)]
      by_cases hid : id = idOf e.2
      · left
        refine ⟨n, ?_⟩
        rw [List.map_cons, findOrderedT, St.run_bind_ok hr, St.run_bind_ok hd, List.findIdx?_cons]
        simp [hid]
      · have hid' : ¬ idOf e.2 = id := fun hh => hid hh.symm
        rcases ih (bump s n) (fun e he => h e (by simp [he])) with ⟨m, hi⟩ | ⟨x, m, he, hi⟩
        · left
          refine ⟨m, ?_⟩
          rw [List.map_cons, findOrderedT, St.run_bind_ok hr, St.run_bind_ok hd, List.findIdx?_cons, if_neg hid, St.run_bind_ok hi]
          simp [hid']
          rfl
        · right
          refine ⟨x, m, he, ?_⟩
          rw [List.map_cons, findOrderedT, St.run_bind_ok hr, St.run_bind_ok hd, if_neg hid, St.run_bind_throw hi]
          rfl
    · right
      exact ⟨x, n, ⟨ev, k, he⟩, by rw [List.map_cons, findOrderedT, St.run_bind_throw hr]⟩

/-- `erase`, as long as the comparisons of the map return. -/
theorem eraseT_run {o : Oracle} (hc : ∀ n, o .compareErase n = none) {idOf : α → ι} {es : List (Nat × α)}
    {s : ItemCollection ι α} (h : Inv idOf es s) (id : ι) :
    (∃ s' es', (eraseT o idOf id).run s = (.ok (has idOf (es.map Prod.snd) id), s') ∧ Inv idOf es' s' ∧
      es'.map Prod.snd = remove idOf (es.map Prod.snd) id) ∨
    ∃ e s', Thrown o e ∧ (eraseT o idOf id).run s = (.throw e, s') ∧ Same s s' := by
  have hplain := erase_run h id
  have hf := findOrdered_run idOf id s es h.heap
  rw [← h.ordered] at hf
  rcases findOrderedT_run o idOf id es s h.heap with ⟨n, hr⟩ | ⟨e, n, he, hr⟩
  · left
    rw [← h.ordered] at hr
    obtain ⟨s', es', h1, h2, h3, -⟩ := hplain
    rw [erase, St.run_bind_ok (St.run_get s), St.run_bind_ok hf] at h1
    cases hidx : es.findIdx? (fun e => decide (idOf e.2 = id)) with
    | none =>
      rw [hidx] at h1 hr
      refine ⟨bump s' n, es', ?_, h2.bump n, h3⟩
      rw [eraseT, St.run_bind_ok (St.run_get s), St.run_bind_ok hr]
      have h1' : (Outcome.ok false, s) = (Outcome.ok (has idOf (es.map Prod.snd) id), s') := h1
      have ha := congrArg Prod.fst h1'
      have hb := congrArg Prod.snd h1'
      simp only at ha hb
      rw [← hb, ← ha]
      rfl
    | some i =>
      rw [hidx] at h1 hr
      simp only at h1
      rw [St.run_bind_ok (St.run_get s), St.run_bind_ok (St.run_set _ _)] at h1
      have hask : ∀ t : ItemCollection ι α, (ask o .compareErase).run t = (.ok (), bump t (t.allocs + 1)) := by
        intro t; simp [ask, St.run, hc, bump]
      have key : (eraseT o idOf id).run s =
          (mapErase id >>= fun _ => (pure true : St (ItemCollection ι α) Bool)).run
            (bump { s with ordered := s.ordered.eraseIdx i } (n + 1)) := by
        rw [eraseT, St.run_bind_ok (St.run_get s), St.run_bind_ok hr]
        simp only
        rw [St.run_bind_ok (St.run_get _), St.run_bind_ok (St.run_set _ _), St.run_bind_ok (hask _)]
        rfl
      have hb : ∀ (t : ItemCollection ι α) k, (mapErase id).run (bump t k) =
          (((mapErase id).run t).1, bump ((mapErase id).run t).2 k) := by
        intro t k
        rw [mapErase, St.run_bind_ok (St.run_get _), St.run_bind_ok (St.run_get _)]
        cases hm : mapFind t.items id with
        | none =>
          have hm' : mapFind (bump t k).items id = none := hm
          simp only [hm']; rfl
        | some a =>
          have hm' : mapFind (bump t k).items id = some a := hm
          simp only [hm']
          rw [St.run_bind_ok (St.run_set _ _), St.run_bind_ok (St.run_set _ _)]
          cases hh : t.heap a <;> simp [free, St.run, bump, hh]
      refine ⟨bump s' (n + 1), es', ?_, h2.bump _, h3⟩
      rw [key, St.run_bind, hb]
      rw [St.run_bind] at h1
      cases hm : (mapErase id).run { s with ordered := s.ordered.eraseIdx i } with
      | mk r t =>
        rw [hm] at h1
        cases r with
        | ok u =>
          have h1' : (Outcome.ok true, t) = (Outcome.ok (has idOf (es.map Prod.snd) id), s') := h1
          have ha := congrArg Prod.fst h1'
          have hb := congrArg Prod.snd h1'
          simp only at ha hb
          rw [← hb, ← ha]
          rfl
        | throw e => cases congrArg Prod.fst h1
        | ub => cases congrArg Prod.fst h1
        | terminate => cases congrArg Prod.fst h1
        | diverge => cases congrArg Prod.fst h1
  · right
    rw [← h.ordered] at hr
    exact ⟨e, _, he, by rw [eraseT, St.run_bind_ok (St.run_get s), St.run_bind_throw hr], (Same.refl s).bump n⟩

/-! ### A comparison that throws in the middle of `erase` -/

/-- The pointer is gone from the vector, the node is still there. -/
def halfErased (s : ItemCollection ι α) (as : List Nat) (n : Nat) : ItemCollection ι α := { s with ordered := as, allocs := n }

theorem eraseT_half {o : Oracle} {e : Exc} (h1 : ∀ n, o .callId n = none) (h2 : ∀ n, o .equal n = none)
    (h3 : ∀ n, o .compareErase n = some e) {idOf : α → ι} {pre post : List (Nat × α)} {p : Nat × α}
    {s : ItemCollection ι α} (h : Inv idOf (pre ++ p :: post) s) (hpre : ∀ q ∈ pre, idOf q.2 ≠ idOf p.2) :
    ∃ n, (eraseT o idOf (idOf p.2)).run s = (.throw e, halfErased s ((pre ++ post).map Prod.fst) n) := by
  have hidx : (pre ++ p :: post).findIdx? (fun e => decide (idOf e.2 = idOf p.2)) = some pre.length := by
    have h0 : pre.findIdx? (fun e => decide (idOf e.2 = idOf p.2)) = none := by
      rw [List.findIdx?_eq_none_iff]; simpa using hpre
    rw [List.findIdx?_append, h0, List.findIdx?_cons]
    simp
  have hord : s.ordered.eraseIdx pre.length = (pre ++ post).map Prod.fst := by
    rw [h.ordered, List.map_append, List.map_cons, List.eraseIdx_append_of_length_le (by simp)]
    simp
  have hfind : ∀ (es : List (Nat × α)) (s : ItemCollection ι α), (∀ e ∈ es, s.heap e.1 = some e.2) →
      ∃ n, (findOrderedT o idOf (idOf p.2) (es.map Prod.fst)).run s =
        (.ok (es.findIdx? fun e => idOf e.2 = idOf p.2), bump s n) := by
    intro es
    induction es with
    | nil => intro s _; exact ⟨s.allocs, rfl⟩
    | cons q es ih =>
      intro s hs
      have hr : (asks o [.callId, .equal]).run s = (.ok (), bump s (s.allocs + 2)) := by
        simp [asks, ask, St.run, bind, St.bind, h1, h2, bump, pure, St.pure]
      have hd : (deref q.1).run (bump s (s.allocs + 2)) = (.ok q.2, bump s (s.allocs + 2)) := by
        simp [deref, St.run, bump, hs q (by simp)]
      by_cases hid : idOf p.2 = idOf q.2
      · refine ⟨s.allocs + 2, ?_⟩
        rw [List.map_cons, findOrderedT, St.run_bind_ok hr, St.run_bind_ok hd, List.findIdx?_cons]
        simp [hid]
      · have hid' : ¬ idOf q.2 = idOf p.2 := fun hh => hid hh.symm
        obtain ⟨n, hi⟩ := ih (bump s (s.allocs + 2)) (fun e he => hs e (by simp [he]))
        refine ⟨n, ?_⟩
        rw [List.map_cons, findOrderedT, St.run_bind_ok hr, St.run_bind_ok hd, List.findIdx?_cons, if_neg hid, St.run_bind_ok hi]
        simp [hid']
        rfl
  obtain ⟨n, hr⟩ := hfind _ s h.heap
  rw [← h.ordered, hidx] at hr
  have hask : ∀ t : ItemCollection ι α, (ask o .compareErase).run t = (.throw e, bump t (t.allocs + 1)) := by
    intro t; simp [ask, St.run, h3, bump]
  refine ⟨n + 1, ?_⟩
  rw [eraseT, St.run_bind_ok (St.run_get s), St.run_bind_ok hr]
  simp only
  rw [St.run_bind_ok (St.run_get _), St.run_bind_ok (St.run_set _ _), St.run_bind_throw (hask _)]
  show (Outcome.throw e, { s with ordered := s.ordered.eraseIdx pre.length, allocs := n + 1 }) = _
  rw [hord]
  rfl

/-- What the half-erased collection shows and does. -/
theorem halfErased_shows {idOf : α → ι} {pre post : List (Nat × α)} {p : Nat × α}
    {s : ItemCollection ι α} (h : Inv idOf (pre ++ p :: post) s) (hpre : ∀ q ∈ pre, idOf q.2 ≠ idOf p.2)
    (hpost : ∀ q ∈ post, idOf q.2 ≠ idOf p.2) (n : Nat) :
    (halfErased s ((pre ++ post).map Prod.fst) n).iterate = .ok ((pre ++ post).map Prod.snd) ∧
    (halfErased s ((pre ++ post).map Prod.fst) n).size = (pre ++ p :: post).length ∧
    (halfErased s ((pre ++ post).map Prod.fst) n).contains (idOf p.2) = true ∧
    (halfErased s ((pre ++ post).map Prod.fst) n).atId (idOf p.2) = .ok p.2 ∧
    (eraseT (fun _ _ => none) idOf (idOf p.2) (halfErased s ((pre ++ post).map Prod.fst) n)).1 = .ok false ∧
    (tryInsertT .release (fun _ _ => none) idOf p.2 (halfErased s ((pre ++ post).map Prod.fst) n)).1 = .ok false ∧
    (exciseT .release (fun _ _ => none) (idOf p.2) (halfErased s ((pre ++ post).map Prod.fst) n)).1 = .ub ∧
    (exciseT .debug (fun _ _ => none) (idOf p.2) (halfErased s ((pre ++ post).map Prod.fst) n)).1 =
      .throw (.assertion "Failed to find item in orderer items that was found in associative items") := by
  have hmf : ItemCollection.mapFind s.items (idOf p.2) = some p.1 := by
    rw [h.mapFind, find?_split rfl hpre]; rfl
  have hheap : ∀ e ∈ pre ++ post, (halfErased s ((pre ++ post).map Prod.fst) n).heap e.1 = some e.2 := by
    intro e he
    refine h.heap e ?_
    simp only [List.mem_append, List.mem_cons] at he ⊢
    tauto
  have hp : s.heap p.1 = some p.2 := h.heap p (by simp)
  have hnext : s.heap s.next = none := h.next _ (Nat.le_refl _)
  have hnotin : ((pre ++ post).map Prod.fst).findIdx? (fun a => decide (a = p.1)) = none := by
    rw [List.findIdx?_eq_none_iff]
    intro a ha
    have hn := h.addrs
    rw [List.map_append, List.map_cons, List.nodup_append, List.nodup_cons] at hn
    rw [List.map_append, List.mem_append] at ha
    simp only [decide_eq_false_iff_not]
    rintro rfl
    rcases ha with ha | ha
    · exact hn.2.2 _ ha _ (by simp) rfl
    · exact hn.2.1.1 ha
  refine ⟨?_, ?_, ?_, ?_, ?_, ?_, ?_, ?_⟩
  · have := readAll_run (halfErased s ((pre ++ post).map Prod.fst) n) (pre ++ post) hheap
    show ((each deref ((pre ++ post).map Prod.fst)).run _).1 = _
    rw [this]
  · show s.items.length = _
    rw [h.items, List.length_map]
  · show (ItemCollection.mapFind s.items (idOf p.2)).isSome = true
    rw [hmf]; rfl
  · have hmf' : ItemCollection.mapFind (halfErased s ((pre ++ post).map Prod.fst) n).items (idOf p.2) = some p.1 := hmf
    rw [atId, hmf']
    simp [deref, halfErased, hp]
  · have hno : (pre ++ post).findIdx? (fun e => decide (idOf e.2 = idOf p.2)) = none := by
      rw [List.findIdx?_eq_none_iff]
      intro q hq
      rw [List.mem_append] at hq
      simp only [decide_eq_false_iff_not]
      rcases hq with hq | hq
      · exact hpre q hq
      · exact hpost q hq
    rcases findOrderedT_run (fun _ _ => none) idOf (idOf p.2) (pre ++ post) _ hheap with ⟨m, hr⟩ | ⟨e, m, ⟨_, _, hbad⟩, -⟩
    · rw [hno] at hr
      show ((eraseT (fun _ _ => none) idOf (idOf p.2)).run _).1 = _
      rw [eraseT, St.run_bind_ok (St.run_get _)]
      show (St.run (findOrderedT (fun _ _ => none) idOf (idOf p.2) ((pre ++ post).map Prod.fst) >>= _) _).1 = _
      rw [St.run_bind_ok hr]
      rfl
    · cases hbad
  · show ((tryInsertT .release (fun _ _ => none) idOf p.2).run _).1 = _
    have ha : ∀ t : ItemCollection ι α, (ask (fun _ _ => none) .pass).run t = (.ok (), bump t (t.allocs + 1)) := fun t => rfl
    rw [tryInsertT, St.run_bind_ok (ha _)]
    rcases newItemT_run (fun _ _ => none) .move p.2 (bump (halfErased s ((pre ++ post).map Prod.fst) n)
      ((halfErased s ((pre ++ post).map Prod.fst) n).allocs + 1)) with ⟨m, hn⟩ | ⟨_, _, ⟨_, _, hbad⟩, -⟩
    · rw [St.run_bind_ok hn]
      rcases owning_asks (s := bump (halfErased s ((pre ++ post).map Prod.fst) n)
          ((halfErased s ((pre ++ post).map Prod.fst) n).allocs + 1)) hnext (fun _ _ => none) [.callId, .copyId] p.2 m with
        ⟨k, ho⟩ | ⟨_, _, ⟨_, _, hbad⟩, -⟩
      · have hd : (deref s.next).run (fresh (bump (halfErased s ((pre ++ post).map Prod.fst) n)
            ((halfErased s ((pre ++ post).map Prod.fst) n).allocs + 1)) p.2 k) = (.ok p.2,
            fresh (bump (halfErased s ((pre ++ post).map Prod.fst) n)
              ((halfErased s ((pre ++ post).map Prod.fst) n).allocs + 1)) p.2 k) := by
          simp [deref, St.run, fresh, bump, halfErased]
        rw [tryUncheckedInsertT, St.run_bind_ok ho]
        rcases mapInsertT_run (s := bump (halfErased s ((pre ++ post).map Prod.fst) n)
            ((halfErased s ((pre ++ post).map Prod.fst) n).allocs + 1)) hnext (fun _ _ => none) (idOf p.2) p.2 k with
          ⟨hf, -⟩ | ⟨-, s', hi, -⟩ | ⟨_, _, ⟨_, _, hbad⟩, -⟩
        · have hf'' : ItemCollection.mapFind s.items (idOf p.2) = none := hf
          rw [hmf] at hf''; cases hf''
        · show (St.run (deref s.next >>= _) _).1 = _
          rw [St.run_bind_ok hd]
          show (St.run (mapInsertT (fun _ _ => none) (idOf p.2) s.next >>= _) _).1 = _
          have hi' : (mapInsertT (fun _ _ => none) (idOf p.2) s.next).run (fresh (bump (halfErased s ((pre ++ post).map Prod.fst) n)
            ((halfErased s ((pre ++ post).map Prod.fst) n).allocs + 1)) p.2 k) = (.ok false, s') := hi
          rw [St.run_bind_ok hi']
          rfl
        · cases hbad
      · cases hbad
    · cases hbad
  · have hmf' : ItemCollection.mapFind (bump (halfErased s ((pre ++ post).map Prod.fst) n) (n + 1)).items (idOf p.2) = some p.1 := hmf
    show ((exciseT .release (fun _ _ => none) (idOf p.2)).run _).1 = _
    have ha : (ask (fun _ _ => none) .compare).run (halfErased s ((pre ++ post).map Prod.fst) n) =
      (.ok (), bump (halfErased s ((pre ++ post).map Prod.fst) n) (n + 1)) := rfl
    rw [exciseT, St.run_bind_ok ha, excise, St.run_bind_ok (St.run_get _)]
    simp only [hmf']
    rw [St.run_bind_ok (St.run_set _ _)]
    have hx : ∀ t : ItemCollection ι α, t.ordered = (pre ++ post).map Prod.fst → (exciseOrdered .release p.1).run t = (.ub, t) := by
      intro t ht
      rw [exciseOrdered, St.run_bind_ok (St.run_get _), ht]
      simp only [hnotin]
      rfl
    rw [St.run_bind, hx _ rfl]
  · have hmf' : ItemCollection.mapFind (bump (halfErased s ((pre ++ post).map Prod.fst) n) (n + 1)).items (idOf p.2) = some p.1 := hmf
    show ((exciseT .debug (fun _ _ => none) (idOf p.2)).run _).1 = _
    have ha : (ask (fun _ _ => none) .compare).run (halfErased s ((pre ++ post).map Prod.fst) n) =
      (.ok (), bump (halfErased s ((pre ++ post).map Prod.fst) n) (n + 1)) := rfl
    rw [exciseT, St.run_bind_ok ha, excise, St.run_bind_ok (St.run_get _)]
    simp only [hmf']
    rw [St.run_bind_ok (St.run_set _ _)]
    have hx : ∀ t : ItemCollection ι α, t.ordered = (pre ++ post).map Prod.fst → t.heap p.1 = some p.2 →
        ∃ t', (exciseOrdered .debug p.1).run t =
        (.throw (.assertion "Failed to find item in orderer items that was found in associative items"), t') := by
      intro t ht hh
      refine ⟨{ t with heap := fun b => if b = p.1 then none else t.heap b }, ?_⟩
      rw [exciseOrdered, St.run_bind_ok (St.run_get _)]
      simp only [show t.ordered.findIdx? (fun a => decide (a = p.1)) = none from by rw [ht]; exact hnotin]
      have hfr : (free p.1).run t = (.ok (), { t with heap := fun b => if b = p.1 then none else t.heap b }) := by
        simp [free, St.run, hh]
      rw [St.run_bind_ok hfr]
      rfl
    obtain ⟨t', ht'⟩ := hx { bump (halfErased s ((pre ++ post).map Prod.fst) n) (n + 1) with
      items := (bump (halfErased s ((pre ++ post).map Prod.fst) n) (n + 1)).items.filter fun q => q.1 ≠ idOf p.2 } rfl hp
    rw [St.run_bind_throw ht']

/-! ### The forms for several items -/

/-- One after another on lists, collecting results. -/
def foldAll {β γ : Type} (f : List α → β → γ × List α) : List α → List β → List γ × List α
  | l, [] => ([], l)
  | l, x :: xs => ((f l x).1 :: (foldAll f (f l x).2 xs).1, (foldAll f (f l x).2 xs).2)

theorem addAll_eq (idOf : α → ι) (xs : List α) : ∀ l, addAll idOf l xs =
    foldAll (fun l x => (!has idOf l (idOf x), add idOf l x)) l xs := by
  induction xs with
  | nil => intro l; rfl
  | cons x xs ih => intro l; simp only [addAll, foldAll, ih]

theorem removeAll_eq (idOf : α → ι) (ids : List ι) : ∀ l, removeAll idOf l ids =
    foldAll (fun l id => (has idOf l id, remove idOf l id)) l ids := by
  induction ids with
  | nil => intro l; rfl
  | cons x xs ih => intro l; simp only [removeAll, foldAll, ih]

/-- A call that does what the list does, or throws having done all or nothing. -/
def Follows {γ : Type} (o : Oracle) (idOf : α → ι) (m : St (ItemCollection ι α) γ) (f : List α → γ × List α) : Prop :=
  ∀ es s, Inv idOf es s →
    (∃ s' es', m.run s = (.ok (f (es.map Prod.snd)).1, s') ∧ Inv idOf es' s' ∧ es'.map Prod.snd = (f (es.map Prod.snd)).2) ∨
    ∃ e s' es', Thrown o e ∧ m.run s = (.throw e, s') ∧ Inv idOf es' s' ∧
      (es'.map Prod.snd = es.map Prod.snd ∨ es'.map Prod.snd = (f (es.map Prod.snd)).2)

theorem each_follows {β γ : Type} {o : Oracle} {idOf : α → ι} {m : β → St (ItemCollection ι α) γ} {f : List α → β → γ × List α}
    (hm : ∀ x, Follows o idOf (m x) (fun l => f l x)) (xs : List β) :
    ∀ {es : List (Nat × α)} {s : ItemCollection ι α}, Inv idOf es s →
    (∃ s' es', (each m xs).run s = (.ok (foldAll f (es.map Prod.snd) xs).1, s') ∧ Inv idOf es' s' ∧
      es'.map Prod.snd = (foldAll f (es.map Prod.snd) xs).2) ∨
    ∃ e s' es' k, Thrown o e ∧ (each m xs).run s = (.throw e, s') ∧ Inv idOf es' s' ∧
      es'.map Prod.snd = (foldAll f (es.map Prod.snd) (xs.take k)).2 := by
  induction xs with
  | nil => intro es s h; exact Or.inl ⟨s, es, rfl, h, rfl⟩
  | cons x xs ih =>
    intro es s h
    rcases hm x es s h with ⟨s', es', h1, h2, h3⟩ | ⟨e, s', es', he, h1, h2, h3⟩
    · rcases ih h2 with ⟨s'', es'', h4, h5, h6⟩ | ⟨e, s'', es'', k, he, h4, h5, h6⟩
      · rw [h3] at h4 h6
        exact Or.inl ⟨s'', es'', by rw [each, St.run_bind_ok h1, St.run_bind_ok h4]; rfl, h5, h6⟩
      · rw [h3] at h6
        exact Or.inr ⟨e, s'', es'', k + 1, he, by rw [each, St.run_bind_ok h1, St.run_bind_throw h4], h5, h6⟩
    · rcases h3 with h3 | h3
      · exact Or.inr ⟨e, s', es', 0, he, by rw [each, St.run_bind_throw h1], h2, h3⟩
      · exact Or.inr ⟨e, s', es', 1, he, by rw [each, St.run_bind_throw h1], h2, h3⟩

theorem tryInsertT_follows {o : Oracle} (ho : ∀ n, o (.mem .order) n = none) (b : Build) (idOf : α → ι) (x : α) :
    Follows o idOf (tryInsertT b o idOf x) (fun l => (!has idOf l (idOf x), add idOf l x)) := by
  intro es s h
  rcases tryInsertT_run ho b h x with ⟨hd, n, hr⟩ | ⟨hd, s', hr, hs⟩ | ⟨e, s', he, hr, hs⟩
  · exact Or.inl ⟨_, _, by rw [hr]; simp [hd], h.added x n hd, by simp [add, hd]⟩
  · exact Or.inl ⟨s', es, by rw [hr]; simp [hd], h.same hs, by simp [add, hd]⟩
  · exact Or.inr ⟨e, s', es, he, hr, h.same hs, Or.inl rfl⟩

theorem eraseT_follows {o : Oracle} (hc : ∀ n, o .compareErase n = none) (idOf : α → ι) (id : ι) :
    Follows o idOf (eraseT o idOf id) (fun l => (has idOf l id, remove idOf l id)) := by
  intro es s h
  rcases eraseT_run hc h id with ⟨s', es', h1, h2, h3⟩ | ⟨e, s', he, hr, hs⟩
  · exact Or.inl ⟨s', es', h1, h2, h3⟩
  · exact Or.inr ⟨e, s', es, he, hr, h.same hs, Or.inl rfl⟩

theorem pushFlag_run (o : Oracle) (f : Form) (s : ItemCollection ι α) :
    (∃ n, (pushFlag o f).run s = (.ok (), bump s n)) ∨
    ∃ e n, Thrown o e ∧ (pushFlag o f).run s = (.throw e, bump s n) := by
  cases f with
  | unsized =>
    rcases ask_run o .flags s with h | ⟨e, he, h⟩
    · exact Or.inl ⟨_, h⟩
    · exact Or.inr ⟨e, _, ⟨_, _, he⟩, h⟩
  | variadic => exact Or.inl ⟨s.allocs, rfl⟩
  | sized => exact Or.inl ⟨s.allocs, rfl⟩

theorem reserveFlags_run (o : Oracle) (f : Form) (s : ItemCollection ι α) :
    (∃ n, (reserveFlags o f).run s = (.ok (), bump s n)) ∨
    ∃ e n, Thrown o e ∧ (reserveFlags o f).run s = (.throw e, bump s n) := by
  cases f with
  | sized =>
    rcases ask_run o .flags s with h | ⟨e, he, h⟩
    · exact Or.inl ⟨_, h⟩
    · exact Or.inr ⟨e, _, ⟨_, _, he⟩, h⟩
  | variadic => exact Or.inl ⟨s.allocs, rfl⟩
  | unsized => exact Or.inl ⟨s.allocs, rfl⟩

theorem passOn_run (o : Oracle) (f : Form) (s : ItemCollection ι α) :
    (∃ n, (passOn o f).run s = (.ok (), bump s n)) ∨
    ∃ e n, Thrown o e ∧ (passOn o f).run s = (.throw e, bump s n) := by
  cases f with
  | variadic =>
    rcases ask_run o .pass s with h | ⟨e, he, h⟩
    · exact Or.inl ⟨_, h⟩
    · exact Or.inr ⟨e, _, ⟨_, _, he⟩, h⟩
  | sized => exact Or.inl ⟨s.allocs, rfl⟩
  | unsized => exact Or.inl ⟨s.allocs, rfl⟩

theorem Follows.pushFlag {o : Oracle} {idOf : α → ι} {m : St (ItemCollection ι α) Bool} {g : List α → Bool × List α}
    (hm : Follows o idOf m g) (f : Form) :
    Follows o idOf (do let r ← m; pushFlag o f; pure r) g := by
  intro es s h
  rcases hm es s h with ⟨s', es', h1, h2, h3⟩ | ⟨e, s', es', he, h1, h2, h3⟩
  · rcases pushFlag_run o f s' with ⟨n, hp⟩ | ⟨e, n, he, hp⟩
    · exact Or.inl ⟨bump s' n, es', by rw [St.run_bind_ok h1, St.run_bind_ok hp]; rfl, h2.bump n, h3⟩
    · exact Or.inr ⟨e, bump s' n, es', he, by rw [St.run_bind_ok h1, St.run_bind_throw hp], h2.bump n, Or.inr h3⟩
  · exact Or.inr ⟨e, s', es', he, by rw [St.run_bind_throw h1], h2, h3⟩

theorem tryInsertOneT_follows {o : Oracle} (ho : ∀ n, o (.mem .order) n = none) (b : Build) (f : Form) (idOf : α → ι) (x : α) :
    Follows o idOf (tryInsertOneT b o f idOf x) (fun l => (!has idOf l (idOf x), add idOf l x)) := by
  intro es s h
  rcases passOn_run o f s with ⟨n, hp⟩ | ⟨e, n, he, hp⟩
  · have := (tryInsertT_follows ho b idOf x).pushFlag f es (ItemCollection.bump s n) (h.bump n)
    rw [tryInsertOneT, St.run_bind_ok hp]
    exact this
  · exact Or.inr ⟨e, _, es, he, by rw [tryInsertOneT, St.run_bind_throw hp], h.bump n, Or.inl rfl⟩

theorem insertAllT_run {o : Oracle} (ho : ∀ n, o (.mem .order) n = none) (hc : ∀ n, o .compareContains n = none) (b : Build)
    {idOf : α → ι} (xs : List α) : ∀ {es : List (Nat × α)} {s : ItemCollection ι α}, Inv idOf es s →
    (∃ out s' es', (each (fun x => do ask o .pass; insertT b o idOf x) xs).run s = (out, s') ∧ Inv idOf es' s' ∧
      es'.map Prod.snd = (addUntil idOf (es.map Prod.snd) xs).2 ∧
      (((addUntil idOf (es.map Prod.snd) xs).1 = true ∧ ∃ us, out = .ok us) ∨
       ((addUntil idOf (es.map Prod.snd) xs).1 = false ∧ out = .throw duplicate))) ∨
    ∃ e s' es' k, Thrown o e ∧ (each (fun x => do ask o .pass; insertT b o idOf x) xs).run s = (.throw e, s') ∧
      Inv idOf es' s' ∧ (addUntil idOf (es.map Prod.snd) (xs.take k)).1 = true ∧
      es'.map Prod.snd = (addUntil idOf (es.map Prod.snd) (xs.take k)).2 := by
  induction xs with
  | nil => intro es s h; exact Or.inl ⟨_, s, es, rfl, h, rfl, Or.inl ⟨rfl, _, rfl⟩⟩
  | cons x xs ih =>
    intro es s h
    rcases ask_run o .pass s with hp | ⟨e, he, hp⟩
    · have hone : (do ask o .pass; insertT b o idOf x : St (ItemCollection ι α) Unit).run s =
          (insertT b o idOf x).run (ItemCollection.bump s (s.allocs + 1)) := by rw [St.run_bind_ok hp]
      rcases insertT_run ho hc b (h.bump (s.allocs + 1)) x with ⟨hd, n, hr⟩ | ⟨hd, s', hr, hs⟩ | ⟨e, s', he, hr, hs⟩
      · rw [← hone] at hr
        have e1 : ∀ ys, addUntil idOf (es.map Prod.snd) (x :: ys) = addUntil idOf ((es ++ [(s.next, x)]).map Prod.snd) ys := by
          intro ys; rw [addUntil, if_neg (by simp [hd]), List.map_append]; rfl
        rcases ih ((h.bump (s.allocs + 1)).added x n hd) with ⟨out, s'', es'', h1, h2, h3, h4⟩ | ⟨e, s'', es'', k, he, h1, h2, h3, h4⟩
        · left
          rw [e1]
          rcases h4 with ⟨h5, us, rfl⟩ | ⟨h5, rfl⟩
          · exact ⟨.ok (() :: us), s'', es'', by rw [each, St.run_bind_ok hr, St.run_bind_ok h1, St.run_pure], h2, h3,
              Or.inl ⟨h5, _, rfl⟩⟩
          · exact ⟨_, s'', es'', by rw [each, St.run_bind_ok hr, St.run_bind_throw h1], h2, h3, Or.inr ⟨h5, rfl⟩⟩
        · right
          refine ⟨e, s'', es'', k + 1, he, by rw [each, St.run_bind_ok hr, St.run_bind_throw h1], h2, ?_⟩
          rw [List.take_succ_cons, e1]
          exact ⟨h3, h4⟩
      · rw [← hone] at hr
        left
        have e1 : addUntil idOf (es.map Prod.snd) (x :: xs) = (false, es.map Prod.snd) := by rw [addUntil, if_pos hd]
        rw [e1]
        exact ⟨_, s', es, by rw [each, St.run_bind_throw hr], h.same hs, rfl, Or.inr ⟨rfl, rfl⟩⟩
      · rw [← hone] at hr
        exact Or.inr ⟨e, s', es, 0, he, by rw [each, St.run_bind_throw hr], h.same hs, rfl, rfl⟩
    · have hr : (do ask o .pass; insertT b o idOf x : St (ItemCollection ι α) Unit).run s =
          (.throw e, ItemCollection.bump s (s.allocs + 1)) := by
        rw [St.run_bind_throw hp]
      exact Or.inr ⟨e, _, es, 0, ⟨_, _, he⟩, by rw [each, St.run_bind_throw hr], h.bump _, rfl, rfl⟩

/-! ### One call -/

/-- What a call that was stopped by an exception of somebody else may leave: single calls nothing, those for several
arguments what a first part of the arguments gives. -/
def Stopped (idOf : α → ι) (l : List α) : Op ι α → List α → Prop
  | .insertRange xs, l' => ∃ k, l' = (addAll idOf l (xs.take k)).2
  | .tryInsertAll xs, l' => ∃ k, l' = (addAll idOf l (xs.take k)).2
  | .insertAll xs, l' => ∃ k, (addUntil idOf l (xs.take k)).1 = true ∧ l' = (addUntil idOf l (xs.take k)).2
  | .eraseAll ids, l' => ∃ k, l' = (removeAll idOf l (ids.take k)).2
  | _, l' => l' = l

theorem stepT_refines {o : Oracle} (ho : ∀ n, o (.mem .order) n = none) (hc : ∀ n, o .compareContains n = none)
    (he : ∀ n, o .compareErase n = none) (b : Build) {idOf : α → ι} {es : List (Nat × α)} {s : ItemCollection ι α}
    (h : Inv idOf es s) (f : Form) (op : Op ι α) (hop : op.keepsIds idOf) :
    ∃ out s' es', (stepT b o idOf (f, op)).run s = (out, s') ∧ Inv idOf es' s' ∧
      ((es'.map Prod.snd = (Spec.ItemCollection.step idOf op (es.map Prod.snd)).2 ∧
        Matches s' out (Spec.ItemCollection.step idOf op (es.map Prod.snd)).1) ∨
       ∃ e, Thrown o e ∧ out = .throw e ∧ Stopped idOf (es.map Prod.snd) op (es'.map Prod.snd)) := by
  cases op with
  | insert x =>
    rcases insertT_run ho hc b h x with ⟨hd, n, hr⟩ | ⟨hd, s', hr, hs⟩ | ⟨e, s', ht, hr, hs⟩
    · refine ⟨_, _, _, by rw [stepT, St.run_bind_ok hr, St.run_pure], h.added x n hd, Or.inl ?_⟩
      simp [Spec.ItemCollection.step, hd, Matches]
    · refine ⟨_, _, es, by rw [stepT, St.run_bind_throw hr], h.same hs, Or.inl ?_⟩
      simp [Spec.ItemCollection.step, hd, Matches]
    · exact ⟨_, _, es, by rw [stepT, St.run_bind_throw hr], h.same hs, Or.inr ⟨e, ht, rfl, rfl⟩⟩
  | insertRange xs =>
    rcases each_follows (fun x => tryInsertT_follows ho b idOf x) xs h with ⟨s', es', h1, h2, h3⟩ | ⟨e, s', es', k, ht, h1, h2, h3⟩
    · have h1' : (insertRangeT b o idOf xs).run s = (.ok (), s') := by rw [insertRangeT, St.run_bind_ok h1, St.run_pure]
      refine ⟨_, s', es', by rw [stepT, St.run_bind_ok h1', St.run_pure], h2, Or.inl ⟨?_, ?_⟩⟩
      · rw [h3, ← addAll_eq]; rfl
      · simp [Spec.ItemCollection.step, Matches]
    · have h1' : (insertRangeT b o idOf xs).run s = (.throw e, s') := by rw [insertRangeT, St.run_bind_throw h1]
      exact ⟨_, s', es', by rw [stepT, St.run_bind_throw h1'], h2, Or.inr ⟨e, ht, rfl, k, by rw [h3, addAll_eq]⟩⟩
  | insertAll xs =>
    rcases insertAllT_run ho hc b xs h with ⟨out, s', es', h1, h2, h3, h4⟩ | ⟨e, s', es', k, ht, h1, h2, h3, h4⟩
    · rcases h4 with ⟨h5, us, rfl⟩ | ⟨h5, rfl⟩
      · have h1' : (insertAllT b o idOf xs).run s = (.ok (), s') := by rw [insertAllT, St.run_bind_ok h1, St.run_pure]
        refine ⟨_, s', es', by rw [stepT, St.run_bind_ok h1', St.run_pure], h2, Or.inl ⟨h3, ?_⟩⟩
        simp [Spec.ItemCollection.step, Matches, h5]
      · have h1' : (insertAllT b o idOf xs).run s = (.throw duplicate, s') := by rw [insertAllT, St.run_bind_throw h1]
        refine ⟨_, s', es', by rw [stepT, St.run_bind_throw h1'], h2, Or.inl ⟨h3, ?_⟩⟩
        simp [Spec.ItemCollection.step, Matches, h5]
    · have h1' : (insertAllT b o idOf xs).run s = (.throw e, s') := by rw [insertAllT, St.run_bind_throw h1]
      exact ⟨_, s', es', by rw [stepT, St.run_bind_throw h1'], h2, Or.inr ⟨e, ht, rfl, k, h3, h4⟩⟩
  | tryInsert x =>
    rcases tryInsertT_run ho b h x with ⟨hd, n, hr⟩ | ⟨hd, s', hr, hs⟩ | ⟨e, s', ht, hr, hs⟩
    · refine ⟨_, _, _, by rw [stepT, St.run_bind_ok hr, St.run_pure], h.added x n hd, Or.inl ?_⟩
      simp [Spec.ItemCollection.step, hd, Matches, add]
    · refine ⟨_, _, es, by rw [stepT, St.run_bind_ok hr, St.run_pure], h.same hs, Or.inl ?_⟩
      simp [Spec.ItemCollection.step, hd, Matches, add]
    · exact ⟨_, _, es, by rw [stepT, St.run_bind_throw hr], h.same hs, Or.inr ⟨e, ht, rfl, rfl⟩⟩
  | tryInsertAll xs =>
    rcases reserveFlags_run o f s with ⟨n, hp⟩ | ⟨e, n, ht, hp⟩
    · rcases each_follows (fun x => tryInsertOneT_follows ho b f idOf x) xs (h.bump n) with
        ⟨s', es', h1, h2, h3⟩ | ⟨e, s', es', k, ht, h1, h2, h3⟩
      · refine ⟨_, s', es', by rw [stepT, tryInsertAllT, St.run_bind_ok (by rw [St.run_bind_ok hp]; exact h1), St.run_pure], h2,
          Or.inl ⟨?_, ?_⟩⟩
        · rw [h3, ← addAll_eq]; rfl
        · simp [Spec.ItemCollection.step, Matches, addAll_eq]
      · exact ⟨_, s', es', by rw [stepT, tryInsertAllT, St.run_bind_throw (by rw [St.run_bind_ok hp]; exact h1)], h2,
          Or.inr ⟨e, ht, rfl, k, by rw [h3, addAll_eq]⟩⟩
    · exact ⟨_, _, es, by rw [stepT, tryInsertAllT, St.run_bind_throw (by rw [St.run_bind_throw hp])], h.bump n,
        Or.inr ⟨e, ht, rfl, 0, rfl⟩⟩
  | erase id =>
    rcases eraseT_run he h id with ⟨s', es', h1, h2, h3⟩ | ⟨e, s', ht, hr, hs⟩
    · refine ⟨_, s', es', by rw [stepT, St.run_bind_ok h1, St.run_pure], h2, Or.inl ⟨h3, ?_⟩⟩
      simp [Spec.ItemCollection.step, Matches]
    · exact ⟨_, _, es, by rw [stepT, St.run_bind_throw hr], h.same hs, Or.inr ⟨e, ht, rfl, rfl⟩⟩
  | eraseAll ids =>
    rcases reserveFlags_run o f s with ⟨n, hp⟩ | ⟨e, n, ht, hp⟩
    · rcases each_follows (fun x => (eraseT_follows he idOf x).pushFlag f) ids (h.bump n) with
        ⟨s', es', h1, h2, h3⟩ | ⟨e, s', es', k, ht, h1, h2, h3⟩
      · refine ⟨_, s', es', by rw [stepT, eraseAllT, St.run_bind_ok (by rw [St.run_bind_ok hp]; exact h1), St.run_pure], h2,
          Or.inl ⟨?_, ?_⟩⟩
        · rw [h3, ← removeAll_eq]; rfl
        · simp [Spec.ItemCollection.step, Matches, removeAll_eq]
      · exact ⟨_, s', es', by rw [stepT, eraseAllT, St.run_bind_throw (by rw [St.run_bind_ok hp]; exact h1)], h2,
          Or.inr ⟨e, ht, rfl, k, by rw [h3, removeAll_eq]⟩⟩
    · exact ⟨_, _, es, by rw [stepT, eraseAllT, St.run_bind_throw (by rw [St.run_bind_throw hp])], h.bump n,
        Or.inr ⟨e, ht, rfl, 0, rfl⟩⟩
  | emplace x =>
    rcases emplaceT_run ho b h x with ⟨hd, n, hr⟩ | ⟨hd, s', hr, hs⟩ | ⟨e, s', ht, hr, hs⟩
    · refine ⟨_, _, _, by rw [stepT, St.run_bind_ok hr, St.run_pure], h.added x n hd, Or.inl ?_⟩
      simp [Spec.ItemCollection.step, hd, Matches, ItemCollection.added]
    · refine ⟨_, _, es, by rw [stepT, St.run_bind_throw hr], h.same hs, Or.inl ?_⟩
      simp [Spec.ItemCollection.step, hd, Matches]
    · exact ⟨_, _, es, by rw [stepT, St.run_bind_throw hr], h.same hs, Or.inr ⟨e, ht, rfl, rfl⟩⟩
  | excise id =>
    rcases ask_run o .compare s with hp | ⟨e, ht, hp⟩
    · obtain ⟨out, s', es', h1, h2, h3, h4⟩ := step_refines (mem := fun _ _ => true) (fun _ _ => rfl) b
        (h.bump (s.allocs + 1)) (.excise id) trivial
      refine ⟨out, s', es', ?_, h2, Or.inl ⟨h3, h4⟩⟩
      rw [← h1, stepT, ItemCollection.step, exciseT, St.run_bind, St.run_bind_ok hp, St.run_bind]
    · exact ⟨_, _, es, by rw [stepT, exciseT, St.run_bind_throw (by rw [St.run_bind_throw hp])], h.bump _,
        Or.inr ⟨e, ⟨_, _, ht⟩, rfl, rfl⟩⟩
  | clear =>
    obtain ⟨out, s', es', h1, h2, h3, h4⟩ := step_refines (mem := fun _ _ => true) (fun _ _ => rfl) b h .clear trivial
    exact ⟨out, s', es', by rw [← h1]; rfl, h2, Or.inl ⟨h3, h4⟩⟩
  | modify id g =>
    rcases ask_run o .compare s with hp | ⟨e, ht, hp⟩
    · obtain ⟨out, s', es', h1, h2, h3, h4⟩ := step_refines (mem := fun _ _ => true) (fun _ _ => rfl) b
        (h.bump (s.allocs + 1)) (.modify id g) hop
      refine ⟨out, s', es', ?_, h2, Or.inl ⟨h3, h4⟩⟩
      rw [← h1, stepT, St.run_bind_ok hp]; rfl
    · exact ⟨_, _, es, by rw [stepT, St.run_bind_throw hp], h.bump _, Or.inr ⟨e, ⟨_, _, ht⟩, rfl, rfl⟩⟩
  | drop a =>
    obtain ⟨out, s', es', h1, h2, h3, h4⟩ := step_refines (mem := fun _ _ => true) (fun _ _ => rfl) b h (.drop a) trivial
    exact ⟨out, s', es', by rw [← h1]; rfl, h2, Or.inl ⟨h3, h4⟩⟩

theorem reachableT {o : Oracle} (ho : ∀ n, o (.mem .order) n = none) (hc : ∀ n, o .compareContains n = none)
    (he : ∀ n, o .compareErase n = none) (b : Build) {idOf : α → ι} (ops : List (Form × Op ι α)) :
    ∀ {es : List (Nat × α)} {s : ItemCollection ι α}, Inv idOf es s → (∀ p ∈ ops, p.2.keepsIds idOf) →
    ∃ s' es', St.history (stepT b o idOf) ops s = some s' ∧ Inv idOf es' s' := by
  induction ops with
  | nil => intro es s h _; exact ⟨s, es, rfl, h⟩
  | cons op ops ih =>
    intro es s h hops
    obtain ⟨f, op⟩ := op
    obtain ⟨out, s', es', h1, h2, h3⟩ := stepT_refines ho hc he b h f op (hops (f, op) (by simp))
    have h1' : stepT b o idOf (f, op) s = (out, s') := h1
    obtain ⟨s'', es'', h5, h6⟩ := ih h2 fun op hop => hops op (by simp [hop])
    refine ⟨s'', es'', ?_, h6⟩
    cases out with
    | ok r => simp only [St.history, h1']; exact h5
    | throw e => simp only [St.history, h1']; exact h5
    | ub => rcases h3 with ⟨-, h⟩ | ⟨e, -, h, -⟩ <;> simp [Matches] at h
    | terminate => rcases h3 with ⟨-, h⟩ | ⟨e, -, h, -⟩ <;> simp [Matches] at h
    | diverge => rcases h3 with ⟨-, h⟩ | ⟨e, -, h, -⟩ <;> simp [Matches] at h

end Wite.Collections.ItemCollection
