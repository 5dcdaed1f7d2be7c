import Verif.Spec.CollectionAlias
import Verif.Lemmas.ItemCollection
import Mathlib.Data.Nat.Find
import Mathlib.Tactic.ByContra

/-!
# Lemmas about arguments that lie in a collection
-/

namespace Wite.Collections.ItemCollection

open Wite.Spec.ItemCollection

variable {ι α : Type} [DecidableEq ι]

theorem readId_ok {idOf : α → ι} {r : IdArg ι} {id : ι} {s : ItemCollection ι α} (h : Refers idOf s.heap r id) :
    (readId idOf r).run s = (.ok id, s) := by
  cases r with
  | own id' => rw [readId, St.run_pure, show id' = id from h]
  | item a =>
    obtain ⟨x, hx, rfl⟩ := h
    have hd : (deref a).run s = (.ok x, s) := by simp [deref, St.run, hx]
    rw [readId, St.run_bind_ok hd]
    rfl

theorem readId_dead {idOf : α → ι} {a : Nat} {s : ItemCollection ι α} (h : s.heap a = none) :
    (readId idOf (.item a)).run s = (.ub, s) := by
  have hd : (deref a).run s = (.ub, s) := by simp [deref, St.run, h]
  rw [readId, St.run_bind, hd]

theorem mapFindA_ok {idOf : α → ι} {r : IdArg ι} {id : ι} {s : ItemCollection ι α} (h : Refers idOf s.heap r id) :
    (mapFindA idOf r).run s = (.ok (mapFind s.items id), s) := by
  rw [mapFindA, St.run_bind_ok (St.run_get s), St.run_ite]
  split
  · rename_i he
    rw [List.isEmpty_iff] at he
    rw [he]; rfl
  · rw [St.run_bind_ok (readId_ok h)]; rfl

theorem findOrderedA_eq {idOf : α → ι} {r : IdArg ι} {id : ι} {s : ItemCollection ι α} (h : Refers idOf s.heap r id)
    (as : List Nat) : (findOrderedA idOf r as).run s = (findOrdered idOf id as).run s := by
  induction as with
  | nil => rfl
  | cons a as ih =>
    rw [findOrderedA, St.run_bind_ok (readId_ok h), findOrdered, St.run_bind, St.run_bind]
    cases ha : s.heap a with
    | none => simp [deref, St.run, ha]
    | some x =>
      have hd : (deref a).run s = (.ok x, s) := by simp [deref, St.run, ha]
      rw [hd]
      simp only [St.run_ite]
      split
      · rfl
      · rw [St.run_bind, St.run_bind, ih]

/-- In a consistent collection the node of an id is the node of its item. -/
theorem filter_addr {idOf : α → ι} {es : List (Nat × α)} {s : ItemCollection ι α} (h : Inv idOf es s) {id : ι} {a : Nat}
    (hf : mapFind s.items id = some a) :
    s.items.filter (fun p => p.2 ≠ a) = s.items.filter (fun p => p.1 ≠ id) := by
  have hmem : (id, a) ∈ s.items := by
    rw [ItemCollection.mapFind] at hf
    cases hq : s.items.find? (fun p => p.1 = id) with
    | none => rw [hq] at hf; cases hf
    | some p =>
      rw [hq] at hf
      have h1 := List.find?_some hq
      have h2 := List.mem_of_find?_eq_some hq
      have h3 : p.2 = a := by simpa using hf
      have h4 : p.1 = id := by simpa using h1
      rw [← h3, ← h4]; exact h2
  apply List.filter_congr
  intro p hp
  rw [h.items] at hp hmem
  obtain ⟨e, he, rfl⟩ := List.mem_map.mp hp
  obtain ⟨e', he', heq⟩ := List.mem_map.mp hmem
  obtain ⟨h1, h2⟩ := Prod.mk.inj heq
  have hiff : e.1 = a ↔ idOf e.2 = id := by
    rw [← h1, ← h2]
    constructor
    · intro hh; rw [List.inj_on_of_nodup_map h.addrs he he' hh]
    · intro hh; rw [List.inj_on_of_nodup_map h.ids he he' hh]
  by_cases hh : e.1 = a
  · simp [hh, hiff.mp hh]
  · have : ¬ idOf e.2 = id := fun hc => hh (hiff.mpr hc)
    simp [hh, this]

theorem eraseA_eq {idOf : α → ι} {es : List (Nat × α)} {s : ItemCollection ι α} (h : Inv idOf es s) {r : IdArg ι} {id : ι}
    (hr : Refers idOf s.heap r id) : (eraseA idOf r).run s = (erase idOf id).run s := by
  rw [eraseA, erase, St.run_bind_ok (St.run_get s), St.run_bind_ok (St.run_get s), St.run_bind, St.run_bind,
    findOrderedA_eq hr]
  have hf := findOrdered_run idOf id s es h.heap
  rw [← h.ordered] at hf
  rw [hf]
  simp only
  cases es.findIdx? fun e => decide (idOf e.2 = id) with
  | none => rfl
  | some i =>
    simp only
    rw [St.run_bind_ok (St.run_get s), St.run_bind_ok (St.run_get s), St.run_bind_ok (St.run_set _ _),
      St.run_bind_ok (St.run_set _ _), St.run_bind, St.run_bind]
    have hm : (mapEraseA idOf r).run { s with ordered := s.ordered.eraseIdx i } =
        (mapErase id).run { s with ordered := s.ordered.eraseIdx i } := by
      have hr' : Refers idOf { s with ordered := s.ordered.eraseIdx i }.heap r id := hr
      rw [mapEraseA, St.run_bind_ok (mapFindA_ok hr'), mapErase, St.run_bind_ok (St.run_get _)]
      cases hq : ItemCollection.mapFind s.items id with
      | none => rfl
      | some a =>
        simp only
        rw [St.run_bind_ok (St.run_get _), St.run_bind_ok (St.run_set _ _), St.run_bind_ok (St.run_set _ _)]
        simp only [filter_addr h hq]
    rw [hm]

theorem exciseA_eq (b : Build) {idOf : α → ι} {es : List (Nat × α)} {s : ItemCollection ι α} (h : Inv idOf es s) {r : IdArg ι}
    {id : ι} (hr : Refers idOf s.heap r id) : (exciseA b idOf r).run s = (excise b id).run s := by
  rw [exciseA, St.run_bind_ok (mapFindA_ok hr), excise, St.run_bind_ok (St.run_get _)]
  cases hq : ItemCollection.mapFind s.items id with
  | none => rfl
  | some a =>
    simp only
    rw [St.run_bind_ok (St.run_get _), St.run_bind_ok (St.run_set _ _), St.run_bind_ok (St.run_set _ _)]
    simp only [filter_addr h hq]

/-- What `erase` leaves. -/
theorem erase_full {idOf : α → ι} {es : List (Nat × α)} {s : ItemCollection ι α} (h : Inv idOf es s) (id : ι) :
    ∃ s', (erase idOf id).run s = (.ok (has idOf (es.map Prod.snd) id), s') ∧
      Inv idOf (es.filter fun e => idOf e.2 ≠ id) s' ∧
      (∀ a, s'.heap a = if ∃ e ∈ es, e.1 = a ∧ idOf e.2 = id then none else s.heap a) := by
  have hf := findOrdered_run idOf id s es h.heap
  rw [← h.ordered] at hf
  by_cases hh : has idOf (es.map Prod.snd) id = true
  · obtain ⟨pre, e, post, rfl, hid, hpre, hpost⟩ := split_at h.ids hh
    have hidx : (pre ++ e :: post).findIdx? (fun e => decide (idOf e.2 = id)) = some pre.length := by
      have h0 : pre.findIdx? (fun e => decide (idOf e.2 = id)) = none := by
        rw [List.findIdx?_eq_none_iff]; simpa using hpre
      rw [List.findIdx?_append, h0, List.findIdx?_cons]
      simp [hid]
    rw [hidx] at hf
    have hord : s.ordered.eraseIdx pre.length = (pre ++ post).map Prod.fst := by
      rw [h.ordered, List.map_append, List.map_cons, List.eraseIdx_append_of_length_le (by simp)]
      simp
    have hmf : ItemCollection.mapFind s.items id = some e.1 := by
      rw [h.mapFind, find?_split hid hpre]; rfl
    have hit : s.items.filter (fun p => p.1 ≠ id) = (pre ++ post).map fun e => (idOf e.2, e.1) := by
      rw [h.items, filter_split hid hpre hpost]
    have hhe : s.heap e.1 = some e.2 := h.heap e (by simp)
    have hrem := h.removed (s' := { s with
        ordered := (pre ++ post).map Prod.fst
        items := (pre ++ post).map fun e => (idOf e.2, e.1)
        heap := fun b => if b = e.1 then none else s.heap b }) rfl rfl rfl (Or.inl ⟨rfl, rfl⟩)
    have hfil : (pre ++ e :: post).filter (fun e => idOf e.2 ≠ id) = pre ++ post := by
      have h1 : pre.filter (fun e => idOf e.2 ≠ id) = pre := by
        rw [List.filter_eq_self]; intro p hp; simpa using hpre p hp
      have h2 : post.filter (fun e => idOf e.2 ≠ id) = post := by
        rw [List.filter_eq_self]; intro p hp; simpa using hpost p hp
      rw [List.filter_append, List.filter_cons_of_neg (by simpa using hid), h1, h2]
    refine ⟨{ s with
        ordered := (pre ++ post).map Prod.fst
        items := (pre ++ post).map fun e => (idOf e.2, e.1)
        heap := fun b => if b = e.1 then none else s.heap b }, ?_, by rw [hfil]; exact hrem.1, ?_⟩
    · rw [hh, erase, St.run_bind_ok (St.run_get s), St.run_bind_ok hf]
      have hme : (mapErase id).run { s with ordered := s.ordered.eraseIdx pre.length } = (.ok (), { s with
          ordered := (pre ++ post).map Prod.fst
          items := (pre ++ post).map fun e => (idOf e.2, e.1)
          heap := fun b => if b = e.1 then none else s.heap b }) := by
        rw [mapErase, St.run_bind_ok (St.run_get _)]
        simp only [hmf]
        rw [St.run_bind_ok (St.run_set _ _), hit, hord]
        simp [free, St.run, hhe]
      simp only []
      rw [St.run_bind_ok (St.run_get s), St.run_bind_ok (St.run_set _ _), St.run_bind_ok hme, St.run_pure]
    · intro a
      simp only
      by_cases ha : a = e.1
      · rw [if_pos ha, if_pos ⟨e, by simp, ha.symm, hid⟩]
      · rw [if_neg ha, if_neg]
        rintro ⟨e', he', hea, heid⟩
        rw [← hea] at ha
        exact ha (by rw [List.inj_on_of_nodup_map h.ids he' (y := e) (by simp) (heid.trans hid.symm)])
  · have hh' : has idOf (es.map Prod.snd) id = false := by simpa using hh
    have hne : ∀ e ∈ es, idOf e.2 ≠ id := by
      intro e he
      simp only [has, List.any_map, List.any_eq_false, Function.comp] at hh'
      simpa using hh' e he
    have hidx : es.findIdx? (fun e => decide (idOf e.2 = id)) = none := by
      rw [List.findIdx?_eq_none_iff]
      intro x hx
      simpa using hne x hx
    rw [hidx] at hf
    have hfil : es.filter (fun e => idOf e.2 ≠ id) = es := by
      rw [List.filter_eq_self]; intro p hp; simpa using hne p hp
    refine ⟨s, ?_, by rw [hfil]; exact h, ?_⟩
    · rw [hh', erase, St.run_bind_ok (St.run_get s), St.run_bind_ok hf]
      rfl
    · intro a
      rw [if_neg]
      rintro ⟨e, he, -, hid⟩; exact hne e he hid

theorem Refers.erase {idOf : α → ι} {es : List (Nat × α)} {s s' : ItemCollection ι α} (h : Inv idOf es s) {id id' : ι}
    (hh : ∀ a, s'.heap a = if ∃ e ∈ es, e.1 = a ∧ idOf e.2 = id then none else s.heap a) {r : IdArg ι}
    (hr : Refers idOf s.heap r id') (hd : ∀ a, r = .item a → a ∈ s.ordered → id ≠ id') : Refers idOf s'.heap r id' := by
  cases r with
  | own i => exact hr
  | item a =>
    obtain ⟨x, hx, hid⟩ := hr
    refine ⟨x, ?_, hid⟩
    rw [hh, if_neg, hx]
    rintro ⟨e, he, hea, heid⟩
    have ho : a ∈ s.ordered := by rw [h.ordered, ← hea]; exact List.mem_map_of_mem he
    have hex := h.heap e he
    rw [hea, hx] at hex
    apply hd a rfl ho
    rw [← heid, ← hid]
    cases hex; rfl

theorem eraseA_none {idOf : α → ι} {r : IdArg ι} {s : ItemCollection ι α} (hne : s.ordered = []) :
    (eraseA idOf r).run s = (.ok false, s) := by
  rw [eraseA, St.run_bind_ok (St.run_get s), hne, findOrderedA, St.run_bind_ok (St.run_pure _ _)]
  rfl

theorem each_none {idOf : α → ι} (rs : List (IdArg ι)) : ∀ (ids : List ι) {s : ItemCollection ι α}, Inv idOf [] s →
    rs.length = ids.length →
    (each (eraseA idOf) rs).run s = (.ok (removeAll idOf [] ids).1, s) ∧
      (each (erase idOf) ids).run s = (.ok (removeAll idOf [] ids).1, s) := by
  induction rs with
  | nil =>
    intro ids s h hl
    obtain rfl : ids = [] := List.length_eq_zero_iff.mp hl.symm
    exact ⟨rfl, rfl⟩
  | cons r rs ih =>
    intro ids s h hl
    cases ids with
    | nil => cases hl
    | cons id ids =>
      have ho : s.ordered = [] := by rw [h.ordered]; rfl
      have h1 : (eraseA idOf r).run s = (.ok false, s) := eraseA_none ho
      have h2 : (erase idOf id).run s = (.ok false, s) := by
        rw [erase, St.run_bind_ok (St.run_get s), ho, findOrdered, St.run_bind_ok (St.run_pure _ _)]
        rfl
      obtain ⟨e1, e2⟩ := ih ids h (by simpa using hl)
      constructor
      · rw [each, St.run_bind_ok h1, St.run_bind_ok e1]; rfl
      · rw [each, St.run_bind_ok h2, St.run_bind_ok e2]; rfl

/-- As long as every argument refers to an object that is alive when its turn comes, or the collection is empty by then. -/
theorem eraseAllA_eq {idOf : α → ι} (rs : List (IdArg ι)) :
    ∀ (ids : List ι) {es : List (Nat × α)} {s : ItemCollection ι α}, Inv idOf es s → rs.length = ids.length →
    (∀ j r id, rs[j]? = some r → ids[j]? = some id → (∀ e ∈ es, idOf e.2 ∈ ids.take j) ∨
      (Refers idOf s.heap r id ∧ ∀ a, r = .item a → a ∈ s.ordered → id ∉ ids.take j)) →
    ∃ s', (each (eraseA idOf) rs).run s = (.ok (removeAll idOf (es.map Prod.snd) ids).1, s') ∧
      (each (erase idOf) ids).run s = (.ok (removeAll idOf (es.map Prod.snd) ids).1, s') ∧
      Inv idOf (es.filter fun e => idOf e.2 ∉ ids) s' ∧
      (∀ a, s'.heap a = if ∃ e ∈ es, e.1 = a ∧ idOf e.2 ∈ ids then none else s.heap a) := by
  induction rs with
  | nil =>
    intro ids es s h hl hj
    obtain rfl : ids = [] := List.length_eq_zero_iff.mp hl.symm
    exact ⟨s, rfl, rfl, by simpa using h, by simp⟩
  | cons r rs ih =>
    intro ids es s h hl hj
    cases ids with
    | nil => cases hl
    | cons id ids =>
      by_cases hes : es = []
      · subst hes
        obtain ⟨e1, e2⟩ := each_none (r :: rs) (id :: ids) h hl
        exact ⟨s, e1, e2, by simpa using h, by simp⟩
      have hr : Refers idOf s.heap r id := by
        rcases hj 0 r id rfl rfl with h0 | h0
        · exact absurd (List.eq_nil_iff_forall_not_mem.mpr fun e he => by simpa using h0 e he) hes
        · exact h0.1
      obtain ⟨s1, e1, h1, hh1⟩ := erase_full h id
      have hrem : (es.filter fun e => idOf e.2 ≠ id).map Prod.snd = remove idOf (es.map Prod.snd) id := by
        rw [remove, List.filter_map]; rfl
      have hsub : ∀ a, a ∈ s1.ordered → a ∈ s.ordered := by
        intro a ha
        rw [h1.ordered] at ha
        rw [h.ordered]
        obtain ⟨e, he, rfl⟩ := List.mem_map.mp ha
        exact List.mem_map_of_mem (List.mem_filter.mp he).1
      have hj' : ∀ j r id', rs[j]? = some r → ids[j]? = some id' →
          (∀ e ∈ es.filter fun e => idOf e.2 ≠ id, idOf e.2 ∈ ids.take j) ∨
          (Refers idOf s1.heap r id' ∧ ∀ a, r = .item a → a ∈ s1.ordered → id' ∉ ids.take j) := by
        intro j r' id' hr' hid'
        rcases hj (j + 1) r' id' (by simpa using hr') (by simpa using hid') with h0 | ⟨h0, h3⟩
        · left
          intro e he
          obtain ⟨he, hne⟩ := List.mem_filter.mp he
          have := h0 e he
          rw [List.take_succ_cons, List.mem_cons] at this
          rcases this with hc | hc
          · exact absurd hc (by simpa using hne)
          · exact hc
        · right
          refine ⟨Refers.erase h hh1 h0 ?_, ?_⟩
          · intro a ha ho hc
            exact h3 a ha ho (by simp [hc])
          · intro a ha ho hc
            exact h3 a ha (hsub a ho) (by simp [hc])
      obtain ⟨s2, e2, e3, h2, h4⟩ := ih ids h1 (by simpa using hl) hj'
      rw [hrem] at e2 e3
      refine ⟨s2, ?_, ?_, ?_, ?_⟩
      · rw [each, St.run_bind_ok ((eraseA_eq h hr).trans e1), St.run_bind_ok e2]; rfl
      · rw [each, St.run_bind_ok e1, St.run_bind_ok e3]; rfl
      · rw [List.filter_filter] at h2
        have : (fun e : Nat × α => decide (idOf e.2 ∉ id :: ids)) =
            fun e => (decide (idOf e.2 ∉ ids) && decide (idOf e.2 ≠ id)) := by
          funext e
          simp [Bool.and_comm]
        rw [this]
        exact h2
      · intro a
        rw [h4, hh1]
        by_cases c1 : ∃ e ∈ es, e.1 = a ∧ idOf e.2 = id
        · obtain ⟨e, he, hea, hid⟩ := c1
          rw [if_pos (c := ∃ e ∈ es, e.1 = a ∧ idOf e.2 = id) ⟨e, he, hea, hid⟩,
            if_pos (c := ∃ e ∈ es, e.1 = a ∧ idOf e.2 ∈ id :: ids) ⟨e, he, hea, by simp [hid]⟩]
          split <;> rfl
        · rw [if_neg c1]
          by_cases c2 : ∃ e ∈ es, e.1 = a ∧ idOf e.2 ∈ id :: ids
          · rw [if_pos c2, if_pos]
            obtain ⟨e, he, hea, hid⟩ := c2
            have hne : idOf e.2 ≠ id := fun hc => c1 ⟨e, he, hea, hc⟩
            refine ⟨e, List.mem_filter.mpr ⟨he, by simpa using hne⟩, hea, ?_⟩
            rcases List.mem_cons.mp hid with hc | hc
            · exact absurd hc hne
            · exact hc
          · rw [if_neg c2, if_neg]
            rintro ⟨e, he, hea, hid⟩
            exact c2 ⟨e, (List.mem_filter.mp he).1, hea, by simp [hid]⟩

omit [DecidableEq ι] in
theorem each_append {β γ : Type} (f : β → St (ItemCollection ι α) γ) (l1 l2 : List β) {s s1 : ItemCollection ι α} {ys : List γ}
    (h : (each f l1).run s = (.ok ys, s1)) :
    (each f (l1 ++ l2)).run s =
      match (each f l2).run s1 with
      | (.ok zs, s2) => (.ok (ys ++ zs), s2)
      | (.throw e, s2) => (.throw e, s2)
      | (.ub, s2) => (.ub, s2)
      | (.terminate, s2) => (.terminate, s2)
      | (.diverge, s2) => (.diverge, s2) := by
  induction l1 generalizing s ys with
  | nil =>
    cases h
    rw [List.nil_append]
    generalize St.run _ _ = r
    rcases r with ⟨r, m⟩
    rcases r with _ | _ | _ | _ | _ <;> rfl
  | cons x l1 ih =>
    rw [each, St.run_bind] at h
    rw [List.cons_append, each, St.run_bind]
    rcases hx : (f x).run s with ⟨o, s'⟩
    rw [hx] at h
    cases o with
    | ok y =>
      simp only at h ⊢
      rw [St.run_bind] at h
      rcases hy : (each f l1).run s' with ⟨o', s''⟩
      rw [hy] at h
      cases o' with
      | ok ys' =>
        simp only [St.run_pure] at h
        cases h
        rw [St.run_bind, ih hy]
        generalize St.run _ _ = r
        rcases r with ⟨r, m⟩
        rcases r with _ | _ | _ | _ | _ <;> rfl
      | _ => cases h
    | _ => cases h

theorem findOrderedA_dead {idOf : α → ι} {a : Nat} {s : ItemCollection ι α} (h : s.heap a = none) {as : List Nat}
    (hne : as ≠ []) : (findOrderedA idOf (.item a) as).run s = (.ub, s) := by
  cases as with
  | nil => exact absurd rfl hne
  | cons b as => rw [findOrderedA, St.run_bind, readId_dead h]

theorem eraseA_dead {idOf : α → ι} {a : Nat} {s : ItemCollection ι α} (h : s.heap a = none) (hne : s.ordered ≠ []) :
    (eraseA idOf (.item a)).run s = (.ub, s) := by
  rw [eraseA, St.run_bind_ok (St.run_get s), St.run_bind, findOrderedA_dead h hne]

/-- Every argument refers to a live object, and none is gone before its turn unless nothing is left to compare with. -/
theorem eraseAllA_fine {idOf : α → ι} {es : List (Nat × α)} {s : ItemCollection ι α} (h : Inv idOf es s) {rs : List (IdArg ι)}
    {ids : List ι} (hf : List.Forall₂ (Refers idOf s.heap) rs ids)
    (hg : ∀ j, Gone s.ordered rs ids j → AllNamed idOf (es.map Prod.snd) ids j) :
    ∃ s', (each (eraseA idOf) rs).run s = (.ok (removeAll idOf (es.map Prod.snd) ids).1, s') ∧
      (each (erase idOf) ids).run s = (.ok (removeAll idOf (es.map Prod.snd) ids).1, s') ∧
      Inv idOf (es.filter fun e => idOf e.2 ∉ ids) s' ∧
      (∀ a, s'.heap a = if ∃ e ∈ es, e.1 = a ∧ idOf e.2 ∈ ids then none else s.heap a) := by
  refine eraseAllA_eq rs ids h hf.length_eq ?_
  intro j r id hr hid
  rw [List.forall₂_iff_get] at hf
  obtain ⟨hl1, hr'⟩ := List.getElem?_eq_some_iff.mp hr
  obtain ⟨hl2, hid'⟩ := List.getElem?_eq_some_iff.mp hid
  have href : Refers idOf s.heap r id := by
    have := hf.2 j hl1 hl2
    rw [List.get_eq_getElem, List.get_eq_getElem, hr', hid'] at this
    exact this
  by_cases hgo : Gone s.ordered rs ids j
  · left
    intro e he
    exact hg j hgo e.2 (List.mem_map_of_mem he)
  · right
    refine ⟨href, ?_⟩
    intro a ha ho hm
    apply hgo
    obtain ⟨i, hi, hie⟩ := List.mem_iff_getElem.mp hm
    rw [List.length_take] at hi
    refine ⟨a, by rw [hr, ha], ho, i, by omega, ?_⟩
    rw [hid, ← hie, List.getElem_take]
    exact List.getElem?_eq_getElem _

theorem eraseAllA_ub {idOf : α → ι} {es : List (Nat × α)} {s : ItemCollection ι α} (h : Inv idOf es s) {rs : List (IdArg ι)}
    {ids : List ι} (hf : List.Forall₂ (Refers idOf s.heap) rs ids) {j : Nat} (hg : Gone s.ordered rs ids j)
    (hn : ¬ AllNamed idOf (es.map Prod.snd) ids j) : ((each (eraseA idOf) rs).run s).1 = .ub := by
  classical
  have hex : ∃ j, Gone s.ordered rs ids j ∧ ¬ AllNamed idOf (es.map Prod.snd) ids j := ⟨j, hg, hn⟩
  obtain ⟨hg, hn⟩ := Nat.find_spec hex
  have hmin : ∀ i, i < Nat.find hex → Gone s.ordered rs ids i → AllNamed idOf (es.map Prod.snd) ids i := by
    intro i hi hgi
    have := Nat.find_min hex hi
    by_contra hc
    exact this ⟨hgi, hc⟩
  generalize Nat.find hex = j at hg hn hmin
  clear hex
  obtain ⟨a, hr, ho, i, hij, hii⟩ := hg
  obtain ⟨hl1, hr'⟩ := List.getElem?_eq_some_iff.mp hr
  have hl2 : j < ids.length := hf.length_eq ▸ hl1
  have hi2 : i < ids.length := by omega
  have hii' : ids[i] = ids[j] := by
    rw [List.getElem?_eq_getElem hl2, List.getElem?_eq_getElem hi2] at hii
    simpa using hii
  obtain ⟨x, hx, hidx⟩ : Refers idOf s.heap (.item a) ids[j] := by
    have := (List.forall₂_iff_get.mp hf).2 j hl1 hl2
    rw [List.get_eq_getElem, List.get_eq_getElem, hr'] at this
    exact this
  have hpre : List.Forall₂ (Refers idOf s.heap) (rs.take j) (ids.take j) := List.forall₂_take j hf
  obtain ⟨s1, e1, -, h1, hh1⟩ := eraseAllA_fine h hpre (by
    rintro k ⟨c, hk, hc, m, hm, hmm⟩
    have hkj : k < j := by
      by_contra hkj
      rw [List.getElem?_eq_none (by simp; omega)] at hk
      cases hk
    have := hmin k hkj ⟨c, by rw [← hk, List.getElem?_take_of_lt hkj], hc, m, hm, by
      rw [List.getElem?_take_of_lt (by omega), List.getElem?_take_of_lt hkj] at hmm; exact hmm⟩
    rw [AllNamed, List.take_take, Nat.min_eq_left (by omega)]
    exact this)
  have hmem : idOf x ∈ ids.take j := by
    rw [hidx, ← hii']
    exact List.mem_take_iff_getElem.mpr ⟨i, by omega, rfl⟩
  have hdead : s1.heap a = none := by
    rw [hh1, if_pos]
    rw [h.ordered] at ho
    obtain ⟨e, he, rfl⟩ := List.mem_map.mp ho
    have := h.heap e he
    rw [hx] at this
    cases this
    exact ⟨e, he, rfl, hmem⟩
  have hne : s1.ordered ≠ [] := by
    simp only [AllNamed, List.mem_map, forall_exists_index, and_imp, not_forall] at hn
    obtain ⟨y, e, he, rfl, hy⟩ := hn
    rw [h1.ordered]
    intro hc
    have : e ∈ es.filter fun e => idOf e.2 ∉ ids.take j := List.mem_filter.mpr ⟨he, by simpa using hy⟩
    rw [List.map_eq_nil_iff] at hc
    rw [hc] at this
    cases this
  have hsplit : rs = rs.take j ++ .item a :: rs.drop (j + 1) := by
    conv_lhs => rw [← List.take_append_drop j rs]
    rw [List.drop_eq_getElem_cons hl1, hr']
  rw [hsplit, each_append _ _ _ e1]
  have : (each (eraseA idOf) (.item a :: rs.drop (j + 1))).run s1 = (.ub, s1) := by
    rw [each, St.run_bind, eraseA_dead hdead hne]
  rw [this]

theorem tryInsertSelfLoop_run {mem : Site → Nat → Bool} (hmem : ∀ st n, mem st n = true) (b : Build) {idOf : α → ι}
    {es : List (Nat × α)} (l : List (Nat × α)) :
    ∀ {s : ItemCollection ι α}, Inv idOf es s → (∀ e ∈ l, e ∈ es) →
    ∃ s', (tryInsertSelfLoop b mem idOf (es.map Prod.fst) (l.map Prod.fst)).run s = (.ok (List.replicate l.length false), s') ∧
      Same s s' := by
  induction l with
  | nil => intro s h _; exact ⟨s, rfl, Same.refl s⟩
  | cons e l ih =>
    intro s h hl
    have he := hl e (by simp)
    have hd : (deref e.1).run s = (.ok e.2, s) := by simp [deref, St.run, h.heap e he]
    have hhas : has idOf (es.map Prod.snd) (idOf e.2) = true := by
      simp only [has, List.any_map, List.any_eq_true, Function.comp, decide_eq_true_eq]
      exact ⟨e, he, rfl⟩
    rcases tryInsert_run (fun n => hmem _ n) b h e.2 with ⟨hd', -⟩ | ⟨-, s', hr, hs⟩ | ⟨hbad, -⟩
    · rw [hhas] at hd'; cases hd'
    · obtain ⟨s2, h2, hs2⟩ := ih (h.same hs) fun e he => hl e (by simp [he])
      refine ⟨s2, ?_, ?_⟩
      · rw [List.map_cons, tryInsertSelfLoop, St.run_bind_ok (St.run_get s), St.run_ite, if_neg (by simp [h.ordered]),
          St.run_bind_ok hd, St.run_bind_ok hr, St.run_bind_ok h2]
        rfl
      · obtain ⟨a1, a2, a3, a4, a5⟩ := hs
        obtain ⟨b1, b2, b3, b4, b5⟩ := hs2
        exact ⟨b1.trans a1, b2.trans a2, b3.trans a3, b4.trans a4, by omega⟩
    · exact absurd hmem hbad

end Wite.Collections.ItemCollection
