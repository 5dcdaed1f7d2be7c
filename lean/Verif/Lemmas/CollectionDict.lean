import Verif.Spec.CollectionDict
import Mathlib.Data.List.Pairwise
import Mathlib.Tactic.ByContra

/-!
# Lemmas for collections on any associative container
-/

namespace Wite.Collections

open Wite.Spec.CollectionDict

/-! ### Running two programs side by side -/

/-- The call returned or threw. -/
def Finished {β : Type} : Outcome β → Prop
  | .ok _ | .throw _ => True
  | _ => False

/-- From these two states the two calls end alike, and if they end they leave related states. -/
def Alike {σ τ β : Type} (R : σ → τ → Prop) (s : σ) (t : τ) (x : St σ β) (y : St τ β) : Prop :=
  (x s).1 = (y t).1 ∧ (Finished (x s).1 → R (x s).2 (y t).2)

namespace Alike

variable {σ τ β γ : Type} {R : σ → τ → Prop} {s : σ} {t : τ}

theorem pure (h : R s t) (a : β) : Alike R s t (Pure.pure a) (Pure.pure a) := ⟨rfl, fun _ => h⟩

theorem throw (h : R s t) (e : Exc) : Alike (β := β) R s t (St.throw e) (St.throw e) := ⟨rfl, fun _ => h⟩

theorem set {s' : σ} {t' : τ} (h : R s' t') : Alike R s t (St.set s') (St.set t') := ⟨rfl, fun _ => h⟩

theorem bind {x : St σ β} {y : St τ β} {f : β → St σ γ} {g : β → St τ γ} (h : Alike R s t x y)
    (hf : ∀ a s' t', R s' t' → Alike R s' t' (f a) (g a)) : Alike R s t (x >>= f) (y >>= g) := by
  obtain ⟨h1, h2⟩ := h
  show (St.bind x f s).1 = (St.bind y g t).1 ∧ (Finished (St.bind x f s).1 → R (St.bind x f s).2 (St.bind y g t).2)
  rcases hx : x s with ⟨o, s'⟩
  rcases hy : y t with ⟨p, t'⟩
  rw [hx, hy] at h1 h2
  simp only at h1 h2
  subst h1
  simp only [St.bind, hx, hy]
  cases o with
  | ok a => exact hf a s' t' (h2 trivial)
  | throw e => exact ⟨rfl, fun _ => h2 trivial⟩
  | ub => exact ⟨rfl, fun h => h.elim⟩
  | terminate => exact ⟨rfl, fun h => h.elim⟩
  | diverge => exact ⟨rfl, fun h => h.elim⟩

theorem get {f : σ → St σ γ} {g : τ → St τ γ} (h : Alike R s t (f s) (g t)) :
    Alike R s t (St.get >>= f) (St.get >>= g) := h

theorem map {x : St σ β} {y : St τ β} (h : Alike R s t x y) (f : β → γ) :
    Alike R s t (x >>= fun a => Pure.pure (f a)) (y >>= fun a => Pure.pure (f a)) :=
  h.bind fun a _ _ h' => .pure h' (f a)

end Alike

/-! ### The collection on two containers -/

variable {δ ι α : Type} {D : Dict δ ι} {same eq : ι → ι → Bool} {R : δ → List (ι × Nat) → Prop}

/-- The states are the same but for the container. -/
structure Matches (R : δ → List (ι × Nat) → Prop) (s : DictCollection δ α) (t : ItemCollection ι α) : Prop where
  heap : s.heap = t.heap
  next : s.next = t.next
  allocs : s.allocs = t.allocs
  items : R s.items t.items
  ordered : s.ordered = t.ordered
  outside : s.outside = t.outside

namespace Matches

variable {s : DictCollection δ α} {t : ItemCollection ι α}

private theorem find_eq (hD : StandsFor D same R) (h : Matches R s t) (id : ι) :
    D.find s.items id = ItemCollection.mapFindC ⟨same, eq⟩ t.items id := hD.find h.items id

theorem free (h : Matches R s t) (a : Nat) : Alike (Matches R) s t (DictCollection.free a) (ItemCollection.free a) := by
  obtain ⟨heap, next, allocs, items, ordered, outside⟩ := s
  obtain ⟨heap', next', allocs', items', ordered', outside'⟩ := t
  obtain ⟨h1, h2, h3, h4, h5, h6⟩ := h
  simp only at h1 h2 h3 h4 h5 h6
  subst h1 h2 h3 h5 h6
  simp only [Alike, DictCollection.free, ItemCollection.free]
  cases heap a with
  | none => exact ⟨rfl, fun h => h.elim⟩
  | some x => exact ⟨rfl, fun _ => ⟨rfl, rfl, rfl, h4, rfl, rfl⟩⟩

theorem deref (h : Matches R s t) (a : Nat) : Alike (Matches R) s t (DictCollection.deref a) (ItemCollection.deref a) := by
  have h1 := h.heap
  simp only [Alike, DictCollection.deref, ItemCollection.deref, h1]
  cases t.heap a with
  | none => exact ⟨rfl, fun h => h.elim⟩
  | some x => exact ⟨rfl, fun _ => h⟩

theorem request (h : Matches R s t) (mem : Site → Nat → Bool) (site : Site) :
    Alike (Matches R) s t (DictCollection.request mem site) (ItemCollection.request mem site) := by
  refine ⟨?_, fun _ => ⟨h.heap, h.next, ?_, h.items, h.ordered, h.outside⟩⟩
  · simp only [DictCollection.request, ItemCollection.request, h.allocs]
  · simp only [DictCollection.request, ItemCollection.request, h.allocs]

theorem newItem (h : Matches R s t) (mem : Site → Nat → Bool) (x : α) :
    Alike (Matches R) s t (DictCollection.newItem mem x) (ItemCollection.newItem mem x) := by
  refine (h.request mem .item).bind fun ok s t h => ?_
  cases ok with
  | false => exact .throw h _
  | true =>
    refine .get (.bind (.set ⟨?_, ?_, h.allocs, h.items, h.ordered, h.outside⟩) fun _ s' t' h' => ?_)
    · simp only [h.heap, h.next]
    · simp only [h.next]
    · rw [h.next]
      exact .pure h' _

theorem dictInsert (hD : StandsFor D same R) (h : Matches R s t) (mem : Site → Nat → Bool) (id : ι) (a : Nat) :
    Alike (Matches R) s t (DictCollection.dictInsert D mem id a) (ItemCollection.mapInsertC ⟨same, eq⟩ mem id a) := by
  refine .get ?_
  simp only [find_eq (eq := eq) hD h]
  cases hf : ItemCollection.mapFindC ⟨same, eq⟩ t.items id with
  | some _ => exact (h.free a).bind fun _ _ _ h => .pure h _
  | none =>
    have e1 : DictCollection.request mem .node s = (.ok (mem .node s.allocs), { s with allocs := s.allocs + 1 }) := rfl
    have e2 : ItemCollection.request mem .node t = (.ok (mem .node t.allocs), { t with allocs := t.allocs + 1 }) := rfl
    simp only [Alike, Bind.bind, St.bind, e1, e2, h.allocs]
    cases mem .node t.allocs with
    | false =>
      have hm : Matches R { s with allocs := t.allocs + 1 } { t with allocs := t.allocs + 1 } :=
        ⟨h.heap, h.next, rfl, h.items, h.ordered, h.outside⟩
      exact (hm.free a).bind fun _ _ _ h => .throw h _
    | true =>
      have hm : Matches R { s with allocs := t.allocs + 1, items := D.insert s.items id a }
          { t with allocs := t.allocs + 1, items := t.items ++ [(id, a)] } := by
        refine ⟨h.heap, h.next, rfl, hD.insert h.items id a ?_, h.ordered, h.outside⟩
        intro p hp
        simp only [ItemCollection.mapFindC, Option.map_eq_none_iff, List.find?_eq_none] at hf
        simpa using hf p hp
      exact ⟨rfl, fun _ => hm⟩

theorem dictErase (hD : StandsFor D same R) (h : Matches R s t) (id : ι) :
    Alike (Matches R) s t (DictCollection.dictErase D id) (ItemCollection.mapEraseC ⟨same, eq⟩ id) := by
  refine .get ?_
  simp only [find_eq (eq := eq) hD h]
  cases ItemCollection.mapFindC ⟨same, eq⟩ t.items id with
  | none => exact .pure h _
  | some a =>
    refine .bind (.set ⟨h.heap, h.next, h.allocs, hD.erase h.items id, h.ordered, h.outside⟩) fun _ _ _ h => h.free a

theorem pushBack (h : Matches R s t) (mem : Site → Nat → Bool) (a : Nat) :
    Alike (Matches R) s t (DictCollection.pushBack mem a) (ItemCollection.pushBack mem a) := by
  refine (h.request mem .order).bind fun ok s t h => ?_
  cases ok with
  | false => exact .throw h _
  | true => exact .get (.set ⟨h.heap, h.next, h.allocs, h.items, by simp only [h.ordered], h.outside⟩)

theorem each {β γ : Type} {f : β → St (DictCollection δ α) γ} {g : β → St (ItemCollection ι α) γ}
    (hfg : ∀ x s t, Matches R s t → Alike (Matches R) s t (f x) (g x)) (xs : List β) (h : Matches R s t) :
    Alike (Matches R) s t (DictCollection.each f xs) (ItemCollection.each g xs) := by
  induction xs generalizing s t with
  | nil => exact .pure h _
  | cons x xs ih => exact (hfg x s t h).bind fun _ _ _ h => (ih h).bind fun _ _ _ h => .pure h _

theorem assertSizes (hD : StandsFor D same R) (h : Matches R s t) (b : Build) :
    Alike (Matches R) s t (DictCollection.assertSizes D b) (ItemCollection.assertSizes b) := by
  refine ⟨?_, fun _ => h⟩
  simp only [DictCollection.assertSizes, ItemCollection.assertSizes, hD.size h.items, h.ordered]

theorem tryUncheckedInsert (hD : StandsFor D same R) (h : Matches R s t) (b : Build) (mem : Site → Nat → Bool) (idOf : α → ι) (a : Nat) :
    Alike (Matches R) s t (DictCollection.tryUncheckedInsert D b mem idOf a)
      (ItemCollection.tryUncheckedInsertC ⟨same, eq⟩ b mem idOf a) := by
  refine (h.deref a).bind fun x _ _ h => (h.dictInsert hD mem _ a).bind fun ins _ _ h => ?_
  cases ins with
  | true => exact (h.pushBack mem a).bind fun _ _ _ h => (h.assertSizes hD b).bind fun _ _ _ h => .pure h _
  | false => exact (h.assertSizes hD b).bind fun _ _ _ h => .pure h _

theorem uncheckedInsert (hD : StandsFor D same R) (h : Matches R s t) (b : Build) (mem : Site → Nat → Bool) (idOf : α → ι) (a : Nat) :
    Alike (Matches R) s t (DictCollection.uncheckedInsert D b mem idOf a)
      (ItemCollection.uncheckedInsertC ⟨same, eq⟩ b mem idOf a) :=
  (h.deref a).bind fun _ _ _ h => (h.dictInsert hD mem _ a).bind fun _ _ _ h =>
    (h.pushBack mem a).bind fun _ _ _ h => h.assertSizes hD b

theorem contains (hD : StandsFor D same R) (h : Matches R s t) (id : ι) :
    s.contains D id = t.containsC ⟨same, eq⟩ id := by
  rw [DictCollection.contains, ItemCollection.containsC, find_eq (eq := eq) hD h]

theorem insert (hD : StandsFor D same R) (h : Matches R s t) (b : Build) (mem : Site → Nat → Bool) (idOf : α → ι) (x : α) :
    Alike (Matches R) s t (DictCollection.insert D b mem idOf x) (ItemCollection.insertC ⟨same, eq⟩ b mem idOf x) := by
  refine .get ?_
  rw [h.contains (eq := eq) hD]
  by_cases hc : t.containsC ⟨same, eq⟩ (idOf x) = true
  · rw [if_pos hc, if_pos hc]
    exact .throw h _
  · rw [if_neg hc, if_neg hc]
    exact (h.newItem mem x).bind fun a _ _ h => h.uncheckedInsert hD b mem idOf a

theorem tryInsert (hD : StandsFor D same R) (h : Matches R s t) (b : Build) (mem : Site → Nat → Bool) (idOf : α → ι) (x : α) :
    Alike (Matches R) s t (DictCollection.tryInsert D b mem idOf x) (ItemCollection.tryInsertC ⟨same, eq⟩ b mem idOf x) :=
  (h.newItem mem x).bind fun a _ _ h => h.tryUncheckedInsert hD b mem idOf a

theorem findOrdered (h : Matches R s t) (idOf : α → ι) (id : ι) (as : List Nat) :
    Alike (Matches R) s t (DictCollection.findOrdered eq idOf id as) (ItemCollection.findOrderedC ⟨same, eq⟩ idOf id as) := by
  induction as generalizing s t with
  | nil => exact .pure h _
  | cons a as ih =>
    refine (h.deref a).bind fun x _ _ h => ?_
    by_cases hc : eq id (idOf x) = true
    · rw [if_pos hc, if_pos (show (IdCmp.mk same eq).eq id (idOf x) = true from hc)]
      exact .pure h _
    · rw [if_neg hc, if_neg (show ¬(IdCmp.mk same eq).eq id (idOf x) = true from hc)]
      exact (ih h).map _

theorem erase (hD : StandsFor D same R) (h : Matches R s t) (idOf : α → ι) (id : ι) :
    Alike (Matches R) s t (DictCollection.erase D eq idOf id) (ItemCollection.eraseC ⟨same, eq⟩ idOf id) := by
  refine .get ?_
  rw [h.ordered]
  refine (h.findOrdered idOf id t.ordered).bind fun r s t h => ?_
  cases r with
  | none => exact .pure h _
  | some i =>
    refine .get (.bind (.set ⟨h.heap, h.next, h.allocs, h.items, by simp only [h.ordered], h.outside⟩) fun _ _ _ h => ?_)
    exact (h.dictErase hD id).bind fun _ _ _ h => .pure h _

theorem emplace (hD : StandsFor D same R) (h : Matches R s t) (b : Build) (mem : Site → Nat → Bool) (idOf : α → ι) (x : α) :
    Alike (Matches R) s t (DictCollection.emplace D b mem idOf x) (ItemCollection.emplaceC ⟨same, eq⟩ b mem idOf x) := by
  refine (h.newItem mem x).bind fun a _ _ h => (h.tryUncheckedInsert hD b mem idOf a).bind fun ins _ _ h => ?_
  cases ins with
  | true => exact .pure h _
  | false => exact .throw h _

theorem exciseOrdered (h : Matches R s t) (b : Build) (a : Nat) :
    Alike (Matches R) s t (DictCollection.exciseOrdered b a) (ItemCollection.exciseOrdered b a) := by
  refine .get ?_
  rw [h.ordered]
  cases t.ordered.findIdx? (· = a) with
  | none =>
    cases b with
    | debug => exact (h.free a).bind fun _ _ _ h => .throw h _
    | aborting => exact ⟨rfl, fun h => h.elim⟩
    | release => exact ⟨rfl, fun h => h.elim⟩
  | some i => exact .set ⟨h.heap, h.next, h.allocs, h.items, rfl, by simp only [h.outside]⟩

theorem excise (hD : StandsFor D same R) (h : Matches R s t) (b : Build) (id : ι) :
    Alike (Matches R) s t (DictCollection.excise D b id) (ItemCollection.exciseC ⟨same, eq⟩ b id) := by
  refine .get ?_
  simp only [find_eq (eq := eq) hD h]
  cases ItemCollection.mapFindC ⟨same, eq⟩ t.items id with
  | none => exact .pure h _
  | some a =>
    refine .bind (.set ⟨h.heap, h.next, h.allocs, hD.erase h.items id, h.ordered, h.outside⟩) fun _ _ _ h => ?_
    exact (h.exciseOrdered b a).bind fun _ _ _ h => .pure h _

theorem modify (hD : StandsFor D same R) (h : Matches R s t) (id : ι) (f : α → α) :
    Alike (Matches R) s t (DictCollection.modify D id f) (ItemCollection.modifyC ⟨same, eq⟩ id f) := by
  have h1 := h.heap
  simp only [Alike, DictCollection.modify, ItemCollection.modifyC, find_eq (eq := eq) hD h, h1]
  cases ItemCollection.mapFindC ⟨same, eq⟩ t.items id with
  | none => exact ⟨rfl, fun _ => h⟩
  | some a =>
    simp only
    cases t.heap a with
    | none => exact ⟨rfl, fun h => h.elim⟩
    | some x => exact ⟨rfl, fun _ => ⟨rfl, h.next, h.allocs, h.items, h.ordered, h.outside⟩⟩

theorem drop (h : Matches R s t) (a : Nat) : Alike (Matches R) s t (DictCollection.drop a) (ItemCollection.drop a) := by
  refine .get ?_
  rw [h.outside]
  by_cases hc : a ∈ t.outside
  · rw [if_pos hc, if_pos hc]
    exact .bind (.set ⟨h.heap, h.next, h.allocs, h.items, h.ordered, rfl⟩) fun _ _ _ h => h.free a
  · rw [if_neg hc, if_neg hc]
    exact .pure h _

/-- Destroying objects one after another works if they are alive and different. -/
private theorem eachFree (as : List Nat) (s : DictCollection δ α) :
    (as.Nodup ∧ (∀ a ∈ as, s.heap a ≠ none) →
      DictCollection.each DictCollection.free as s =
        (.ok (as.map fun _ => ()), { s with heap := fun b => if b ∈ as then none else s.heap b })) ∧
    (¬(as.Nodup ∧ ∀ a ∈ as, s.heap a ≠ none) → (DictCollection.each DictCollection.free as s).1 = .ub) := by
  induction as generalizing s with
  | nil =>
    refine ⟨fun _ => ?_, fun h => absurd ⟨List.nodup_nil, by simp⟩ h⟩
    show (_, s) = _
    simp
  | cons a as ih =>
    cases ha : s.heap a with
    | none =>
      refine ⟨fun h => absurd ha (h.2 a (by simp)), fun _ => ?_⟩
      simp only [DictCollection.each, Bind.bind, St.bind, DictCollection.free, ha]
    | some x =>
      have e : DictCollection.free a s = (.ok (), { s with heap := fun b => if b = a then none else s.heap b }) := by
        simp only [DictCollection.free, ha]
      obtain ⟨i1, i2⟩ := ih { s with heap := fun b => if b = a then none else s.heap b }
      have hiff : (as.Nodup ∧ ∀ c ∈ as, (fun b => if b = a then none else s.heap b) c ≠ none) ↔
          ((a :: as).Nodup ∧ ∀ c ∈ a :: as, s.heap c ≠ none) := by
        rw [List.nodup_cons]
        constructor
        · rintro ⟨h1, h2⟩
          refine ⟨⟨fun hm => ?_, h1⟩, ?_⟩
          · exact h2 a hm (by simp)
          · intro c hc
            rcases List.mem_cons.mp hc with rfl | hc
            · rw [ha]; exact fun h => Option.some_ne_none _ h
            · intro hn
              apply h2 c hc
              show (if c = a then none else s.heap c) = none
              rw [hn]; split <;> rfl
        · rintro ⟨⟨h0, h1⟩, h2⟩
          refine ⟨h1, fun c hc => ?_⟩
          show (if c = a then none else s.heap c) ≠ none
          rw [if_neg (by rintro rfl; exact h0 hc)]
          exact h2 c (by simp [hc])
      refine ⟨fun h => ?_, fun h => ?_⟩
      · have := i1 (hiff.mpr h)
        simp only [DictCollection.each, Bind.bind, St.bind, e, this]
        show (Outcome.ok _, _) = _
        congr 2
        funext b
        by_cases hb : b ∈ as <;> by_cases hba : b = a <;> simp [hb, hba]
      · have := i2 (fun h' => h (hiff.mp h'))
        revert this
        simp only [DictCollection.each, Bind.bind, St.bind, e]
        generalize DictCollection.each DictCollection.free as _ = r
        rcases r with ⟨o, s'⟩
        rintro ⟨⟩
        rfl

private theorem eachFree' (l : List (ι × Nat)) (s : ItemCollection ι α) :
    ((l.map Prod.snd).Nodup ∧ (∀ a ∈ l.map Prod.snd, s.heap a ≠ none) →
      ItemCollection.each (fun p : ι × Nat => ItemCollection.free p.2) l s =
        (.ok (l.map fun _ => ()), { s with heap := fun b => if b ∈ l.map Prod.snd then none else s.heap b })) ∧
    (¬((l.map Prod.snd).Nodup ∧ ∀ a ∈ l.map Prod.snd, s.heap a ≠ none) →
      (ItemCollection.each (fun p : ι × Nat => ItemCollection.free p.2) l s).1 = .ub) := by
  let s' : DictCollection (List (ι × Nat)) α := ⟨s.heap, s.next, s.allocs, s.items, s.ordered, s.outside⟩
  have hm : Matches (fun a b => a = b) s' s := ⟨rfl, rfl, rfl, rfl, rfl, rfl⟩
  have key : ∀ (l : List (ι × Nat)) (u : DictCollection (List (ι × Nat)) α) (v : ItemCollection ι α), Matches (fun a b => a = b) u v →
      Alike (Matches fun a b => a = b) u v (DictCollection.each DictCollection.free (l.map Prod.snd))
        (ItemCollection.each (fun p : ι × Nat => ItemCollection.free p.2) l) := by
    intro l
    induction l with
    | nil => exact fun u v h => .pure h _
    | cons p l ih => exact fun u v h => (h.free p.2).bind fun _ _ _ h => (ih _ _ h).bind fun _ _ _ h => .pure h _
  obtain ⟨k1, k2⟩ := key l s' s hm
  obtain ⟨e1, e2⟩ := eachFree (l.map Prod.snd) s'
  refine ⟨fun h => ?_, fun h => ?_⟩
  · have e := e1 h
    rw [e] at k1 k2
    have k2 := k2 trivial
    rcases hr : ItemCollection.each (fun p : ι × Nat => ItemCollection.free p.2) l s with ⟨o, v⟩
    rw [hr] at k1 k2
    obtain ⟨h1, h2, h3, h4, h5, h6⟩ := k2
    obtain ⟨v1, v2, v3, v4, v5, v6⟩ := v
    simp only at h1 h2 h3 h4 h5 h6 k1
    subst h1 h2 h3 h4 h5 h6 k1
    simp only [List.map_map]
    rfl
  · rw [← k1]; exact e2 h

theorem clear (hD : StandsFor D same R) (h : Matches R s t) :
    Alike (Matches R) s t (DictCollection.clear D) ItemCollection.clear := by
  refine .get ?_
  have hp := hD.values h.items
  have hgood : ((D.values s.items).Nodup ∧ ∀ a ∈ D.values s.items, s.heap a ≠ none) ↔
      ((t.items.map Prod.snd).Nodup ∧ ∀ a ∈ t.items.map Prod.snd, t.heap a ≠ none) := by
    rw [hp.nodup_iff, h.heap]
    exact and_congr_right fun _ => ⟨fun g a ha => g a (hp.mem_iff.mpr ha), fun g a ha => g a (hp.mem_iff.mp ha)⟩
  obtain ⟨a1, a2⟩ := eachFree (D.values s.items) s
  obtain ⟨b1, b2⟩ := eachFree' t.items t
  by_cases hg : (t.items.map Prod.snd).Nodup ∧ ∀ a ∈ t.items.map Prod.snd, t.heap a ≠ none
  · have e1 := a1 (hgood.mpr hg)
    have e2 := b1 hg
    simp only [Alike, Bind.bind, St.bind, e1, e2]
    refine ⟨rfl, fun _ => ⟨?_, h.next, h.allocs, hD.empty, rfl, h.outside⟩⟩
    funext b
    show (if b ∈ D.values s.items then none else s.heap b) = if b ∈ t.items.map Prod.snd then none else t.heap b
    rw [h.heap]
    by_cases hb : b ∈ t.items.map Prod.snd
    · rw [if_pos hb, if_pos (hp.mem_iff.mpr hb)]
    · rw [if_neg hb, if_neg (fun h => hb (hp.mem_iff.mp h))]
  · have e1 := a2 (fun h => hg (hgood.mp h))
    have e2 := b2 hg
    simp only [Alike, Bind.bind, St.bind]
    rcases hr : DictCollection.each DictCollection.free (D.values s.items) s with ⟨o, u⟩
    rcases hr' : ItemCollection.each (fun p : ι × Nat => ItemCollection.free p.2) t.items t with ⟨o', u'⟩
    rw [hr] at e1
    rw [hr'] at e2
    simp only at e1 e2
    subst e1 e2
    exact ⟨rfl, fun h => h.elim⟩

theorem step (hD : StandsFor D same R) (b : Build) (mem : Site → Nat → Bool) (idOf : α → ι) (op : ItemCollection.Op ι α)
    (s : DictCollection δ α) (t : ItemCollection ι α) (h : Matches R s t) :
    Alike (Matches R) s t (DictCollection.step D eq b mem idOf op) (ItemCollection.stepC ⟨same, eq⟩ b mem idOf op) := by
  cases op with
  | insert x => exact (h.insert hD b mem idOf x).map _
  | insertRange xs => exact ((each (fun x _ _ h => h.tryInsert hD b mem idOf x) xs h).map _).map _
  | insertAll xs => exact ((each (fun x _ _ h => h.insert hD b mem idOf x) xs h).map _).map _
  | tryInsert x => exact (h.tryInsert hD b mem idOf x).map _
  | tryInsertAll xs => exact (each (fun x _ _ h => h.tryInsert hD b mem idOf x) xs h).map _
  | erase id => exact (h.erase hD idOf id).map _
  | eraseAll ids => exact (each (fun x _ _ h => h.erase hD idOf x) ids h).map _
  | emplace x => exact (h.emplace hD b mem idOf x).map _
  | excise id => exact (h.excise hD b id).map _
  | clear => exact (h.clear hD).map _
  | modify id f => exact (h.modify hD id f).map _
  | drop a => exact (h.drop a).map _

/-- What the two collections show is the same. -/
theorem shows (hD : StandsFor D same R) (h : Matches R s t) :
    (∀ id, s.contains D id = t.containsC ⟨same, eq⟩ id) ∧ (∀ id, s.atId D id = t.atIdC ⟨same, eq⟩ id) ∧
    (∀ i, s.atIndex i = t.atIndex i) ∧ s.size D = t.size ∧ s.isEmpty D = t.isEmpty ∧ s.iterate = t.iterate := by
  have hd : ∀ a, (DictCollection.deref a s).1 = (ItemCollection.deref a t).1 := fun a => (h.deref a).1
  refine ⟨fun id => h.contains hD id, fun id => ?_, fun i => ?_, hD.size h.items, ?_, ?_⟩
  · rw [DictCollection.atId, ItemCollection.atIdC, find_eq (eq := eq) hD h]
    cases ItemCollection.mapFindC ⟨same, eq⟩ t.items id with
    | none => rfl
    | some a => exact hd a
  · rw [DictCollection.atIndex, ItemCollection.atIndex, h.ordered]
    cases t.ordered[i]? with
    | none => rfl
    | some a => exact hd a
  · rw [DictCollection.isEmpty, ItemCollection.isEmpty, hD.size h.items]
    cases t.items <;> rfl
  · rw [DictCollection.iterate, ItemCollection.iterate, h.ordered]
    exact (each (fun a _ _ h => h.deref a) t.ordered h).1

end Matches

theorem matches_empty (hD : StandsFor D same R) :
    Matches R (DictCollection.empty D : DictCollection δ α) ItemCollection.empty :=
  ⟨rfl, rfl, rfl, hD.empty, rfl, rfl⟩

/-! ### `std::map` -/

/-- A strict weak order, as `std::map` requires of its comparison. -/
private theorem order_facts {lt : ι → ι → Bool} (hirr : ∀ x, lt x x = false)
    (htr : ∀ x y z, lt x y = true → lt y z = true → lt x z = true)
    (hsame : ∀ x y z, mapSame lt x y = true → mapSame lt y z = true → mapSame lt x z = true) :
    (∀ x y, lt x y = true → lt y x = false) ∧
    (∀ x y z, lt x y = true → mapSame lt y z = true → lt x z = true) ∧
    (∀ x y z, mapSame lt x y = true → lt y z = true → lt x z = true) := by
  have hasym : ∀ x y, lt x y = true → lt y x = false := by
    intro x y h
    by_contra h'
    rw [Bool.not_eq_false] at h'
    have := htr x y x h h'
    rw [hirr] at this
    cases this
  have hsym : ∀ x y, mapSame lt x y = mapSame lt y x := fun x y => Bool.and_comm _ _
  have hdef : ∀ x y, lt x y = false → lt y x = false → mapSame lt x y = true := by
    intro x y h1 h2; simp [mapSame, h1, h2]
  have hnot : ∀ x y, lt x y = true → mapSame lt x y = false := by
    intro x y h; simp [mapSame, h]
  refine ⟨hasym, fun x y z h1 h2 => ?_, fun x y z h1 h2 => ?_⟩
  · by_contra h
    rw [Bool.not_eq_true] at h
    by_cases h' : lt z x = true
    · have := hnot z y (htr z x y h' h1)
      rw [hsym, h2] at this
      cases this
    · rw [Bool.not_eq_true] at h'
      have := hsame x z y (hdef x z h h') (by rw [hsym]; exact h2)
      rw [hnot x y h1] at this
      cases this
  · by_contra h
    rw [Bool.not_eq_true] at h
    by_cases h' : lt z x = true
    · have := hnot y x (htr y z x h2 h')
      rw [hsym, h1] at this
      cases this
    · rw [Bool.not_eq_true] at h'
      have := hsame y x z (by rw [hsym]; exact h1) (hdef x z h h')
      rw [hnot y z h2] at this
      cases this

namespace SearchTree

variable {lt : ι → ι → Bool}

private abbrev Sorted (lt : ι → ι → Bool) (l : List (ι × Nat)) : Prop := l.Pairwise fun p q => lt p.1 q.1 = true

private theorem sorted_node {l r : SearchTree ι} {k : ι} {v : Nat} (h : Sorted lt (node l k v r).inorder) :
    Sorted lt l.inorder ∧ Sorted lt r.inorder ∧ (∀ p ∈ l.inorder, lt p.1 k = true) ∧ (∀ p ∈ r.inorder, lt k p.1 = true) := by
  rw [inorder, Sorted, List.pairwise_append, List.pairwise_cons] at h
  obtain ⟨h1, ⟨h2, h3⟩, h4⟩ := h
  exact ⟨h1, h3, fun p hp => h4 p hp (k, v) (by simp), h2⟩

private theorem find_inorder (hirr : ∀ x, lt x x = false) (htr : ∀ x y z, lt x y = true → lt y z = true → lt x z = true)
    (hsame : ∀ x y z, mapSame lt x y = true → mapSame lt y z = true → mapSame lt x z = true) (id : ι) (t : SearchTree ι)
    (h : Sorted lt t.inorder) : t.find lt id = (t.inorder.find? fun p => mapSame lt p.1 id).map Prod.snd := by
  obtain ⟨hasym, hls, hsl⟩ := order_facts hirr htr hsame
  induction t with
  | leaf => rfl
  | node l k v r ihl ihr =>
    obtain ⟨h1, h2, h3, h4⟩ := sorted_node h
    rw [find, inorder, List.find?_append, List.find?_cons]
    by_cases c1 : lt id k = true
    · have hk : mapSame lt k id = false := by simp [mapSame, c1]
      have hr : (r.inorder.find? fun p => mapSame lt p.1 id) = none := by
        rw [List.find?_eq_none]
        intro p hp
        have := htr id k p.1 c1 (h4 p hp)
        simp [mapSame, this]
      rw [if_pos c1, ihl h1, hk, hr]
      simp
    · have hl : (l.inorder.find? fun p => mapSame lt p.1 id) = none := by
        rw [List.find?_eq_none]
        intro p hp hs
        by_cases c2 : lt k id = true
        · have := htr p.1 k id (h3 p hp) c2
          simp [mapSame, this] at hs
        · have hks : mapSame lt k id = true := by simp [mapSame, c1, c2]
          have := hls p.1 k id (h3 p hp) hks
          simp [mapSame, this] at hs
      rw [if_neg c1, hl]
      by_cases c2 : lt k id = true
      · have hk : mapSame lt k id = false := by simp [mapSame, c2]
        rw [if_pos c2, ihr h2, hk]
        simp
      · have hks : mapSame lt k id = true := by simp [mapSame, c1, c2]
        rw [if_neg c2, hks]
        simp

private theorem put_inorder (htr : ∀ x y z, lt x y = true → lt y z = true → lt x z = true)
    (id : ι) (a : Nat) (t : SearchTree ι) (h : Sorted lt t.inorder) (hno : ∀ p ∈ t.inorder, mapSame lt p.1 id = false) :
    ∃ l r, t.inorder = l ++ r ∧ (t.put lt id a).inorder = l ++ (id, a) :: r ∧ (∀ p ∈ l, lt p.1 id = true) ∧
      ∀ p ∈ r, lt id p.1 = true := by
  induction t with
  | leaf => exact ⟨[], [], rfl, rfl, by simp, by simp⟩
  | node tl k v tr ihl ihr =>
    obtain ⟨h1, h2, h3, h4⟩ := sorted_node h
    have hk := hno (k, v) (by simp [inorder])
    rw [put]
    by_cases c1 : lt id k = true
    · obtain ⟨l, r, e1, e2, e3, e4⟩ := ihl h1 (fun p hp => hno p (by simp [inorder, hp]))
      rw [if_pos c1]
      refine ⟨l, r ++ (k, v) :: tr.inorder, by rw [inorder, e1, List.append_assoc], by rw [inorder, e2]; simp, e3, ?_⟩
      intro p hp
      rcases List.mem_append.mp hp with hp | hp
      · exact e4 p hp
      · rcases List.mem_cons.mp hp with rfl | hp
        · exact c1
        · exact htr _ _ _ c1 (h4 p hp)
    · rw [if_neg c1]
      by_cases c2 : lt k id = true
      · obtain ⟨l, r, e1, e2, e3, e4⟩ := ihr h2 (fun p hp => hno p (by simp [inorder, hp]))
        rw [if_pos c2]
        refine ⟨tl.inorder ++ (k, v) :: l, r, by rw [inorder, e1]; simp, by rw [inorder, e2]; simp, ?_, e4⟩
        intro p hp
        rcases List.mem_append.mp hp with hp | hp
        · exact htr _ _ _ (h3 p hp) c2
        · rcases List.mem_cons.mp hp with rfl | hp
          · exact c2
          · exact e3 p hp
      · simp [mapSame, c1, c2] at hk

private theorem hang_inorder (l r : SearchTree ι) : (l.hang r).inorder = l.inorder ++ r.inorder := by
  induction l with
  | leaf => rfl
  | node l k v r' _ ih => rw [hang, inorder, ih, inorder]; simp

private theorem cut_inorder (hirr : ∀ x, lt x x = false) (htr : ∀ x y z, lt x y = true → lt y z = true → lt x z = true)
    (hsame : ∀ x y z, mapSame lt x y = true → mapSame lt y z = true → mapSame lt x z = true) (id : ι) (t : SearchTree ι)
    (h : Sorted lt t.inorder) : (t.cut lt id).inorder = t.inorder.filter fun p => !mapSame lt p.1 id := by
  obtain ⟨hasym, hls, hsl⟩ := order_facts hirr htr hsame
  induction t with
  | leaf => rfl
  | node l k v r ihl ihr =>
    obtain ⟨h1, h2, h3, h4⟩ := sorted_node h
    have hleft : ¬lt id k = true → (l.inorder.filter fun p => !mapSame lt p.1 id) = l.inorder := by
      intro c1
      rw [List.filter_eq_self]
      intro p hp
      by_cases c2 : lt k id = true
      · have := htr p.1 k id (h3 p hp) c2
        simp [mapSame, this]
      · have hks : mapSame lt k id = true := by simp [mapSame, c1, c2]
        have := hls p.1 k id (h3 p hp) hks
        simp [mapSame, this]
    have hright : ¬lt k id = true → (r.inorder.filter fun p => !mapSame lt p.1 id) = r.inorder := by
      intro c1
      rw [List.filter_eq_self]
      intro p hp
      by_cases c2 : lt id k = true
      · have := htr id k p.1 c2 (h4 p hp)
        simp [mapSame, this]
      · have hks : mapSame lt id k = true := by simp [mapSame, c1, c2]
        have := hsl id k p.1 hks (h4 p hp)
        simp [mapSame, this]
    rw [cut, inorder, List.filter_append, List.filter_cons]
    by_cases c1 : lt id k = true
    · have hk : mapSame lt k id = false := by simp [mapSame, c1]
      rw [if_pos c1, inorder, ihl h1, hright (by rw [hasym _ _ c1]; simp), hk]
      rfl
    · rw [if_neg c1]
      by_cases c2 : lt k id = true
      · have hk : mapSame lt k id = false := by simp [mapSame, c2]
        rw [if_pos c2, inorder, ihr h2, hleft c1, hk]
        rfl
      · have hks : mapSame lt k id = true := by simp [mapSame, c1, c2]
        rw [if_neg c2, hang_inorder, hleft c1, hright c2, hks]
        rfl

end SearchTree

/-- Lookups in lists with the same pairs in another order. -/
private theorem find_perm {same : ι → ι → Bool} (hs : Equivalence fun x y => same x y = true) {l m : List (ι × Nat)} (h : l.Perm m)
    (hd : l.Pairwise fun p q => same p.1 q.1 = false) (id : ι) :
    (l.find? fun p => same p.1 id) = m.find? fun p => same p.1 id := by
  induction h with
  | nil => rfl
  | cons x _ ih =>
    rw [List.find?_cons, List.find?_cons, ih (List.pairwise_cons.mp hd).2]
  | swap x y l =>
    rw [List.find?_cons, List.find?_cons, List.find?_cons, List.find?_cons]
    have hxy := (List.pairwise_cons.mp hd).1 x (by simp)
    cases hx : same x.1 id with
    | false => rfl
    | true =>
      cases hy : same y.1 id with
      | false => rfl
      | true =>
        have := hs.trans hy (hs.symm hx)
        rw [hxy] at this
        cases this
  | trans h1 _ ih1 ih2 =>
    rw [ih1 hd]
    refine ih2 (h1.pairwise hd ?_)
    intro p q hpq
    by_contra hc
    rw [Bool.not_eq_false] at hc
    have := hs.symm hc
    rw [hpq] at this
    cases this

theorem treeDict_standsFor {lt : ι → ι → Bool} (hirr : ∀ x, lt x x = false)
    (htr : ∀ x y z, lt x y = true → lt y z = true → lt x z = true)
    (hsame : ∀ x y z, mapSame lt x y = true → mapSame lt y z = true → mapSame lt x z = true)
    {bal : SearchTree ι → SearchTree ι} (hbal : ∀ t, (bal t).inorder = t.inorder) :
    StandsFor (treeDict lt bal) (mapSame lt)
      (fun t l => t.inorder.Perm l ∧ t.inorder.Pairwise fun p q => lt p.1 q.1 = true) := by
  have hs : Equivalence fun x y => mapSame lt x y = true :=
    ⟨fun x => by simp [mapSame, hirr], fun {x y} hxy => (Bool.and_comm _ _).trans hxy, fun {x y z} => hsame x y z⟩
  refine ⟨⟨List.Perm.refl _, List.Pairwise.nil⟩, fun {d l} h id => ?_, fun h => h.1.length_eq, fun h => h.1.map _,
    fun {d l} h id a hno => ?_, fun {d l} h id => ?_⟩
  · show SearchTree.find lt d id = _
    rw [SearchTree.find_inorder hirr htr hsame id d h.2, find_perm hs h.1 (h.2.imp fun hpq => by simp [mapSame, hpq])]
  · obtain ⟨x, y, e1, e2, e3, e4⟩ := SearchTree.put_inorder htr id a d h.2 (fun p hp => hno p (h.1.mem_iff.mp hp))
    show ((bal (d.put lt id a)).inorder.Perm _) ∧ _
    rw [hbal, e2]
    have hp := h.1
    have hso := h.2
    rw [e1] at hp hso
    refine ⟨(List.perm_middle.trans (hp.cons _)).trans (List.perm_append_singleton _ _).symm, ?_⟩
    show List.Pairwise _ ((bal (d.put lt id a)).inorder)
    rw [hbal, e2]
    rw [List.pairwise_append] at hso ⊢
    refine ⟨hso.1, List.pairwise_cons.mpr ⟨e4, hso.2.1⟩, fun p hp q hq => ?_⟩
    rcases List.mem_cons.mp hq with rfl | hq
    · exact e3 p hp
    · exact hso.2.2 p hp q hq
  · show ((bal (d.cut lt id)).inorder.Perm _) ∧ List.Pairwise _ ((bal (d.cut lt id)).inorder)
    rw [hbal, SearchTree.cut_inorder hirr htr hsame id d h.2]
    exact ⟨h.1.filter _, h.2.filter _⟩

/-! ### `std::unordered_map` -/

theorem buckets_perm (f : ι × Nat → Nat) (l : List (ι × Nat)) (n : Nat) :
    ((List.range n).flatMap fun j => l.filter fun p => f p = j).Perm (l.filter fun p => f p < n) := by
  induction n with
  | zero => simp
  | succ n ih =>
    rw [List.range_succ, List.flatMap_append]
    simp only [List.flatMap_cons, List.flatMap_nil, List.append_nil]
    refine (ih.append_right _).trans ?_
    have h := List.filter_append_perm (fun p => decide (f p < n)) (l.filter fun p => f p < n + 1)
    refine List.Perm.trans ?_ h
    rw [List.filter_filter, List.filter_filter]
    refine List.Perm.of_eq ?_
    congr 1
    · apply List.filter_congr
      intro p _
      by_cases h : f p < n
      · have : f p < n + 1 := by omega
        simp [h, this]
      · simp [h]
    · apply List.filter_congr
      intro p _
      by_cases h : f p = n
      · simp [h]
      · by_cases h' : f p < n
        · simp [h, h']
        · have : ¬f p < n + 1 := by omega
          simp [h, this]

theorem add_perm (g : Nat → List (ι × Nat)) (x : ι × Nat) (j n : Nat) :
    ((List.range n).flatMap fun i => if i = j then x :: g i else g i).Perm
      (if j < n then x :: (List.range n).flatMap g else (List.range n).flatMap g) := by
  induction n with
  | zero => simp
  | succ n ih =>
    rw [List.range_succ, List.flatMap_append, List.flatMap_append]
    simp only [List.flatMap_cons, List.flatMap_nil, List.append_nil]
    refine (ih.append_right _).trans ?_
    by_cases h : j < n
    · have h2 : n ≠ j := by omega
      have h3 : j < n + 1 := by omega
      rw [if_pos h, if_neg h2, if_pos h3]
      exact List.Perm.refl _
    · rw [if_neg h]
      by_cases h' : n = j
      · rw [if_pos h', if_pos (by omega)]
        exact List.perm_middle
      · rw [if_neg h', if_neg (by omega)]

theorem hashDict_standsFor {hash : ι → Nat} {eq : ι → ι → Bool} (hs : Equivalence fun x y => eq x y = true)
    (hh : ∀ x y, eq x y = true → hash x = hash y) {grow : Nat → Nat → Nat} (hg : ∀ k n, 0 < grow k n) :
    StandsFor (hashDict hash eq grow) eq
      (fun t l => t.pairs.Perm l ∧ 0 < t.count ∧ (∀ j < t.count, ∀ p ∈ t.bucket j, hash p.1 % t.count = j) ∧
        l.Pairwise fun p q => eq p.1 q.1 = false) := by
  have hsymf : ∀ x y, eq x y = false → eq y x = false := by
    intro x y h
    by_contra hc
    rw [Bool.not_eq_false] at hc
    have := hs.symm hc
    rw [h] at this
    cases this
  refine ⟨⟨?_, Nat.one_pos, fun j _ p hp => absurd hp (by simp [hashDict]), List.Pairwise.nil⟩, fun {d l} h id => ?_, fun h => h.1.length_eq,
    fun h => h.1.map _, fun {d l} h id a hno => ?_, fun {d l} h id => ?_⟩
  · exact List.Perm.of_eq rfl
  · obtain ⟨hp, hpos, hb, hd⟩ := h
    have hd' : d.pairs.Pairwise fun p q => eq p.1 q.1 = false := hp.symm.pairwise hd (fun {p q} h => hsymf _ _ h)
    rw [← find_perm hs hp hd']
    show ((d.bucket (hash id % d.count)).find? fun p => eq p.1 id).map Prod.snd = _
    have hlt : hash id % d.count < d.count := Nat.mod_lt _ hpos
    have hmem : ∀ p, p ∈ d.pairs ↔ ∃ j < d.count, p ∈ d.bucket j := by
      intro p; simp [HashTable.pairs]
    cases h1 : (d.bucket (hash id % d.count)).find? fun p => eq p.1 id with
    | none =>
      rw [List.find?_eq_none] at h1
      rw [(List.find?_eq_none).mpr]
      intro p hp'
      obtain ⟨j, hj, hpj⟩ := (hmem p).mp hp'
      intro he
      have := hb j hj p hpj
      rw [hh _ _ he] at this
      subst this
      exact h1 p hpj he
    | some q =>
      have hq1 : eq q.1 id = true := List.find?_some (p := fun p : ι × Nat => eq p.1 id) h1
      have hq2 : q ∈ d.pairs := (hmem q).mpr ⟨_, hlt, List.mem_of_find?_eq_some h1⟩
      cases h2 : d.pairs.find? fun p => eq p.1 id with
      | none =>
        rw [List.find?_eq_none] at h2
        exact absurd hq1 (h2 q hq2)
      | some r =>
        have hr1 : eq r.1 id = true := List.find?_some (p := fun p : ι × Nat => eq p.1 id) h2
        have hr2 : r ∈ d.pairs := List.mem_of_find?_eq_some h2
        by_cases hqr : q = r
        · rw [hqr]
        · have : Std.Symm fun p q : ι × Nat => eq p.1 q.1 = false := ⟨fun _ _ h => hsymf _ _ h⟩
          have h3 := hd'.forall hq2 hr2 hqr
          have h4 := hs.trans hq1 (hs.symm hr1)
          rw [h3] at h4
          cases h4
  · obtain ⟨hp, hpos, hb, hd⟩ := h
    have hn := hg d.pairs.length d.count
    generalize hN : grow d.pairs.length d.count = n at hn
    have hput : (hashDict hash eq grow).insert d id a =
        ⟨n, fun j => if j = hash id % n then (id, a) :: (d.pairs.filter fun p => hash p.1 % n = j)
          else d.pairs.filter fun p => hash p.1 % n = j⟩ := by
      show HashTable.put hash grow d id a = _
      simp only [HashTable.put, HashTable.rehash, hN]
    rw [hput]
    refine ⟨?_, hn, fun j hj p hpj => ?_, ?_⟩
    · show ((List.range n).flatMap fun j => if j = hash id % n then (id, a) :: (d.pairs.filter fun p => hash p.1 % n = j)
          else d.pairs.filter fun p => hash p.1 % n = j).Perm _
      have h1 := add_perm (fun j => d.pairs.filter fun p => hash p.1 % n = j) (id, a) (hash id % n) n
      rw [if_pos (Nat.mod_lt _ hn)] at h1
      refine h1.trans ?_
      have h2 := buckets_perm (fun p => hash p.1 % n) d.pairs n
      have h3 : (d.pairs.filter fun p => decide (hash p.1 % n < n)) = d.pairs := by
        rw [List.filter_eq_self]
        intro p _
        simpa using Nat.mod_lt _ hn
      rw [h3] at h2
      exact ((h2.trans hp).cons _).trans (List.perm_append_singleton _ _).symm
    · simp only at hpj hj ⊢
      by_cases hj' : j = hash id % n
      · rw [if_pos hj'] at hpj
        rcases List.mem_cons.mp hpj with rfl | hpj
        · exact hj'.symm
        · simpa using (List.mem_filter.mp hpj).2
      · rw [if_neg hj'] at hpj
        simpa using (List.mem_filter.mp hpj).2
    · rw [List.pairwise_append]
      refine ⟨hd, List.pairwise_singleton _ _, fun p hp q hq => ?_⟩
      rw [List.mem_singleton.mp hq]
      exact hno p hp
  · obtain ⟨hp, hpos, hb, hd⟩ := h
    have hbucket : ∀ j < d.count, (if j = hash id % d.count then (d.bucket j).filter fun p => !eq p.1 id else d.bucket j) =
        (d.bucket j).filter fun p => !eq p.1 id := by
      intro j hj
      by_cases hj' : j = hash id % d.count
      · rw [if_pos hj']
      · rw [if_neg hj', eq_comm, List.filter_eq_self]
        intro p hpj
        cases he : eq p.1 id with
        | false => rfl
        | true =>
          have := hb j hj p hpj
          rw [hh _ _ he] at this
          exact absurd this.symm hj'
    refine ⟨?_, hpos, fun j hj p hpj => ?_, hd.filter _⟩
    · show ((List.range d.count).flatMap fun j => if j = hash id % d.count then (d.bucket j).filter fun p => !eq p.1 id else d.bucket j).Perm _
      refine List.Perm.trans (List.Perm.of_eq ?_) (hp.filter _)
      rw [HashTable.pairs, List.filter_flatMap]
      rw [List.flatMap_def, List.flatMap_def]
      congr 1
      apply List.map_congr_left
      intro j hj
      exact hbucket j (List.mem_range.mp hj)
    · have hpj' : p ∈ (if j = hash id % d.count then (d.bucket j).filter fun p => !eq p.1 id else d.bucket j) := hpj
      rw [hbucket j hj] at hpj'
      exact hb j hj p (List.mem_filter.mp hpj').1

end Wite.Collections
