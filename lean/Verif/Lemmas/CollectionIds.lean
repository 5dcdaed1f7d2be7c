import Verif.Spec.CollectionIds
import Verif.Lemmas.ItemCollection

/-!
# Lemmas about collections whose ids have two comparisons

Equivalent ids are mapped to one key; on keys the collection is that of `Model/ItemCollection.lean`, except for `erase`.
-/

namespace Wite.Collections.ItemCollection

open Wite.Spec.ItemCollection Wite.Spec.CollectionIds

variable {ι κ α : Type} [DecidableEq κ]

/-- The collection with its ids replaced by keys. -/
def keys (q : ι → κ) (s : ItemCollection ι α) : ItemCollection κ α :=
  { heap := s.heap, next := s.next, allocs := s.allocs, items := s.items.map fun p => (q p.1, p.2), ordered := s.ordered
    outside := s.outside }

/-- A call over ids does what the other does over keys. -/
def Over (q : ι → κ) {β : Type} (x : St (ItemCollection ι α) β) (y : St (ItemCollection κ α) β) : Prop :=
  ∀ s, y.run (keys q s) = ((x.run s).1, keys q (x.run s).2)

namespace Over

variable {q : ι → κ} {β γ : Type}

theorem pure (a : β) : Over q (α := α) (pure a) (pure a) := fun _ => rfl

theorem throw (e : Exc) : Over q (α := α) (St.throw e : St _ β) (St.throw e) := fun _ => rfl

theorem ub : Over q (α := α) (St.ub : St _ β) St.ub := fun _ => rfl

theorem lift (o : Outcome β) : Over q (α := α) (St.lift o) (St.lift o) := fun _ => rfl

theorem bind {x : St (ItemCollection ι α) β} {y : St (ItemCollection κ α) β} {f : β → St (ItemCollection ι α) γ}
    {g : β → St (ItemCollection κ α) γ} (h : Over q x y) (hf : ∀ a, Over q (f a) (g a)) : Over q (x >>= f) (y >>= g) := by
  intro s
  have := h s
  rw [St.run_bind, St.run_bind, this]
  rcases hx : x.run s with ⟨o, s'⟩
  cases o with
  | ok a => exact hf a s'
  | _ => rfl

theorem get {f : ItemCollection ι α → St (ItemCollection ι α) γ} {g : ItemCollection κ α → St (ItemCollection κ α) γ}
    (h : ∀ s, Over q (f s) (g (keys q s))) : Over q (St.get >>= f) (St.get >>= g) := by
  intro s
  exact h s s

theorem set {t : ItemCollection ι α} {u : ItemCollection κ α} (h : u = keys q t) : Over q (St.set t) (St.set u) := by
  subst h; intro s; rfl

theorem ite {p : Prop} [Decidable p] {x x' : St (ItemCollection ι α) β} {y y' : St (ItemCollection κ α) β}
    (h : Over q x y) (h' : Over q x' y') : Over q (if p then x else x') (if p then y else y') := by
  split
  · exact h
  · exact h'

theorem each {f : β → St (ItemCollection ι α) γ} {g : β → St (ItemCollection κ α) γ} (h : ∀ a, Over q (f a) (g a)) (l : List β) :
    Over q (ItemCollection.each f l) (ItemCollection.each g l) := by
  induction l with
  | nil => exact pure []
  | cons a l ih => exact bind (h a) fun y => bind ih fun ys => pure _

theorem request (mem : Site → Nat → Bool) (site : Site) : Over q (α := α) (request mem site) (request mem site) := fun _ => rfl

theorem newItem (mem : Site → Nat → Bool) (x : α) : Over q (newItem mem x) (newItem mem x) := by
  refine bind (request _ _) fun a => ite (get fun s => ?_) (throw _)
  exact bind (set rfl) fun _ => pure _

theorem free (a : Nat) : Over q (α := α) (free a) (free a) := by
  intro s
  show (match s.heap a with | none => _ | some _ => _) = _
  simp only [St.run, ItemCollection.free]
  cases s.heap a <;> rfl

theorem deref (a : Nat) : Over q (α := α) (deref a) (deref a) := by
  intro s
  show (match s.heap a with | none => _ | some _ => _) = _
  simp only [St.run, ItemCollection.deref]
  cases s.heap a <;> rfl

theorem pushBack (mem : Site → Nat → Bool) (a : Nat) : Over q (α := α) (pushBack mem a) (pushBack mem a) :=
  bind (request _ _) fun _ => ite (get fun _ => set rfl) (throw _)

theorem assertSizes (b : Build) : Over q (α := α) (assertSizes b) (assertSizes b) := by
  intro s
  simp [St.run, ItemCollection.assertSizes, keys]

theorem exciseOrdered (b : Build) (a : Nat) : Over q (α := α) (exciseOrdered b a) (exciseOrdered b a) := by
  refine get fun s => ?_
  simp only [keys]
  cases s.ordered.findIdx? (· = a) with
  | none =>
    cases b with
    | debug => exact bind (free _) fun _ => throw _
    | aborting => exact lift _
    | release => exact ub
  | some i => exact set rfl

theorem drop (a : Nat) : Over q (α := α) (drop a) (drop a) :=
  get fun _ => ite (bind (set rfl) fun _ => free _) (pure _)

theorem clear : Over q (α := α) clear clear := by
  refine get fun s => bind ?_ fun _ => get fun s => set rfl
  intro t
  have : ∀ (l : List (ι × Nat)), Over q (α := α) (ItemCollection.each (fun p => ItemCollection.free p.2) l)
      (ItemCollection.each (fun p => ItemCollection.free p.2) (l.map fun p => (q p.1, p.2))) := by
    intro l
    induction l with
    | nil => exact pure []
    | cons p l ih => exact bind (free _) fun _ => bind ih fun _ => pure _
  exact this s.items t

variable {c : IdCmp ι} (hq : ∀ x y, c.same x y = decide (q x = q y))
include hq

theorem mapFind (items : List (ι × Nat)) (id : ι) :
    ItemCollection.mapFind (items.map fun p => (q p.1, p.2)) (q id) = mapFindC c items id := by
  rw [ItemCollection.mapFind, mapFindC, List.find?_map, Option.map_map]
  simp only [Function.comp_def, hq]

theorem filter (items : List (ι × Nat)) (id : ι) :
    (items.map fun p => (q p.1, p.2)).filter (fun p => p.1 ≠ q id) =
      (items.filter fun p => !c.same p.1 id).map fun p => (q p.1, p.2) := by
  rw [List.filter_map]
  congr 1
  apply List.filter_congr
  intro p _
  simp [hq]

theorem mapInsert (mem : Site → Nat → Bool) (id : ι) (a : Nat) :
    Over q (α := α) (mapInsertC c mem id a) (mapInsert mem (q id) a) := by
  refine get fun s => ?_
  simp only [keys, mapFind hq]
  cases mapFindC c s.items id with
  | some _ => exact bind (free _) fun _ => pure _
  | none =>
    refine bind (request _ _) fun r => ?_
    cases r with
    | true =>
      refine get fun t => bind (set ?_) fun _ => pure _
      simp [keys]
    | false => exact bind (free _) fun _ => throw _

theorem mapErase (id : ι) : Over q (α := α) (mapEraseC c id) (mapErase (q id)) := by
  refine get fun s => ?_
  simp only [keys, mapFind hq]
  cases mapFindC c s.items id with
  | none => exact pure _
  | some a =>
    refine bind (set ?_) fun _ => free _
    simp only [keys, filter hq]

theorem contains (s : ItemCollection ι α) (id : ι) : (keys q s).contains (q id) = s.containsC c id := by
  simp only [ItemCollection.contains, containsC, keys, mapFind hq]

theorem tryUncheckedInsert (b : Build) (mem : Site → Nat → Bool) (idOf : α → ι) (a : Nat) :
    Over q (tryUncheckedInsertC c b mem idOf a) (tryUncheckedInsert b mem (fun x => q (idOf x)) a) := by
  refine bind (deref _) fun _ => bind (mapInsert hq _ _ _) fun r => ?_
  cases r with
  | true => exact bind (pushBack _ _) fun _ => bind (assertSizes _) fun _ => pure _
  | false => exact bind (assertSizes _) fun _ => pure _

theorem uncheckedInsert (b : Build) (mem : Site → Nat → Bool) (idOf : α → ι) (a : Nat) :
    Over q (uncheckedInsertC c b mem idOf a) (uncheckedInsert b mem (fun x => q (idOf x)) a) :=
  bind (deref _) fun _ => bind (mapInsert hq _ _ _) fun _ => bind (pushBack _ _) fun _ => assertSizes _

theorem insert (b : Build) (mem : Site → Nat → Bool) (idOf : α → ι) (x : α) :
    Over q (insertC c b mem idOf x) (insert b mem (fun x => q (idOf x)) x) := by
  refine get fun s => ?_
  rw [contains hq]
  exact ite (throw _) (bind (newItem _ _) fun _ => uncheckedInsert hq _ _ _ _)

theorem tryInsert (b : Build) (mem : Site → Nat → Bool) (idOf : α → ι) (x : α) :
    Over q (tryInsertC c b mem idOf x) (tryInsert b mem (fun x => q (idOf x)) x) :=
  bind (newItem _ _) fun _ => tryUncheckedInsert hq _ _ _ _

theorem emplace (b : Build) (mem : Site → Nat → Bool) (idOf : α → ι) (x : α) :
    Over q (emplaceC c b mem idOf x) (emplace b mem (fun x => q (idOf x)) x) :=
  bind (newItem _ _) fun _ => bind (tryUncheckedInsert hq _ _ _ _) fun _ => ite (pure _) (throw _)

theorem excise (b : Build) (id : ι) : Over q (α := α) (exciseC c b id) (excise b (q id)) := by
  refine get fun s => ?_
  simp only [keys, mapFind hq]
  cases mapFindC c s.items id with
  | none => exact pure _
  | some a =>
    refine bind (set ?_) fun _ => bind (exciseOrdered _ _) fun _ => pure _
    simp only [keys, filter hq]

theorem modify (id : ι) (f : α → α) : Over q (modifyC c id f) (modify (q id) f) := by
  intro s
  simp only [St.run, ItemCollection.modify, modifyC, keys, mapFind hq]
  cases mapFindC c s.items id with
  | none => rfl
  | some a =>
    cases h : s.heap a with
    | none => simp [h]
    | some x => simp [h]

end Over

/-- The call over keys. -/
def Op.keys (q : ι → κ) : Op ι α → Op κ α
  | .insert x => .insert x
  | .insertRange xs => .insertRange xs
  | .insertAll xs => .insertAll xs
  | .tryInsert x => .tryInsert x
  | .tryInsertAll xs => .tryInsertAll xs
  | .erase id => .erase (q id)
  | .eraseAll ids => .eraseAll (ids.map q)
  | .emplace x => .emplace x
  | .excise id => .excise (q id)
  | .clear => .clear
  | .modify id f => .modify (q id) f
  | .drop a => .drop a

/-- Is it one of the forms of `erase`? -/
def Op.erases : Op ι α → Bool
  | .erase _ => true
  | .eraseAll _ => true
  | _ => false

section
variable {q : ι → κ} {c : IdCmp ι} (hq : ∀ x y, c.same x y = decide (q x = q y))
include hq

theorem over_step (b : Build) (mem : Site → Nat → Bool) (idOf : α → ι) (op : Op ι α) (h : op.erases = false) :
    Over q (stepC c b mem idOf op) (step b mem (fun x => q (idOf x)) (op.keys q)) := by
  cases op with
  | insert x => exact .bind (.insert hq _ _ _ _) fun _ => .pure _
  | insertRange xs => exact .bind (.bind (.each (fun _ => .tryInsert hq _ _ _ _) _) fun _ => .pure _) fun _ => .pure _
  | insertAll xs => exact .bind (.bind (.each (fun _ => .insert hq _ _ _ _) _) fun _ => .pure _) fun _ => .pure _
  | tryInsert x => exact .bind (.tryInsert hq _ _ _ _) fun _ => .pure _
  | tryInsertAll xs => exact .bind (.each (fun _ => .tryInsert hq _ _ _ _) _) fun _ => .pure _
  | erase id => cases h
  | eraseAll ids => cases h
  | emplace x => exact .bind (.emplace hq _ _ _ _) fun _ => .pure _
  | excise id => exact .bind (.excise hq _ _) fun _ => .pure _
  | clear => exact .bind .clear fun _ => .pure _
  | modify id f => exact .bind (.modify hq _ _) fun _ => .pure _
  | drop a => exact .bind (.drop _) fun _ => .pure _

theorem hasC_eq (idOf : α → ι) (l : List α) (id : ι) : hasC c idOf l id = has (fun x => q (idOf x)) l (q id) := by
  simp only [hasC, has, hq]

theorem addAllC_eq (idOf : α → ι) (xs : List α) : ∀ l, addAllC c idOf l xs = addAll (fun x => q (idOf x)) l xs := by
  induction xs with
  | nil => intro l; rfl
  | cons x xs ih => intro l; simp only [addAllC, addAll, hasC_eq hq, ih, add]

theorem addUntilC_eq (idOf : α → ι) (xs : List α) : ∀ l, addUntilC c idOf l xs = addUntil (fun x => q (idOf x)) l xs := by
  induction xs with
  | nil => intro l; rfl
  | cons x xs ih => intro l; simp only [addUntilC, addUntil, hasC_eq hq, ih]

theorem stepL_eq (idOf : α → ι) (op : Op ι α) (l : List α) (h : op.erases = false) :
    stepL c idOf op l = Spec.ItemCollection.step (fun x => q (idOf x)) (op.keys q) l := by
  cases op with
  | erase id => cases h
  | eraseAll ids => cases h
  | _ => simp [stepL, Spec.ItemCollection.step, Op.keys, hasC_eq hq, addAllC_eq hq, addUntilC_eq hq, add, remove, hq]

theorem Inv.showsC {idOf : α → ι} {es : List (Nat × α)} {s : ItemCollection ι α} (h : Inv (fun x => q (idOf x)) es (keys q s)) :
    ShowsC c idOf s (es.map Prod.snd) := by
  obtain ⟨h1, h2, h3, h4, h5, h6⟩ := h.shows
  refine ⟨?_, ?_, ?_, ?_, ?_, ?_⟩
  · simpa [size, keys] using h1
  · have : (keys q s).isEmpty = s.isEmpty := by
      simp [isEmpty, keys]
    rw [← this]; exact h2
  · have := Over.each (q := q) (fun a => Over.deref (α := α) a) s.ordered s
    have h3' : ((each deref s.ordered).run (keys q s)).1 = .ok (es.map Prod.snd) := h3
    rw [this] at h3'
    exact h3'
  · intro id
    rw [← Over.contains hq, h4, hasC_eq hq]
  · intro id
    have := h5 (q id)
    simp only [atId, keys, Over.mapFind hq] at this
    rw [atIdC]
    have hp : (fun x => c.same (idOf x) id) = fun x => decide (q (idOf x) = q id) := by funext x; rw [hq]
    rw [hp]
    refine Eq.trans ?_ this
    cases mapFindC c s.items id with
    | none => rfl
    | some a =>
      simp only [deref]
      cases s.heap a <;> rfl
  · intro i
    refine Eq.trans ?_ (h6 i)
    simp only [atIndex, keys]
    cases s.ordered[i]? with
    | none => rfl
    | some a =>
      simp only [deref]
      cases s.heap a <;> rfl

omit [DecidableEq κ] hq in
theorem findOrderedC_run (c : IdCmp ι) (idOf : α → ι) (id : ι) (s : ItemCollection ι α) (es : List (Nat × α))
    (h : ∀ e ∈ es, s.heap e.1 = some e.2) :
    (findOrderedC c idOf id (es.map Prod.fst)).run s = (.ok (es.findIdx? fun e => c.eq id (idOf e.2)), s) := by
  induction es with
  | nil => rfl
  | cons e es ih =>
    have he := h e (by simp)
    have ih := ih fun e he => h e (by simp [he])
    have hd : (deref e.1).run s = (.ok e.2, s) := by simp [deref, St.run, he]
    rw [List.map_cons, findOrderedC, St.run_bind_ok hd, List.findIdx?_cons]
    by_cases hid : c.eq id (idOf e.2) = true
    · simp [hid]
    · rw [if_neg hid, St.run_bind_ok ih]
      simp [hid]

/-- If no other key has the key of `id`, then looking for an equal id or an equivalent one comes to the same. -/
theorem eq_iff_key {idOf : α → ι} {es : List (Nat × α)} (hn : (es.map fun e => q (idOf e.2)).Nodup)
    (heq : ∀ x y, c.eq x y = true → c.same x y = true) {id : ι} (h : namesC c idOf (es.map Prod.snd) id = true) :
    ∀ e ∈ es, c.eq id (idOf e.2) = decide (q (idOf e.2) = q id) := by
  simp only [namesC, List.any_map, List.any_eq_true, Function.comp] at h
  obtain ⟨e, he, hid⟩ := h
  have hk : q id = q (idOf e.2) := by
    have := heq _ _ hid
    rw [hq] at this
    simpa using this
  intro e' he'
  by_cases hc : q (idOf e'.2) = q id
  · have : e' = e := List.inj_on_of_nodup_map hn he' he (hc.trans hk)
    subst this
    simp [hid, hc]
  · have : c.eq id (idOf e'.2) = false := by
      by_contra hne
      rw [Bool.not_eq_false] at hne
      have := heq _ _ hne
      rw [hq] at this
      exact hc (by simpa using (of_decide_eq_true this).symm)
    simp [this, hc]

theorem eraseC_run {idOf : α → ι} {es : List (Nat × α)} {s : ItemCollection ι α} (h : Inv (fun x => q (idOf x)) es (keys q s))
    (heq : ∀ x y, c.eq x y = true → c.same x y = true) (id : ι) :
    ∃ s' es', (eraseC c idOf id).run s = (.ok (namesC c idOf (es.map Prod.snd) id), s') ∧
      Inv (fun x => q (idOf x)) es' (keys q s') ∧ es'.map Prod.snd = dropEq c idOf (es.map Prod.snd) id := by
  have ho : s.ordered = es.map Prod.fst := h.ordered
  have hf := findOrderedC_run c idOf id s es h.heap
  rw [← ho] at hf
  by_cases hh : namesC c idOf (es.map Prod.snd) id = true
  · have hk := eq_iff_key hq h.ids heq hh
    have hidx : es.findIdx? (fun e => c.eq id (idOf e.2)) = es.findIdx? (fun e => decide (q (idOf e.2) = q id)) := by
      clear hf hh ho h
      induction es with
      | nil => rfl
      | cons e es ih =>
        rw [List.findIdx?_cons, List.findIdx?_cons, hk e (by simp), ih fun e he => hk e (by simp [he])]
    have hhas : has (fun x => q (idOf x)) (es.map Prod.snd) (q id) = true := by
      simp only [namesC, List.any_map, List.any_eq_true, Function.comp] at hh
      obtain ⟨e, he, hid⟩ := hh
      simp only [has, List.any_map, List.any_eq_true, Function.comp]
      exact ⟨e, he, by rw [← hk e he]; exact hid⟩
    obtain ⟨t, es', h1, h2, h3, -⟩ := erase_run h (q id)
    rw [hhas] at h1
    have hf' := findOrdered_run (fun x => q (idOf x)) (q id) (keys q s) es h.heap
    rw [← hidx] at hf'
    have hdrop : dropEq c idOf (es.map Prod.snd) id = remove (fun x => q (idOf x)) (es.map Prod.snd) (q id) := by
      rw [dropEq, remove]
      apply List.filter_congr
      intro x hx
      obtain ⟨e, he, rfl⟩ := List.mem_map.1 hx
      rw [hk e he]
      simp
    obtain ⟨i, hi⟩ : ∃ i, es.findIdx? (fun e => c.eq id (idOf e.2)) = some i := by
      rw [← Option.isSome_iff_exists, List.findIdx?_isSome]
      simpa [namesC, List.any_map, Function.comp_def] using hh
    rw [hi] at hf hf'
    have ho' : (keys q s).ordered = es.map Prod.fst := h.ordered
    have hmap : Over q (α := α) (do
        let s ← St.get
        St.set { s with ordered := s.ordered.eraseIdx i }
        mapEraseC c id
        pure true) (do
        let s ← St.get
        St.set { s with ordered := s.ordered.eraseIdx i }
        mapErase (q id)
        pure true) := .get fun _ => .bind (.set rfl) fun _ => .bind (.mapErase hq _) fun _ => .pure _
    have e1 : (eraseC c idOf id).run s = (do
        let s ← St.get
        St.set { s with ordered := s.ordered.eraseIdx i }
        mapEraseC c id
        pure true : St (ItemCollection ι α) Bool).run s := by
      rw [eraseC, St.run_bind_ok (St.run_get s), St.run_bind_ok hf]
    have e2 : (erase (fun x => q (idOf x)) (q id)).run (keys q s) = (do
        let s ← St.get
        St.set { s with ordered := s.ordered.eraseIdx i }
        mapErase (q id)
        pure true : St (ItemCollection κ α) Bool).run (keys q s) := by
      rw [erase, St.run_bind_ok (St.run_get _), ho', St.run_bind_ok hf']
    have := hmap s
    rw [← e1, ← e2, h1] at this
    rcases hr : (eraseC c idOf id).run s with ⟨o, s'⟩
    rw [hr] at this
    simp only [Prod.mk.injEq] at this
    obtain ⟨rfl, rfl⟩ := this
    exact ⟨s', es', by rw [hh], h2, by rw [h3, hdrop]⟩
  · have hh' : namesC c idOf (es.map Prod.snd) id = false := by simpa using hh
    have hnone : ∀ e ∈ es, c.eq id (idOf e.2) = false := by
      simp only [namesC, List.any_map, List.any_eq_false, Function.comp] at hh'
      intro e he
      simpa using hh' e he
    have hidx : es.findIdx? (fun e => c.eq id (idOf e.2)) = none := by
      rw [List.findIdx?_eq_none_iff]
      exact hnone
    rw [hidx] at hf
    refine ⟨s, es, ?_, h, ?_⟩
    · rw [hh', eraseC, St.run_bind_ok (St.run_get s), St.run_bind_ok hf]
      rfl
    · rw [dropEq, eq_comm, List.filter_eq_self]
      intro x hx
      obtain ⟨e, he, rfl⟩ := List.mem_map.1 hx
      simp [hnone e he]

theorem eraseAllC_run {idOf : α → ι} (heq : ∀ x y, c.eq x y = true → c.same x y = true) (ids : List ι) :
    ∀ {es : List (Nat × α)} {s : ItemCollection ι α}, Inv (fun x => q (idOf x)) es (keys q s) →
    ∃ s' es', (each (eraseC c idOf) ids).run s = (.ok (dropAllEq c idOf (es.map Prod.snd) ids).1, s') ∧
      Inv (fun x => q (idOf x)) es' (keys q s') ∧ es'.map Prod.snd = (dropAllEq c idOf (es.map Prod.snd) ids).2 := by
  induction ids with
  | nil => intro es s h; exact ⟨s, es, rfl, h, rfl⟩
  | cons id ids ih =>
    intro es s h
    obtain ⟨s', es', h1, h2, h3⟩ := eraseC_run hq h heq id
    obtain ⟨s'', es'', h4, h5, h6⟩ := ih h2
    rw [h3] at h4 h6
    refine ⟨s'', es'', ?_, h5, h6⟩
    rw [each, St.run_bind_ok h1, St.run_bind_ok h4]
    rfl

theorem stepC_refines {mem : Site → Nat → Bool} (hmem : ∀ st n, mem st n = true) (b : Build) {idOf : α → ι}
    (heq : ∀ x y, c.eq x y = true → c.same x y = true)
    {es : List (Nat × α)} {s : ItemCollection ι α} (h : Inv (fun x => q (idOf x)) es (keys q s)) (op : Op ι α)
    (hop : op.keepsIds idOf) :
    ∃ o s' es', (stepC c b mem idOf op).run s = (o, s') ∧ Inv (fun x => q (idOf x)) es' (keys q s') ∧
      es'.map Prod.snd = (stepL c idOf op (es.map Prod.snd)).2 ∧
      Matches s' o (stepL c idOf op (es.map Prod.snd)).1 := by
  by_cases he : op.erases = true
  · cases op with
    | erase id =>
      obtain ⟨s', es', h1, h2, h3⟩ := eraseC_run hq h heq id
      refine ⟨_, s', es', by rw [stepC, St.run_bind_ok h1, St.run_pure], h2, h3, ?_⟩
      simp [stepL, Matches]
    | eraseAll ids =>
      obtain ⟨s', es', h1, h2, h3⟩ := eraseAllC_run hq heq ids h
      refine ⟨_, s', es', by rw [stepC, eraseAllC, St.run_bind_ok h1, St.run_pure], h2, h3, ?_⟩
      simp [stepL, Matches]
    | _ => cases he
  · have he' : op.erases = false := by simpa using he
    have hk : (op.keys q).keepsIds (fun x => q (idOf x)) := by
      cases op with
      | modify id f => intro x; exact congrArg q (hop x)
      | _ => trivial
    obtain ⟨o, t, es', h1, h2, h3, h4⟩ := step_refines hmem b h (op.keys q) hk
    have ho := over_step hq b mem idOf op he' s
    rw [h1] at ho
    rcases hr : (stepC c b mem idOf op).run s with ⟨o', s'⟩
    rw [hr] at ho
    simp only [Prod.mk.injEq] at ho
    obtain ⟨rfl, rfl⟩ := ho
    rw [← stepL_eq hq idOf op _ he'] at h3 h4
    refine ⟨o, s', es', rfl, h2, h3, ?_⟩
    have hm : ∀ o' : Outcome (Spec.ItemCollection.Ret α), Matches (keys q s') o o' → Matches s' o o' := by
      intro o'
      unfold Matches
      split <;> exact id
    exact hm _ h4

theorem agreesC {mem : Site → Nat → Bool} (hmem : ∀ st n, mem st n = true) (b : Build) {idOf : α → ι}
    (heq : ∀ x y, c.eq x y = true → c.same x y = true) (ops : List (Op ι α)) :
    ∀ {es : List (Nat × α)} {s : ItemCollection ι α}, Inv (fun x => q (idOf x)) es (keys q s) → (∀ op ∈ ops, op.keepsIds idOf) →
    AgreesC c b mem idOf ops s (es.map Prod.snd) := by
  induction ops with
  | nil => intro es s h _; exact h.showsC hq
  | cons op ops ih =>
    intro es s h hops
    obtain ⟨o, s', es', h1, h2, h3, h4⟩ := stepC_refines hq hmem b heq h op (hops op (by simp))
    have h1' : stepC c b mem idOf op s = (o, s') := h1
    refine ⟨h.showsC hq, ?_, ?_⟩
    · rw [h1']; exact h4
    · rw [h1', ← h3]
      exact ih h2 fun op hop => hops op (by simp [hop])

theorem reachable_invC {mem : Site → Nat → Bool} (hmem : ∀ st n, mem st n = true) (b : Build) {idOf : α → ι}
    (heq : ∀ x y, c.eq x y = true → c.same x y = true) (ops : List (Op ι α)) :
    ∀ {es : List (Nat × α)} {s : ItemCollection ι α}, Inv (fun x => q (idOf x)) es (keys q s) → (∀ op ∈ ops, op.keepsIds idOf) →
    ∃ s' es', St.history (stepC c b mem idOf) ops s = some s' ∧ Inv (fun x => q (idOf x)) es' (keys q s') := by
  induction ops with
  | nil => intro es s h _; exact ⟨s, es, rfl, h⟩
  | cons op ops ih =>
    intro es s h hops
    obtain ⟨o, s', es', h1, h2, h3, h4⟩ := stepC_refines hq hmem b heq h op (hops op (by simp))
    have h1' : stepC c b mem idOf op s = (o, s') := h1
    obtain ⟨s'', es'', h5, h6⟩ := ih h2 fun op hop => hops op (by simp [hop])
    refine ⟨s'', es'', ?_, h6⟩
    cases o with
    | ok r => simp only [St.history, h1']; exact h5
    | throw e => simp only [St.history, h1']; exact h5
    | ub => simp [Matches] at h4
    | terminate => simp [Matches] at h4
    | diverge => simp [Matches] at h4

end

end Wite.Collections.ItemCollection
