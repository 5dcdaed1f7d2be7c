import Verif.Lemmas.ItemCollection
import Verif.Spec.CollectionMove

/-!
# Lemmas about several collections: a call on one collection leaves the objects of the others alone
-/

namespace Wite.Collections.ItemCollection

open Wite.Spec.ItemCollection

variable {ι α : Type} [DecidableEq ι]

/-- More objects on the heap. -/
def ext (h : Nat → Option α) (s : ItemCollection ι α) : ItemCollection ι α := { s with heap := fun a => (s.heap a).or (h a) }

/-- The additional objects have addresses of their own. -/
def Apart (h : Nat → Option α) (s : ItemCollection ι α) : Prop :=
  (∀ a, s.heap a ≠ none → h a = none) ∧ ∀ a, s.next ≤ a → h a = none

/-- `y` does with more objects on the heap what `x` does without, unless that is undefined. -/
def FramedAt {β : Type} (x y : St (ItemCollection ι α) β) (s : ItemCollection ι α) (h : Nat → Option α) : Prop :=
  Apart h s → (x.run s).1 ≠ .ub → y.run (ext h s) = ((x.run s).1, ext h (x.run s).2) ∧ Apart h (x.run s).2

/-- The same, everywhere. -/
def Framed {β : Type} (x : St (ItemCollection ι α) β) : Prop := ∀ s h, FramedAt x x s h

theorem framed_pure {β : Type} (a : β) : Framed (pure a : St (ItemCollection ι α) β) := fun _ _ ha _ => ⟨rfl, ha⟩

theorem framed_throw {β : Type} (e : Exc) : Framed (St.throw e : St (ItemCollection ι α) β) := fun _ _ ha _ => ⟨rfl, ha⟩

theorem framedAt_bind {β γ : Type} {x x' : St (ItemCollection ι α) β} {f f' : β → St (ItemCollection ι α) γ}
    {s : ItemCollection ι α} {h : Nat → Option α} (hx : FramedAt x x' s h)
    (hf : ∀ a s', x.run s = (.ok a, s') → FramedAt (f a) (f' a) s' h) : FramedAt (x >>= f) (x' >>= f') s h := by
  intro ha hu
  have hb : (x >>= f).run s = _ := St.run_bind x f s
  rw [hb] at hu ⊢
  rcases hr : x.run s with ⟨o, s'⟩
  have hx' := hx ha
  rw [hr] at hx' hu
  cases o with
  | ok a =>
    obtain ⟨h1, h2⟩ := hx' (by simp)
    rw [St.run_bind_ok h1]
    exact hf a s' hr h2 hu
  | throw e =>
    obtain ⟨h1, h2⟩ := hx' (by simp)
    rw [St.run_bind_throw h1]
    exact ⟨rfl, h2⟩
  | ub => exact absurd rfl hu
  | terminate =>
    obtain ⟨h1, h2⟩ := hx' (by simp)
    rw [St.run_bind, h1]
    exact ⟨rfl, h2⟩
  | diverge =>
    obtain ⟨h1, h2⟩ := hx' (by simp)
    rw [St.run_bind, h1]
    exact ⟨rfl, h2⟩

theorem framed_bind {β γ : Type} {x : St (ItemCollection ι α) β} {f : β → St (ItemCollection ι α) γ} (hx : Framed x)
    (hf : ∀ a, Framed (f a)) : Framed (x >>= f) := fun s h => framedAt_bind (hx s h) (fun a s' _ => hf a s' h)

theorem framedAt_get {β : Type} {f f' : ItemCollection ι α → St (ItemCollection ι α) β} {s : ItemCollection ι α}
    {h : Nat → Option α} (hf : FramedAt (f s) (f' (ext h s)) s h) : FramedAt (St.get >>= f) (St.get >>= f') s h := by
  intro ha hu
  rw [St.run_bind_ok (St.run_get _)] at hu ⊢
  rw [St.run_bind_ok (St.run_get _)]
  exact hf ha hu

theorem framedAt_set {s t t' : ItemCollection ι α} {h : Nat → Option α} (ht : Apart h s → t' = ext h t)
    (ha : Apart h s → Apart h t) : FramedAt (St.set t) (St.set t') s h := by
  intro hs _
  refine ⟨?_, ha hs⟩
  rw [ht hs]; rfl

theorem framed_request (mem : Site → Nat → Bool) (site : Site) : Framed (request mem site : St (ItemCollection ι α) Bool) :=
  fun _ _ ha _ => ⟨rfl, ha⟩

theorem framed_newItem (mem : Site → Nat → Bool) (x : α) : Framed (newItem mem x : St (ItemCollection ι α) Nat) := by
  intro s h
  refine framedAt_bind (framed_request mem .item s h) (fun ok s' _ => ?_)
  cases ok with
  | false => exact framed_throw _ s' h
  | true =>
    refine framedAt_get ?_
    refine framedAt_bind (framedAt_set (fun ha => ?_) (fun ha => ?_)) (fun _ s'' _ => framed_pure _ s'' h)
    · have := ha.2 s'.next (Nat.le_refl _)
      simp only [ext, mk.injEq, and_true]
      funext a
      by_cases hn : a = s'.next <;> simp [hn]
    · refine ⟨fun a => ?_, fun a hn => ha.2 a (Nat.le_of_succ_le hn)⟩
      by_cases hn : a = s'.next
      · intro _; exact ha.2 a (by omega)
      · simp only [hn, if_false]; exact ha.1 a

theorem framed_free (a : Nat) : Framed (free a : St (ItemCollection ι α) Unit) := by
  intro s h ha hu
  cases hx : s.heap a with
  | none => simp [free, St.run, hx] at hu
  | some x =>
    have hn : h a = none := ha.1 a (by simp [hx])
    have h1 : (free a).run s = (.ok (), { s with heap := fun b => if b = a then none else s.heap b }) := by
      simp [free, St.run, hx]
    rw [h1]
    refine ⟨?_, fun b => ?_, ha.2⟩
    · have e : (free a).run (ext h s) = (.ok (), { ext h s with heap := fun b => if b = a then none else (ext h s).heap b }) := by
        simp [free, St.run, ext, hx]
      rw [e]
      simp only [ext, Prod.mk.injEq, true_and, mk.injEq, and_true]
      funext b
      by_cases hb : b = a <;> simp [hb, hn]
    · by_cases hb : b = a
      · simp [hb]
      · simp only [hb, if_false]; exact ha.1 b

theorem framed_deref (a : Nat) : Framed (deref a : St (ItemCollection ι α) α) := by
  intro s h ha hu
  cases hx : s.heap a with
  | none => simp [deref, St.run, hx] at hu
  | some x => simp [deref, St.run, hx, ext, ha]

theorem framed_mapInsert (mem : Site → Nat → Bool) (id : ι) (a : Nat) :
    Framed (mapInsert mem id a : St (ItemCollection ι α) Bool) := by
  intro s h
  refine framedAt_get ?_
  show FramedAt _ (match ItemCollection.mapFind s.items id with | some _ => _ | none => _) s h
  cases ItemCollection.mapFind s.items id with
  | some _ => exact framed_bind (framed_free a) (fun _ => framed_pure _) s h
  | none =>
    refine framedAt_bind (framed_request mem .node s h) (fun ok s' _ => ?_)
    cases ok with
    | false => exact framed_bind (framed_free a) (fun _ => framed_throw _) s' h
    | true =>
      exact framedAt_get (framedAt_bind (framedAt_set (fun _ => rfl) (fun ha => ha)) (fun _ s'' _ => framed_pure _ s'' h))

theorem framed_mapErase (id : ι) : Framed (mapErase id : St (ItemCollection ι α) Unit) := by
  intro s h
  refine framedAt_get ?_
  show FramedAt _ (match ItemCollection.mapFind s.items id with | none => _ | some _ => _) s h
  cases ItemCollection.mapFind s.items id with
  | none => exact framed_pure _ s h
  | some a => exact framedAt_bind (framedAt_set (fun _ => rfl) (fun ha => ha)) (fun _ s' _ => framed_free a s' h)

theorem framed_pushBack (mem : Site → Nat → Bool) (a : Nat) : Framed (pushBack mem a : St (ItemCollection ι α) Unit) := by
  intro s h
  refine framedAt_bind (framed_request mem .order s h) (fun ok s' _ => ?_)
  cases ok with
  | false => exact framed_throw _ s' h
  | true => exact framedAt_get (framedAt_set (fun _ => rfl) (fun ha => ha))

theorem framed_each {β γ : Type} {f : β → St (ItemCollection ι α) γ} (hf : ∀ x, Framed (f x)) (xs : List β) : Framed (each f xs) := by
  induction xs with
  | nil => exact framed_pure _
  | cons x xs ih => exact framed_bind (hf x) (fun _ => framed_bind ih (fun _ => framed_pure _))

theorem framed_assertSizes (b : Build) : Framed (assertSizes b : St (ItemCollection ι α) Unit) := fun _ _ ha _ => ⟨rfl, ha⟩

theorem framed_tryUncheckedInsert (b : Build) (mem : Site → Nat → Bool) (idOf : α → ι) (a : Nat) :
    Framed (tryUncheckedInsert b mem idOf a) := by
  refine framed_bind (framed_deref a) (fun x => framed_bind (framed_mapInsert mem _ a) (fun inserted => ?_))
  have tail : Framed (assertSizes b >>= fun _ => (pure inserted : St (ItemCollection ι α) Bool)) :=
    framed_bind (framed_assertSizes b) (fun _ => framed_pure _)
  cases inserted with
  | false => exact tail
  | true => exact framed_bind (framed_pushBack mem a) (fun _ => tail)

theorem framed_uncheckedInsert (b : Build) (mem : Site → Nat → Bool) (idOf : α → ι) (a : Nat) :
    Framed (uncheckedInsert b mem idOf a) :=
  framed_bind (framed_deref a) (fun _ => framed_bind (framed_mapInsert mem _ a) (fun _ =>
    framed_bind (framed_pushBack mem a) (fun _ => framed_assertSizes b)))

theorem framed_insert (b : Build) (mem : Site → Nat → Bool) (idOf : α → ι) (x : α) : Framed (insert b mem idOf x) := by
  intro s h
  refine framedAt_get ?_
  show FramedAt _ (if s.contains (idOf x) then _ else _) s h
  split
  · exact framed_throw _ s h
  · exact framed_bind (framed_newItem mem x) (fun a => framed_uncheckedInsert b mem idOf a) s h

theorem framed_tryInsert (b : Build) (mem : Site → Nat → Bool) (idOf : α → ι) (x : α) : Framed (tryInsert b mem idOf x) :=
  framed_bind (framed_newItem mem x) (fun a => framed_tryUncheckedInsert b mem idOf a)

theorem framed_findOrdered (idOf : α → ι) (id : ι) (as : List Nat) : Framed (findOrdered idOf id as) := by
  induction as with
  | nil => exact framed_pure _
  | cons a as ih =>
    refine framed_bind (framed_deref a) (fun x => ?_)
    split
    · exact framed_pure _
    · exact framed_bind ih (fun _ => framed_pure _)

theorem framed_erase (idOf : α → ι) (id : ι) : Framed (erase idOf id) := by
  intro s h
  refine framedAt_get ?_
  refine framedAt_bind (framed_findOrdered idOf id s.ordered s h) (fun r s' _ => ?_)
  cases r with
  | none => exact framed_pure _ s' h
  | some i =>
    exact framedAt_get (framedAt_bind (framedAt_set (fun _ => rfl) (fun ha => ha))
      (fun _ s'' _ => framed_bind (framed_mapErase id) (fun _ => framed_pure _) s'' h))

theorem framed_emplace (b : Build) (mem : Site → Nat → Bool) (idOf : α → ι) (x : α) : Framed (emplace b mem idOf x) := by
  refine framed_bind (framed_newItem mem x) (fun a => framed_bind (framed_tryUncheckedInsert b mem idOf a) (fun r => ?_))
  cases r with
  | false => exact framed_throw _
  | true => exact framed_pure _

theorem framed_exciseOrdered (b : Build) (a : Nat) : Framed (exciseOrdered b a : St (ItemCollection ι α) Unit) := by
  intro s h
  refine framedAt_get ?_
  show FramedAt _ (match s.ordered.findIdx? (· = a), b with | none, .debug => _ | none, .aborting => _ | none, .release => _ | some _, _ => _) s h
  cases s.ordered.findIdx? (· = a) with
  | none =>
    cases b with
    | debug => exact framed_bind (framed_free a) (fun _ => framed_throw _) s h
    | aborting => exact fun ha _ => ⟨rfl, ha⟩
    | release => exact fun _ hu => absurd rfl hu
  | some i => exact framedAt_set (fun _ => rfl) (fun ha => ha)

theorem framed_excise (b : Build) (id : ι) : Framed (excise b id : St (ItemCollection ι α) (Option Nat)) := by
  intro s h
  refine framedAt_get ?_
  show FramedAt _ (match ItemCollection.mapFind s.items id with | none => _ | some _ => _) s h
  cases ItemCollection.mapFind s.items id with
  | none => exact framed_pure _ s h
  | some a =>
    exact framedAt_bind (framedAt_set (fun _ => rfl) (fun ha => ha))
      (fun _ s' _ => framed_bind (framed_exciseOrdered b a) (fun _ => framed_pure _) s' h)

theorem framed_clear : Framed (clear : St (ItemCollection ι α) Unit) := by
  intro s h
  refine framedAt_get ?_
  exact framedAt_bind (framed_each (fun p => framed_free p.2) s.items s h)
    (fun _ s' _ => framedAt_get (framedAt_set (fun _ => rfl) (fun ha => ha)))

theorem framed_modify (id : ι) (f : α → α) : Framed (modify id f : St (ItemCollection ι α) Unit) := by
  intro s h ha hu
  cases hm : ItemCollection.mapFind s.items id with
  | none => simp [modify, St.run, hm, ext, ha]
  | some a =>
    cases hx : s.heap a with
    | none => simp [modify, St.run, hm, hx] at hu
    | some x =>
      have h1 : (modify id f).run s = (.ok (), { s with heap := fun b => if b = a then some (f x) else s.heap b }) := by
        simp [modify, St.run, hm, hx]
      rw [h1]
      refine ⟨?_, fun b => ?_, ha.2⟩
      · have e : (modify id f).run (ext h s) =
            (.ok (), { ext h s with heap := fun b => if b = a then some (f x) else (ext h s).heap b }) := by
          simp [modify, St.run, ext, hm, hx]
        rw [e]
        simp only [ext, Prod.mk.injEq, true_and, mk.injEq, and_true]
        funext b
        by_cases hb : b = a <;> simp [hb]
      · by_cases hb : b = a
        · intro _; rw [hb]; exact ha.1 a (by simp [hx])
        · simp only [hb, if_false]; exact ha.1 b

theorem framed_drop (a : Nat) : Framed (drop a : St (ItemCollection ι α) Unit) := by
  intro s h
  refine framedAt_get ?_
  show FramedAt _ (if a ∈ s.outside then _ else _) s h
  split
  · exact framedAt_bind (framedAt_set (fun _ => rfl) (fun ha => ha)) (fun _ s' _ => framed_free a s' h)
  · exact framed_pure _ s h

theorem framed_step (b : Build) (mem : Site → Nat → Bool) (idOf : α → ι) (op : Op ι α) :
    Framed (ItemCollection.step b mem idOf op) := by
  cases op with
  | insert x => exact framed_bind (framed_insert b mem idOf x) (fun _ => framed_pure _)
  | insertRange xs =>
    exact framed_bind (framed_bind (framed_each (framed_tryInsert b mem idOf) xs) (fun _ => framed_pure _)) (fun _ => framed_pure _)
  | insertAll xs =>
    exact framed_bind (framed_bind (framed_each (framed_insert b mem idOf) xs) (fun _ => framed_pure _)) (fun _ => framed_pure _)
  | tryInsert x => exact framed_bind (framed_tryInsert b mem idOf x) (fun _ => framed_pure _)
  | tryInsertAll xs => exact framed_bind (framed_each (framed_tryInsert b mem idOf) xs) (fun _ => framed_pure _)
  | erase id => exact framed_bind (framed_erase idOf id) (fun _ => framed_pure _)
  | eraseAll ids => exact framed_bind (framed_each (framed_erase idOf) ids) (fun _ => framed_pure _)
  | emplace x => exact framed_bind (framed_emplace b mem idOf x) (fun _ => framed_pure _)
  | excise id => exact framed_bind (framed_excise b id) (fun _ => framed_pure _)
  | clear => exact framed_bind framed_clear (fun _ => framed_pure _)
  | modify id f => exact framed_bind (framed_modify id f) (fun _ => framed_pure _)
  | drop a => exact framed_bind (framed_drop a) (fun _ => framed_pure _)

end Wite.Collections.ItemCollection

namespace Wite.Collections.Colls

open Wite.Spec.ItemCollection Wite.Collections.ItemCollection

variable {n : Nat} {ι α : Type} [DecidableEq ι]

/-- The invariant; `es i` are the addresses and items of collection `i` in order. -/
structure Inv (idOf : α → ι) (es : Fin n → List (Nat × α)) (w : Colls n ι α) : Prop where
  ordered : ∀ i, (w.colls i).ordered = (es i).map Prod.fst
  items : ∀ i, (w.colls i).items = (es i).map fun e => (idOf e.2, e.1)
  heap : ∀ i, ∀ e ∈ es i, w.heap e.1 = some e.2
  ids : ∀ i, ((es i).map fun e => idOf e.2).Nodup
  addrs : ∀ i, ((es i).map Prod.fst).Nodup
  live : ∀ a, w.heap a ≠ none ↔ (∃ i, a ∈ (w.colls i).ordered) ∨ a ∈ w.outside
  disj : ∀ i a, a ∈ (w.colls i).ordered → a ∉ w.outside
  apart : ∀ i j a, i ≠ j → a ∈ (w.colls i).ordered → a ∉ (w.colls j).ordered
  next : ∀ a, w.next ≤ a → w.heap a = none

theorem inv_empty (idOf : α → ι) : Inv idOf (fun _ => []) (empty : Colls n ι α) :=
  ⟨fun _ => rfl, fun _ => rfl, by simp, by simp, by simp, by simp [empty], by simp [empty], by simp [empty], by simp [empty]⟩

open Classical in
/-- Collection `i` with only its own objects and those of the caller on the heap. -/
noncomputable def small (w : Colls n ι α) (i : Fin n) : ItemCollection ι α :=
  { w.view i with heap := fun a => if a ∈ (w.colls i).ordered ∨ a ∈ w.outside then w.heap a else none }

open Classical in
/-- The other objects. -/
noncomputable def rest (w : Colls n ι α) (i : Fin n) : Nat → Option α :=
  fun a => if a ∈ (w.colls i).ordered ∨ a ∈ w.outside then none else w.heap a

theorem ext_small (w : Colls n ι α) (i : Fin n) : ext (w.rest i) (w.small i) = w.view i := by
  simp only [ext, small, rest, view, ItemCollection.mk.injEq, and_true]
  funext a
  split <;> simp

theorem apart_small {idOf : α → ι} {es : Fin n → List (Nat × α)} {w : Colls n ι α} (h : Inv idOf es w) (i : Fin n) :
    Apart (w.rest i) (w.small i) := by
  refine ⟨fun a ha => ?_, fun a ha => ?_⟩
  · simp only [small, rest] at ha ⊢
    split
    · rfl
    · rename_i hn; simp [hn] at ha
  · simp only [rest]
    split
    · rfl
    · exact h.next a ha

theorem Inv.small {idOf : α → ι} {es : Fin n → List (Nat × α)} {w : Colls n ι α} (h : Inv idOf es w) (i : Fin n) :
    ItemCollection.Inv idOf (es i) (w.small i) := by
  refine ⟨h.ordered i, h.items i, ?_, h.ids i, h.addrs i, ?_, h.disj i, ?_⟩
  · intro e he
    have hm : e.1 ∈ (w.colls i).ordered := by rw [h.ordered i]; exact List.mem_map_of_mem he
    simp [Colls.small, hm, h.heap i e he]
  · intro a
    have hl := h.live a
    simp only [Colls.small, view]
    constructor
    · intro ha
      by_contra hn
      simp [hn] at ha
    · intro ha
      rw [if_pos ha]
      rw [hl]
      rcases ha with ha | ha
      · exact .inl ⟨i, ha⟩
      · exact .inr ha
  · intro a ha
    simp only [Colls.small]
    split
    · exact h.next a ha
    · rfl

theorem rest_iff {idOf : α → ι} {es : Fin n → List (Nat × α)} {w : Colls n ι α} (h : Inv idOf es w) (i : Fin n) (a : Nat) :
    w.rest i a ≠ none ↔ ∃ j, j ≠ i ∧ a ∈ (w.colls j).ordered := by
  simp only [rest]
  split
  · rename_i ha
    refine ⟨fun hh => absurd rfl hh, ?_⟩
    rintro ⟨j, hj, hm⟩
    rcases ha with ha | ha
    · exact absurd ha (h.apart j i a hj hm)
    · exact absurd ha (h.disj j a hm)
  · rename_i ha
    rw [h.live a]
    constructor
    · rintro (⟨j, hj⟩ | hj)
      · exact ⟨j, fun hji => ha (.inl (hji ▸ hj)), hj⟩
      · exact absurd (.inr hj) ha
    · rintro ⟨j, -, hj⟩
      exact .inl ⟨j, hj⟩

/-- The invariant after a call on collection `i`. -/
theorem Inv.back {idOf : α → ι} {es : Fin n → List (Nat × α)} {w : Colls n ι α} (h : Inv idOf es w) (i : Fin n)
    {s : ItemCollection ι α} {es' : List (Nat × α)} (hs : ItemCollection.Inv idOf es' s) (ha : Apart (w.rest i) s) :
    Inv idOf (fun k => if k = i then es' else es k) (w.back i (ext (w.rest i) s)) := by
  have hother : ∀ j, j ≠ i → ∀ a, a ∈ (w.colls j).ordered → w.rest i a = w.heap a ∧ s.heap a = none := by
    intro j hj a hm
    have hr : w.rest i a ≠ none := (rest_iff h i a).2 ⟨j, hj, hm⟩
    refine ⟨?_, ?_⟩
    · simp only [rest] at hr ⊢
      split
      · rename_i hh; simp [hh] at hr
      · rfl
    · by_contra hn
      exact hr (ha.1 a hn)
  have hown : ∀ a, a ∈ s.ordered ∨ a ∈ s.outside → w.rest i a = none := fun a hm => ha.1 a ((hs.live a).2 hm)
  refine ⟨?_, ?_, ?_, ?_, ?_, ?_, ?_, ?_, ?_⟩
  · intro k
    simp only [Colls.back, ext]
    split
    · exact hs.ordered
    · exact h.ordered k
  · intro k
    simp only [Colls.back, ext]
    split
    · exact hs.items
    · exact h.items k
  · intro k e he
    simp only [Colls.back, ext]
    by_cases hk : k = i
    · simp only [hk, if_true] at he
      simp [hs.heap e he]
    · simp only [hk, if_false] at he
      have hm : e.1 ∈ (w.colls k).ordered := by rw [h.ordered k]; exact List.mem_map_of_mem he
      obtain ⟨h1, h2⟩ := hother k hk e.1 hm
      simp [h1, h2, h.heap k e he]
  · intro k
    split
    · exact hs.ids
    · exact h.ids k
  · intro k
    split
    · exact hs.addrs
    · exact h.addrs k
  · intro a
    simp only [Colls.back, ext]
    have h1 : (s.heap a).or (w.rest i a) ≠ none ↔ s.heap a ≠ none ∨ w.rest i a ≠ none := by
      cases s.heap a <;> simp
    rw [h1, hs.live a, rest_iff h i a]
    constructor
    · rintro ((hm | hm) | ⟨j, hj, hm⟩)
      · exact .inl ⟨i, by simpa using hm⟩
      · exact .inr hm
      · exact .inl ⟨j, by simpa [hj] using hm⟩
    · rintro (⟨j, hm⟩ | hm)
      · by_cases hj : j = i
        · exact .inl (.inl (by simpa [hj] using hm))
        · exact .inr ⟨j, hj, by simpa [hj] using hm⟩
      · exact .inl (.inr hm)
  · intro k a hm
    simp only [Colls.back, ext] at hm ⊢
    by_cases hk : k = i
    · simp only [hk, if_true] at hm
      exact hs.disj a hm
    · simp only [hk, if_false] at hm
      intro ho
      have := (hs.live a).2 (.inr ho)
      exact this (hother k hk a hm).2
  · intro k l a hkl hk hl
    simp only [Colls.back, ext] at hk hl
    by_cases h1 : k = i
    · by_cases h2 : l = i
      · exact hkl (h1.trans h2.symm)
      · simp only [h1, h2, if_true, if_false] at hk hl
        exact (hs.live a).2 (.inl hk) (hother l h2 a hl).2
    · by_cases h2 : l = i
      · simp only [h1, h2, if_true, if_false] at hk hl
        exact (hs.live a).2 (.inl hl) (hother k h1 a hk).2
      · simp only [h1, h2, if_false] at hk hl
        exact h.apart k l a hkl hk hl
  · intro a hn
    simp only [Colls.back, ext] at hn ⊢
    simp [hs.next a hn, ha.2 a hn]

/-- A member function that is framed does on a collection among others what it does alone. -/
theorem on_run {β : Type} {x : St (ItemCollection ι α) β} (hx : Framed x) {idOf : α → ι} {es : Fin n → List (Nat × α)}
    {w : Colls n ι α} (h : Inv idOf es w) (i : Fin n) {o : Outcome β} {s : ItemCollection ι α} (hr : x.run (w.small i) = (o, s))
    (hu : o ≠ .ub) : (on i x).run w = (o, w.back i (ext (w.rest i) s)) ∧ Apart (w.rest i) s := by
  have := hx (w.small i) (w.rest i) (apart_small h i) (by rw [hr]; exact hu)
  rw [hr, ext_small] at this
  refine ⟨?_, this.2⟩
  show (((x.run (w.view i)).1, w.back i (x.run (w.view i)).2) : Outcome β × Colls n ι α) = _
  rw [this.1]

omit [DecidableEq ι] in
theorem view_back (w : Colls n ι α) (i : Fin n) (s : ItemCollection ι α) : (w.back i s).view i = s := by
  simp [view, back]

/-- The observers see the same with more objects on the heap. -/
theorem shows_ext {idOf : α → ι} {s : ItemCollection ι α} {l : List α} {h : Nat → Option α} (ha : Apart h s)
    (hs : Shows idOf s l) : Shows idOf (ext h s) l := by
  obtain ⟨h1, h2, h3, h4, h5, h6⟩ := hs
  have hd : ∀ a, (deref a s).1 ≠ .ub → (deref a (ext h s)).1 = (deref a s).1 := by
    intro a hu
    have := (framed_deref a s h ha hu).1
    exact (congrArg Prod.fst this :)
  refine ⟨h1, h2, ?_, h4, fun id => ?_, fun i => ?_⟩
  · have := (framed_each (fun a => framed_deref a) s.ordered s h ha (by
      show s.iterate ≠ _
      rw [h3]; simp)).1
    rw [← h3]
    exact (congrArg Prod.fst this :)
  · rw [← h5 id]
    have h5' := h5 id
    simp only [atId] at h5' ⊢
    show (match ItemCollection.mapFind s.items id with | some a => (deref a (ext h s)).1 | none => _) = _
    cases hm : ItemCollection.mapFind s.items id with
    | none => rfl
    | some a =>
      refine hd a ?_
      simp only [hm] at h5'
      rw [h5']
      split <;> simp
  · rw [← h6 i]
    have h6' := h6 i
    simp only [atIndex] at h6' ⊢
    show (match s.ordered[i]? with | some a => (deref a (ext h s)).1 | none => _) = _
    cases hm : s.ordered[i]? with
    | none => rfl
    | some a =>
      refine hd a ?_
      simp only [hm] at h6'
      rw [h6']
      split <;> simp

theorem Inv.shows {idOf : α → ι} {es : Fin n → List (Nat × α)} {w : Colls n ι α} (h : Inv idOf es w) (i : Fin n) :
    Shows idOf (w.view i) ((es i).map Prod.snd) := by
  rw [← ext_small]
  exact shows_ext (apart_small h i) (h.small i).shows

theorem matches_ext {s : ItemCollection ι α} {h : Nat → Option α} {o : Outcome ItemCollection.Ret}
    {r : Outcome (Spec.ItemCollection.Ret α)} (hm : Matches s o r) : Matches (ext h s) o r := by
  unfold Matches at hm ⊢
  split at hm <;> simp_all [ext]

/-- The state after a move. -/
def moved (w : Colls n ι α) (i j : Fin n) : Colls n ι α :=
  { w with
    heap := fun a => if a ∈ (w.colls i).ordered then none else w.heap a
    colls := fun k => if k = j then ⟨[], []⟩ else if k = i then w.colls j else w.colls k }

theorem Inv.snds {idOf : α → ι} {es : Fin n → List (Nat × α)} {w : Colls n ι α} (h : Inv idOf es w) (i : Fin n) :
    (w.colls i).items.map Prod.snd = (w.colls i).ordered := by
  rw [h.items, h.ordered, List.map_map]; rfl

theorem Inv.nodup {idOf : α → ι} {es : Fin n → List (Nat × α)} {w : Colls n ι α} (h : Inv idOf es w) (i : Fin n) :
    (w.colls i).ordered.Nodup := by
  rw [h.ordered]; exact h.addrs i

theorem move_run {idOf : α → ι} {es : Fin n → List (Nat × α)} {w : Colls n ι α} (h : Inv idOf es w) (i j : Fin n) :
    (move i j).run w = (.ok (), w.moved i j) := by
  have hsnd := h.snds i
  obtain ⟨us, hus⟩ := freeAll_run (w.view i).items (w.view i) (by rw [show (w.view i).items = (w.colls i).items from rfl, hsnd]; exact h.nodup i) (by
    intro p hp
    rw [show (w.view i).heap = w.heap from rfl, h.live]
    left
    refine ⟨i, ?_⟩
    rw [← hsnd]
    exact List.mem_map_of_mem hp)
  rw [show (w.view i).items.map Prod.snd = (w.colls i).ordered from hsnd] at hus
  have hc : (ItemCollection.clear).run (w.view i) =
      (.ok (), { w.view i with heap := fun a => if a ∈ (w.colls i).ordered then none else w.heap a, items := [], ordered := [] }) := by
    rw [ItemCollection.clear, St.run_bind_ok (St.run_get _), St.run_bind_ok hus]
    rfl
  have hon : (on i ItemCollection.clear).run w =
      (.ok (), w.back i { w.view i with heap := fun a => if a ∈ (w.colls i).ordered then none else w.heap a, items := [], ordered := [] }) := by
    show ((((ItemCollection.clear).run (w.view i)).1, w.back i ((ItemCollection.clear).run (w.view i)).2) : Outcome Unit × Colls n ι α) = _
    rw [hc]
  rw [move, St.run_bind_ok hon, St.run_bind_ok (St.run_get _)]
  simp only [bind, St.bind, St.run, setMembers, moved, view, back]
  congr 2
  funext k
  by_cases hi : k = i
  · subst hi
    by_cases hj : k = j
    · subst hj; simp
    · simp [hj, Ne.symm hj]
  · by_cases hj : k = j
    · subst hj; simp [hi]
    · simp [hi, hj]

theorem Inv.moved {idOf : α → ι} {es : Fin n → List (Nat × α)} {w : Colls n ι α} (h : Inv idOf es w) (i j : Fin n) :
    Inv idOf (fun k => if k = j then [] else if k = i then es j else es k) (w.moved i j) := by
  have hmem : ∀ k a, a ∈ ((w.moved i j).colls k).ordered → a ∉ (w.colls i).ordered ∧
      ∃ l, l ≠ i ∧ a ∈ (w.colls l).ordered ∧ k ≠ j ∧ (l = if k = i then j else k) := by
    intro k a ha
    simp only [Colls.moved] at ha
    by_cases h1 : k = j
    · simp [h1] at ha
    · by_cases h2 : k = i
      · simp only [h2, if_true] at ha
        have hji : j ≠ i := fun hh => h1 (h2.trans hh.symm)
        rw [if_neg (Ne.symm hji)] at ha
        exact ⟨h.apart j i a hji ha, j, hji, ha, h1, by simp [h2]⟩
      · simp only [h1, h2, if_false] at ha
        exact ⟨h.apart k i a h2 ha, k, h2, ha, h1, by simp [h2]⟩
  refine ⟨?_, ?_, ?_, ?_, ?_, ?_, ?_, ?_, ?_⟩
  · intro k
    simp only [Colls.moved]
    split
    · rfl
    · split
      · exact h.ordered j
      · exact h.ordered k
  · intro k
    simp only [Colls.moved]
    split
    · rfl
    · split
      · exact h.items j
      · exact h.items k
  · intro k e he
    have hk : e.1 ∈ ((w.moved i j).colls k).ordered := by
      simp only [Colls.moved]
      split
      · rename_i hh; simp [hh] at he
      · rename_i hh
        rw [if_neg hh] at he
        split
        · rename_i h2; rw [if_pos h2] at he; rw [h.ordered]; exact List.mem_map_of_mem he
        · rename_i h2; rw [if_neg h2] at he; rw [h.ordered]; exact List.mem_map_of_mem he
    have := (hmem k _ hk).1
    simp only [Colls.moved, this, if_false]
    split at he
    · cases he
    · split at he
      · exact h.heap j e he
      · exact h.heap k e he
  · intro k
    split
    · simp
    · split
      · exact h.ids j
      · exact h.ids k
  · intro k
    split
    · simp
    · split
      · exact h.addrs j
      · exact h.addrs k
  · intro a
    constructor
    · intro ha
      by_cases hm : a ∈ (w.colls i).ordered
      · simp [Colls.moved, hm] at ha
      · simp only [Colls.moved, hm, if_false] at ha
        rcases (h.live a).1 ha with ⟨k, hk⟩ | ho
        · left
          have hki : k ≠ i := fun hh => hm (hh ▸ hk)
          by_cases hkj : k = j
          · refine ⟨i, ?_⟩
            have : i ≠ j := fun hh => hki (hkj.trans hh.symm)
            simp only [Colls.moved, if_neg this, if_true]
            exact hkj ▸ hk
          · refine ⟨k, ?_⟩
            simpa [Colls.moved, hki, hkj] using hk
        · exact .inr ho
    · rintro (⟨k, hk⟩ | ho)
      · obtain ⟨h1, l, -, h2, -⟩ := hmem k a hk
        simp only [Colls.moved, h1, if_false]
        exact (h.live a).2 (.inl ⟨l, h2⟩)
      · have : a ∉ (w.colls i).ordered := fun hh => h.disj i a hh ho
        simp only [Colls.moved, this, if_false]
        exact (h.live a).2 (.inr ho)
  · intro k a hk
    obtain ⟨-, l, -, h2, -⟩ := hmem k a hk
    exact h.disj l a h2
  · intro k l a hkl hk hl
    obtain ⟨-, k', -, h2, h3, h4⟩ := hmem k a hk
    obtain ⟨-, l', -, h6, h7, h8⟩ := hmem l a hl
    refine h.apart k' l' a ?_ h2 h6
    rw [h4, h8]
    split <;> split
    · rename_i x y; exact absurd (x.trans y.symm) hkl
    · exact fun hh => h7 hh.symm
    · exact h3
    · exact hkl
  · intro a ha
    simp only [Colls.moved]
    split
    · rfl
    · exact h.next a ha

/-- A call that does not change the id of an item. -/
def Op.keepsIds (idOf : α → ι) : Op n ι α → Prop
  | .call _ op => op.keepsIds idOf
  | .move _ _ => True

theorem step_refines {mem : Site → Nat → Bool} (hmem : ∀ st n, mem st n = true) (b : Build) {idOf : α → ι}
    {es : Fin n → List (Nat × α)} {w : Colls n ι α} (h : Inv idOf es w) (op : Op n ι α) (hop : op.keepsIds idOf) :
    ∃ o w' es', (Colls.step b mem idOf op).run w = (o, w') ∧ Inv idOf es' w' ∧
      (fun i => (es' i).map Prod.snd) = (Spec.CollectionMove.step idOf op fun i => (es i).map Prod.snd).2 ∧
      Matches (w'.view (Spec.CollectionMove.target op)) o (Spec.CollectionMove.step idOf op fun i => (es i).map Prod.snd).1 := by
  cases op with
  | call i op =>
    obtain ⟨o, s', es', h1, h2, h3, h4⟩ := ItemCollection.step_refines hmem b (h.small i) op hop
    have hu : o ≠ .ub := by
      rintro rfl
      simp [Matches] at h4
    obtain ⟨h5, h6⟩ := on_run (framed_step b mem idOf op) h i h1 hu
    refine ⟨o, _, _, h5, h.back i h2 h6, ?_, ?_⟩
    · funext k
      simp only [Spec.CollectionMove.step]
      split
      · exact h3
      · rfl
    · rw [Spec.CollectionMove.target, view_back]
      exact matches_ext h4
  | move i j =>
    refine ⟨.ok .unit, w.moved i j, _, ?_, h.moved i j, ?_, trivial⟩
    · rw [Colls.step, St.run_bind_ok (move_run h i j), St.run_pure]
    · funext k
      simp only [Spec.CollectionMove.step]
      split
      · rfl
      · split <;> rfl

theorem agrees {mem : Site → Nat → Bool} (hmem : ∀ st n, mem st n = true) (b : Build) {idOf : α → ι} (ops : List (Op n ι α)) :
    ∀ {es : Fin n → List (Nat × α)} {w : Colls n ι α}, Inv idOf es w → (∀ op ∈ ops, op.keepsIds idOf) →
    Spec.CollectionMove.Agrees b mem idOf ops w fun i => (es i).map Prod.snd := by
  induction ops with
  | nil => intro es w h _; exact h.shows
  | cons op ops ih =>
    intro es w h hops
    obtain ⟨o, w', es', h1, h2, h3, h4⟩ := step_refines hmem b h op (hops op (by simp))
    refine ⟨h.shows, ?_, ?_⟩
    · rw [h1]; exact h4
    · rw [h1, ← h3]
      exact ih h2 fun op hop => hops op (by simp [hop])

theorem reachable_inv {mem : Site → Nat → Bool} (hmem : ∀ st n, mem st n = true) (b : Build) {idOf : α → ι} (ops : List (Op n ι α)) :
    ∀ {es : Fin n → List (Nat × α)} {w : Colls n ι α}, Inv idOf es w → (∀ op ∈ ops, op.keepsIds idOf) →
    ∃ w' es', St.history (Colls.step b mem idOf) ops w = some w' ∧ Inv idOf es' w' := by
  induction ops with
  | nil => intro es w h _; exact ⟨w, es, rfl, h⟩
  | cons op ops ih =>
    intro es w h hops
    obtain ⟨o, w', es', h1, h2, h3, h4⟩ := step_refines hmem b h op (hops op (by simp))
    have h1' : Colls.step b mem idOf op w = (o, w') := h1
    obtain ⟨w'', es'', h5, h6⟩ := ih h2 fun op hop => hops op (by simp [hop])
    refine ⟨w'', es'', ?_, h6⟩
    cases o with
    | ok r => simp only [St.history, h1']; exact h5
    | throw e => simp only [St.history, h1']; exact h5
    | ub => simp [Matches] at h4
    | terminate => simp [Matches] at h4
    | diverge => simp [Matches] at h4

end Wite.Collections.Colls
