import Verif.Lemmas.CollectionDict
import Verif.Props.CollectionIds

/-!
# Property C210: the associative container of an `identifiable_item_collection`
-/

namespace Wite.Props

open Wite Wite.Collections Wite.Spec.CollectionDict

variable {δ δ' ι α : Type}

/-- No call of the program changes the id of an item through a reference. -/
private abbrev KeepsIds (idOf : α → ι) (ops : List (ItemCollection.Op ι α)) : Prop :=
  ∀ op ∈ ops, match op with
    | .modify _ f => ∀ x, idOf (f x) = idOf x
    | _ => True

/-- What the calls of a program on an empty collection return or throw. -/
private abbrev results (D : Dict δ ι) (eq : ι → ι → Bool) (b : Build) (mem : Site → Nat → Bool) (idOf : α → ι)
    (ops : List (ItemCollection.Op ι α)) : List (Outcome ItemCollection.Ret) :=
  answers (DictCollection.step D eq b mem idOf) ops (DictCollection.empty D)

/-- The state after a program on an empty collection, if no call had undefined behaviour or ended the program. -/
private abbrev after (D : Dict δ ι) (eq : ι → ι → Bool) (b : Build) (mem : Site → Nat → Bool) (idOf : α → ι)
    (ops : List (ItemCollection.Op ι α)) : Option (DictCollection δ α) :=
  St.history (DictCollection.step D eq b mem idOf) ops (DictCollection.empty D)

private theorem run_alike {D : Dict δ ι} {same eq : ι → ι → Bool} {R : δ → List (ι × Nat) → Prop} (hD : StandsFor D same R)
    (b : Build) (mem : Site → Nat → Bool) (idOf : α → ι) (ops : List (ItemCollection.Op ι α)) (s : DictCollection δ α)
    (t : ItemCollection ι α) (h : Matches R s t) :
    answers (DictCollection.step D eq b mem idOf) ops s = answers (ItemCollection.stepC ⟨same, eq⟩ b mem idOf) ops t ∧
    ((St.history (DictCollection.step D eq b mem idOf) ops s = none ∧
        St.history (ItemCollection.stepC ⟨same, eq⟩ b mem idOf) ops t = none) ∨
      ∃ s' t', St.history (DictCollection.step D eq b mem idOf) ops s = some s' ∧
        St.history (ItemCollection.stepC ⟨same, eq⟩ b mem idOf) ops t = some t' ∧ Matches R s' t') := by
  induction ops generalizing s t with
  | nil => exact ⟨rfl, .inr ⟨s, t, rfl, rfl, h⟩⟩
  | cons op ops ih =>
    obtain ⟨h1, h2⟩ := Matches.step (eq := eq) hD b mem idOf op s t h
    rcases hx : DictCollection.step D eq b mem idOf op s with ⟨o, s'⟩
    rcases hy : ItemCollection.stepC ⟨same, eq⟩ b mem idOf op t with ⟨o', t'⟩
    rw [hx, hy] at h1 h2
    simp only at h1 h2
    subst h1
    simp only [answers, St.history, hx, hy]
    cases o with
    | ok r =>
      obtain ⟨i1, i2⟩ := ih s' t' (h2 trivial)
      exact ⟨congrArg (_ :: ·) i1, i2⟩
    | throw e =>
      obtain ⟨i1, i2⟩ := ih s' t' (h2 trivial)
      exact ⟨congrArg (_ :: ·) i1, i2⟩
    | ub => exact ⟨rfl, .inl ⟨rfl, rfl⟩⟩
    | terminate => exact ⟨rfl, .inl ⟨rfl, rfl⟩⟩
    | diverge => exact ⟨rfl, .inl ⟨rfl, rfl⟩⟩

/-! ## C210 -/

/-- C210: take any two containers that do what a map has to do and tell the same keys apart.  Every program gets the same
answers from the two collections, one of them ends in undefined behaviour exactly if the other does, and at the end they
show the same.  Any `==` of ids, any items whose ids change, any failing allocations. -/
theorem c210 {D : Dict δ ι} {E : Dict δ' ι} {same : ι → ι → Bool} {R : δ → List (ι × Nat) → Prop}
    {R' : δ' → List (ι × Nat) → Prop} (hD : StandsFor D same R) (hE : StandsFor E same R') (eq : ι → ι → Bool) (b : Build)
    (mem : Site → Nat → Bool) (idOf : α → ι) (ops : List (ItemCollection.Op ι α)) :
    results D eq b mem idOf ops =
      results E eq b mem idOf ops ∧
    EndAlike D E (after D eq b mem idOf ops) (after E eq b mem idOf ops) := by
  obtain ⟨a1, a2⟩ := run_alike (eq := eq) hD b mem idOf ops _ _ (matches_empty hD)
  obtain ⟨b1, b2⟩ := run_alike (eq := eq) hE b mem idOf ops _ _ (matches_empty hE)
  refine ⟨a1.trans b1.symm, ?_⟩
  rcases a2 with ⟨e1, e2⟩ | ⟨s, t, e1, e2, hm⟩
  · rcases b2 with ⟨f1, f2⟩ | ⟨s', t', f1, f2, hm'⟩
    · rw [show after D eq b mem idOf ops = none from e1, show after E eq b mem idOf ops = none from f1]; trivial
    · rw [e2] at f2; cases f2
  · rcases b2 with ⟨f1, f2⟩ | ⟨s', t', f1, f2, hm'⟩
    · rw [e2] at f2; cases f2
    · rw [e2] at f2
      cases f2
      rw [show after D eq b mem idOf ops = some s from e1, show after E eq b mem idOf ops = some s' from f1]
      obtain ⟨x1, x2, x3, x4, x5, x6⟩ := hm.shows (eq := eq) hD
      obtain ⟨y1, y2, y3, y4, y5, y6⟩ := hm'.shows (eq := eq) hE
      exact ⟨fun id => (x1 id).trans (y1 id).symm, fun id => (x2 id).trans (y2 id).symm, fun i => (x3 i).trans (y3 i).symm,
        x4.trans y4.symm, x5.trans y5.symm, x6.trans y6.symm⟩

/-- C210: `std::map` with a strict weak order and `std::unordered_map` with an equality and a hash that is the same for equal ids
are such containers, however the one balances its tree and the other grows its table. -/
theorem c210_containers (lt : ι → ι → Bool) (hirr : ∀ x, lt x x = false)
    (htr : ∀ x y z, lt x y = true → lt y z = true → lt x z = true)
    (hinc : ∀ x y z, mapSame lt x y = true → mapSame lt y z = true → mapSame lt x z = true)
    (hash : ι → Nat) (keq : ι → ι → Bool) (hkeq : Equivalence fun x y => keq x y = true)
    (hhash : ∀ x y, keq x y = true → hash x = hash y) (bal : SearchTree ι → SearchTree ι)
    (hbal : ∀ t, (bal t).inorder = t.inorder) (grow : Nat → Nat → Nat) (hgrow : ∀ k n, 0 < grow k n) :
    (∃ R, StandsFor (treeDict lt bal) (mapSame lt) R) ∧ ∃ R, StandsFor (hashDict hash keq grow) keq R :=
  ⟨⟨_, treeDict_standsFor hirr htr hinc hbal⟩, ⟨_, hashDict_standsFor hkeq hhash hgrow⟩⟩

/-- C210 for the two: if two ids are equal for the `std::unordered_map` exactly if neither is less for the `std::map`, every program gets the
same answers from the two collections, and at the end they show the same. -/
theorem c210_map_hash (lt : ι → ι → Bool) (hirr : ∀ x, lt x x = false)
    (htr : ∀ x y z, lt x y = true → lt y z = true → lt x z = true)
    (hinc : ∀ x y z, mapSame lt x y = true → mapSame lt y z = true → mapSame lt x z = true)
    (hash : ι → Nat) (keq : ι → ι → Bool) (hkeq : ∀ x y, keq x y = mapSame lt x y)
    (hhash : ∀ x y, keq x y = true → hash x = hash y) (bal : SearchTree ι → SearchTree ι)
    (hbal : ∀ t, (bal t).inorder = t.inorder) (grow : Nat → Nat → Nat) (hgrow : ∀ k n, 0 < grow k n)
    (eq : ι → ι → Bool) (b : Build) (mem : Site → Nat → Bool) (idOf : α → ι) (ops : List (ItemCollection.Op ι α)) :
    results (treeDict lt bal) eq b mem idOf ops =
      results (hashDict hash keq grow) eq b mem idOf ops ∧
    EndAlike (treeDict lt bal) (hashDict hash keq grow) (after (treeDict lt bal) eq b mem idOf ops) (after (hashDict hash keq grow) eq b mem idOf ops) := by
  have hk : keq = mapSame lt := by funext x y; exact hkeq x y
  have hs : Equivalence fun x y => keq x y = true := by
    rw [hk]
    exact ⟨fun x => by simp [mapSame, hirr], fun {x y} hxy => (Bool.and_comm _ _).trans hxy, fun {x y z} => hinc x y z⟩
  have hE := hashDict_standsFor hs hhash hgrow
  have hD := treeDict_standsFor hirr htr hinc hbal
  rw [← hk] at hD
  exact c210 hD hE eq b mem idOf ops

private theorem agrees_transfer {D : Dict δ ι} {same eq : ι → ι → Bool} {R : δ → List (ι × Nat) → Prop} (hD : StandsFor D same R)
    (b : Build) (mem : Site → Nat → Bool) (idOf : α → ι) (ops : List (ItemCollection.Op ι α)) (s : DictCollection δ α)
    (t : ItemCollection ι α) (l : List α) (h : Matches R s t) (ha : Spec.CollectionIds.AgreesC ⟨same, eq⟩ b mem idOf ops t l) :
    AgreesD D same eq b mem idOf ops s l := by
  have hshow : ∀ (s : DictCollection δ α) (t : ItemCollection ι α) (l : List α), Matches R s t →
      Spec.CollectionIds.ShowsC ⟨same, eq⟩ idOf t l → ShowsD D same idOf s l := by
    intro s t l h hs
    obtain ⟨x1, x2, x3, x4, x5, x6⟩ := h.shows (eq := eq) hD
    obtain ⟨y1, y2, y3, y4, y5, y6⟩ := hs
    exact ⟨x4.trans y1, x5.trans y2, x6.trans y3, fun id => (x1 id).trans (y4 id), fun id => (x2 id).trans (y5 id),
      fun i => (x3 i).trans (y6 i)⟩
  induction ops generalizing s t l with
  | nil => exact hshow s t l h ha
  | cons op ops ih =>
    obtain ⟨a1, a2, a3⟩ := ha
    obtain ⟨h1, h2⟩ := Matches.step (eq := eq) hD b mem idOf op s t h
    rcases hx : DictCollection.step D eq b mem idOf op s with ⟨o, s'⟩
    rcases hy : ItemCollection.stepC ⟨same, eq⟩ b mem idOf op t with ⟨o', t'⟩
    rw [hx, hy] at h1 h2
    rw [hy] at a2 a3
    simp only at h1 h2 a2 a3
    subst h1
    refine ⟨hshow s t l h a1, ?_, ?_⟩
    · rw [hx]
      generalize (Spec.CollectionIds.stepL ⟨same, eq⟩ idOf op l).1 = w at a2
      cases o with
      | ok r =>
        have hm := h2 trivial
        simp only [Spec.ItemCollection.Matches] at a2
        simp only [MatchesD]
        rw [hm.heap, hm.ordered, hm.outside]
        exact a2
      | throw e => cases w <;> exact a2
      | ub => cases w <;> exact a2.elim
      | terminate => cases w <;> exact a2.elim
      | diverge => cases w <;> exact a2.elim
    · rw [hx]
      refine ih s' t' _ (h2 ?_) a3
      cases o with
      | ok r => trivial
      | throw e => trivial
      | ub => exact a2.elim
      | terminate => exact a2.elim
      | diverge => exact a2.elim

/-- C210, what the collection does on any container that does what a map has to do, if ids that are `==` are never different
keys: at every moment of every program without failing allocations in which no item's id changes, it shows the
insertion-ordered list in which no two items have the same key, and answers as that list does. -/
theorem c210_list {D : Dict δ ι} {same eq : ι → ι → Bool} {R : δ → List (ι × Nat) → Prop} (hD : StandsFor D same R)
    (hs : Equivalence fun x y => same x y = true) (heq : ∀ x y, eq x y = true → same x y = true) (b : Build) (idOf : α → ι)
    (ops : List (ItemCollection.Op ι α)) (h : KeepsIds idOf ops) :
    AgreesD D same eq b (fun _ _ => true) idOf ops (DictCollection.empty D) [] :=
  agrees_transfer hD b _ idOf ops _ _ _ (matches_empty hD) (c180_partial ⟨same, eq⟩ hs heq b idOf ops h)

/-- C210, what C180 says about a `std::map` also for a `std::unordered_map` whose equality is that of the ids: in every
program without failing allocations in which no item's id changes nothing is undefined and no assertion fails, and at every moment
`contains(id)` holds exactly if `erase(id)` would return true, exactly if `excise(id)` would return an item, and exactly if `at(id)` would
not throw; and `at(id)` has that id. -/
theorem c210_unordered (hash : ι → Nat) (eq : ι → ι → Bool) (heq : Equivalence fun x y => eq x y = true)
    (hhash : ∀ x y, eq x y = true → hash x = hash y) (grow : Nat → Nat → Nat) (hgrow : ∀ k n, 0 < grow k n) (b : Build)
    (idOf : α → ι) (ops : List (ItemCollection.Op ι α)) (h : KeepsIds idOf ops) :
    ∃ s, after (hashDict hash eq grow) eq b (fun _ _ => true) idOf ops = some s ∧
      ∀ id,
        (DictCollection.erase (hashDict hash eq grow) eq idOf id s).1 = .ok (s.contains (hashDict hash eq grow) id) ∧
        (∃ r, (DictCollection.excise (hashDict hash eq grow) b id s).1 = .ok r ∧
          r.isSome = s.contains (hashDict hash eq grow) id) ∧
        (if s.contains (hashDict hash eq grow) id then
          ∃ x, s.atId (hashDict hash eq grow) id = .ok x ∧ eq id (idOf x) = true
        else ∃ e, s.atId (hashDict hash eq grow) id = .throw e) := by
  have hE := hashDict_standsFor heq hhash hgrow
  have hall := c180_same eq heq b idOf ops h
  obtain ⟨-, b2⟩ := run_alike (eq := eq) hE b (fun _ _ => true) idOf ops _ _ (matches_empty hE)
  obtain ⟨t, e, ht⟩ := hall
  rcases b2 with ⟨-, f2⟩ | ⟨s, t', f1, f2, hm⟩
  · cases f2.symm.trans e
  · cases f2.symm.trans e
    refine ⟨s, f1, fun id => ?_⟩
    obtain ⟨g1, g2, g3⟩ := ht id
    obtain ⟨x1, x2, -⟩ := hm.shows (eq := eq) hE
    rw [x1 id, x2 id]
    refine ⟨(hm.erase (eq := eq) hE idOf id).1.trans g1, ?_, g3⟩
    obtain ⟨r, g4, g5⟩ := g2
    exact ⟨r, (hm.excise (eq := eq) hE b id).1.trans g4, g5⟩

private theorem three_calls (D : Dict δ ι) (eq : ι → ι → Bool) (b : Build) (idOf : α → ι) (x y : α)
    (hxy : eq (idOf y) (idOf x) = true) (h0 : D.find D.empty (idOf x) = none)
    (s1 : D.size (D.insert D.empty (idOf x) 0) = 1) (h1 : D.find (D.insert D.empty (idOf x) 0) (idOf y) = none)
    (s2 : D.size (D.insert (D.insert D.empty (idOf x) 0) (idOf y) 1) = 2)
    (h2 : D.find (D.insert (D.insert D.empty (idOf x) 0) (idOf y) 1) (idOf y) = some 1) :
    results D eq b (fun _ _ => true) idOf [.insert x, .insert y, .erase (idOf y)] = [.ok .unit, .ok .unit, .ok (.flag true)] ∧
    ∃ s, after D eq b (fun _ _ => true) idOf [.insert x, .insert y, .erase (idOf y)] = some s ∧ s.items = D.erase (D.insert (D.insert D.empty (idOf x) 0) (idOf y) 1) (idOf y) ∧
      s.iterate = .ub := by
  let u : DictCollection δ α := ⟨fun a => if a = 0 then some x else none, 1, 3, D.insert D.empty (idOf x) 0, [0], []⟩
  let v : DictCollection δ α := ⟨fun a => if a = 1 then some y else if a = 0 then some x else none, 2, 6,
    D.insert (D.insert D.empty (idOf x) 0) (idOf y) 1, [0, 1], []⟩
  let w : DictCollection δ α := ⟨fun a => if a = 1 then none else if a = 1 then some y else if a = 0 then some x else none, 2, 6,
    D.erase (D.insert (D.insert D.empty (idOf x) 0) (idOf y) 1) (idOf y), [1], []⟩
  have e1 : DictCollection.step D eq b (fun _ _ => true) idOf (.insert x) (DictCollection.empty D) = (.ok .unit, u) := by
    cases b <;> simp [DictCollection.step, DictCollection.insert, DictCollection.contains, DictCollection.empty, DictCollection.newItem,
      DictCollection.request, DictCollection.uncheckedInsert, DictCollection.deref, DictCollection.dictInsert,
      DictCollection.pushBack, DictCollection.assertSizes, Bind.bind, St.bind, St.get, St.set, Pure.pure, St.pure, h0, s1,
      debugAssert, u]
  have e2 : DictCollection.step D eq b (fun _ _ => true) idOf (.insert y) u = (.ok .unit, v) := by
    cases b <;> simp [DictCollection.step, DictCollection.insert, DictCollection.contains, DictCollection.newItem,
      DictCollection.request, DictCollection.uncheckedInsert, DictCollection.deref, DictCollection.dictInsert,
      DictCollection.pushBack, DictCollection.assertSizes, Bind.bind, St.bind, St.get, St.set, Pure.pure, St.pure, h1, s2,
      debugAssert, u, v]
  have e3 : DictCollection.step D eq b (fun _ _ => true) idOf (.erase (idOf y)) v = (.ok (.flag true), w) := by
    simp [DictCollection.step, DictCollection.erase, DictCollection.findOrdered, DictCollection.deref, DictCollection.dictErase,
      DictCollection.free, Bind.bind, St.bind, St.get, St.set, Pure.pure, St.pure, hxy, h2, v, w]
  refine ⟨?_, w, ?_, rfl, rfl⟩
  · simp only [answers, e1, e2, e3]
  · simp only [St.history, e1, e2, e3]

/-- The hash is needed: if two equal ids belong into different buckets of the table, a second item with the id of the first is
inserted, and `erase` of its id takes the first item out of the iteration but the second out of the table: iterating over the
collection is then undefined. -/
theorem c210_needs_hash (hash : ι → Nat) (eq : ι → ι → Bool) (grow : Nat → Nat → Nat) (b : Build) (idOf : α → ι) (x y : α)
    (hxy : eq (idOf y) (idOf x) = true) (hyy : eq (idOf y) (idOf y) = true)
    (h1 : 0 < grow 0 1) (h2 : 0 < grow 1 (grow 0 1)) (hd : hash (idOf x) % grow 0 1 ≠ hash (idOf y) % grow 0 1)
    (hd' : hash (idOf x) % grow 1 (grow 0 1) ≠ hash (idOf y) % grow 1 (grow 0 1)) :
    results (hashDict hash eq grow) eq b (fun _ _ => true) idOf [.insert x, .insert y, .erase (idOf y)] = [.ok .unit, .ok .unit, .ok (.flag true)] ∧
    ∃ s, after (hashDict hash eq grow) eq b (fun _ _ => true) idOf [.insert x, .insert y, .erase (idOf y)] = some s ∧ s.size (hashDict hash eq grow) = 1 ∧ s.iterate = .ub := by
  have one : ∀ (l : List (ι × Nat)) (p : ι × Nat), l.Perm [p] → l = [p] := fun l p h => List.perm_singleton.mp h
  let t0 : HashTable ι := ⟨1, fun _ => []⟩
  have p0 : t0.pairs = [] := rfl
  let t1 : HashTable ι := t0.put hash grow (idOf x) 0
  have b1 : t1 = ⟨grow 0 1, fun j => if j = hash (idOf x) % grow 0 1 then [(idOf x, 0)] else []⟩ := rfl
  have p1 : t1.pairs = [(idOf x, 0)] := by
    apply one
    rw [b1]
    have := add_perm (fun _ => []) (idOf x, 0) (hash (idOf x) % grow 0 1) (grow 0 1)
    rw [if_pos (Nat.mod_lt _ h1)] at this
    refine this.trans (List.Perm.of_eq ?_)
    simp
  let t2 : HashTable ι := t1.put hash grow (idOf y) 1
  have b2 : t2 = ⟨grow 1 (grow 0 1), fun j => if j = hash (idOf y) % grow 1 (grow 0 1) then
      (idOf y, 1) :: ([(idOf x, 0)].filter fun p => hash p.1 % grow 1 (grow 0 1) = j)
      else [(idOf x, 0)].filter fun p => hash p.1 % grow 1 (grow 0 1) = j⟩ := by
    show HashTable.put hash grow t1 (idOf y) 1 = _
    simp only [HashTable.put, HashTable.rehash, p1]
    rfl
  have hx : ((List.range (grow 1 (grow 0 1))).flatMap fun j => [(idOf x, 0)].filter fun p => hash p.1 % grow 1 (grow 0 1) = j) =
      [(idOf x, 0)] := by
    apply one
    refine (buckets_perm (fun p => hash p.1 % grow 1 (grow 0 1)) [(idOf x, 0)] _).trans (List.Perm.of_eq ?_)
    rw [List.filter_eq_self]
    intro p _
    simpa using Nat.mod_lt _ h2
  have p2 : t2.pairs.length = 2 := by
    rw [b2]
    have := add_perm (fun j => [(idOf x, 0)].filter fun p => hash p.1 % grow 1 (grow 0 1) = j) (idOf y, 1)
      (hash (idOf y) % grow 1 (grow 0 1)) (grow 1 (grow 0 1))
    rw [if_pos (Nat.mod_lt _ h2), hx] at this
    exact this.length_eq
  have f2 : (hashDict hash eq grow).find t2 (idOf y) = some 1 := by
    show HashTable.find hash eq t2 (idOf y) = _
    rw [b2]
    simp [HashTable.find, hyy]
  obtain ⟨a1, s, a2, a3, a4⟩ := three_calls (hashDict hash eq grow) eq b idOf x y hxy rfl (congrArg List.length p1)
    (by
      show HashTable.find hash eq t1 (idOf y) = none
      rw [b1]
      simp [HashTable.find, Ne.symm hd]) p2 f2
  refine ⟨a1, s, a2, ?_, a4⟩
  show (s.items.pairs).length = 1
  rw [a3]
  show (t2.cut hash eq (idOf y)).pairs.length = 1
  have : (t2.cut hash eq (idOf y)).pairs = [(idOf x, 0)] := by
    rw [← hx, b2, HashTable.pairs, HashTable.cut, List.flatMap_def, List.flatMap_def]
    congr 1
    apply List.map_congr_left
    intro j _
    by_cases hj : j = hash (idOf y) % grow 1 (grow 0 1)
    · simp only [if_pos hj]
      rw [List.filter_cons]
      simp only [hyy, Bool.not_true, Bool.false_eq_true, if_false]
      have : ¬hash (idOf x) % grow 1 (grow 0 1) = j := by rw [hj]; exact hd'
      simp [this]
    · simp only [if_neg hj]
  rw [this]
  rfl

/-! ## Examples -/

private def byTens (n : Nat) : Nat := n / 10

/-- More buckets as the table fills. -/
private def doubling (k n : Nat) : Nat := if k < n then n else 2 * n + 1

private def someCalls : List (ItemCollection.Op Nat (Nat × Nat)) :=
  [.insertRange [(14, 1), (3, 2), (14, 5)], .tryInsert (18, 7), .erase 3, .insert (14, 0), .excise 14, .emplace (25, 9), .eraseAll [18, 4]]

example : results (treeDict (fun x y : Nat => decide (x < y)) (fun t => t)) (· == ·) .debug (fun _ _ => true) Prod.fst someCalls =
    [.ok .unit, .ok (.flag true), .ok (.flag true),
      .throw (.logicError "Insertion of duplicate ID into identifiable_item_collection"), .ok (.owned (some 0)), .ok (.ref 4),
      .ok (.flags [true, false])] ∧
    results (hashDict byTens (fun x y : Nat => x == y) doubling) (· == ·) .debug (fun _ _ => true) Prod.fst someCalls =
    [.ok .unit, .ok (.flag true), .ok (.flag true),
      .throw (.logicError "Insertion of duplicate ID into identifiable_item_collection"), .ok (.owned (some 0)), .ok (.ref 4),
      .ok (.flags [true, false])] := by decide +kernel

example : ∃ R, StandsFor (hashDict byTens (fun x y : Nat => x == y) (fun _ _ => 7)) (fun x y : Nat => x == y) R :=
  (c210_containers (fun x y : Nat => decide (x < y)) (by simp) (by simp; omega) (by simp [mapSame]; omega) byTens (fun x y => x == y)
    ⟨by simp, by simp, by simp⟩ (by simp) (fun t => t) (fun _ => rfl) (fun _ _ => 7) (by simp)).2

example : ∃ R, StandsFor (treeDict (fun x y : Nat => decide (x < y)) (fun t => t)) (mapSame fun x y : Nat => decide (x < y)) R :=
  (c210_containers (fun x y : Nat => decide (x < y)) (by simp) (by simp; omega) (by simp [mapSame]; omega) byTens (fun x y => x == y)
    ⟨by simp, by simp, by simp⟩ (by simp) (fun t => t) (fun _ => rfl) (fun _ _ => 7) (by simp)).1

/-- What the list says after the calls. -/
example : (someCalls.foldl (fun l op => (Spec.CollectionIds.stepL ⟨(· == ·), (· == ·)⟩ Prod.fst op l).2) []) = [(25, 9)] := by
  decide +kernel

/-- Numbers that are equal up to sign, hashed with their sign. -/
private def bySign : Dict (HashTable Int) Int :=
  hashDict (fun z => if z < 0 then 1 else 0) (fun x y => x.natAbs == y.natAbs) (fun _ _ => 2)

example : ∃ s, after bySign (fun x y => x.natAbs == y.natAbs) .release (fun _ _ => true) (fun z : Int => z)
      [.insert 5, .insert (-5), .erase (-5)] = some s ∧ s.size bySign = 1 ∧ s.iterate = .ub :=
  (c210_needs_hash (fun z : Int => if z < 0 then 1 else 0) (fun x y => x.natAbs == y.natAbs) (fun _ _ => 2) .release (fun z : Int => z) 5 (-5)
    (by decide) (by decide) (by decide) (by decide) (by decide) (by decide)).2

end Wite.Props
