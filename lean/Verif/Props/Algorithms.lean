import Verif.Model.Algorithms
import Verif.Lemmas.StaticVector
import Mathlib.Data.List.Basic

/-! Properties about standard algorithms called with the iterators of a `static_vector`. -/

namespace Wite.Props

open Wite.Collections Wite.Collections.Algorithms

variable {α : Type}

/-- What `std::sort` and `std::lower_bound` ask of a comparison: of two elements at most one is less than the other, and
not being less is transitive. -/
def StrictWeak (lt : α → α → Bool) : Prop :=
  (∀ x y, lt x y = true → lt y x = false) ∧ ∀ x y z, lt x y = false → lt y z = false → lt x z = false

/-- No element is less than an earlier one. -/
def SortedBy (lt : α → α → Bool) (l : List α) : Prop := l.Pairwise (fun x y => lt y x = false)

private theorem ptrAdd_ok {slots pos : Nat} {off : Int} (h0 : 0 ≤ (pos : Int) + off) (h1 : (pos : Int) + off ≤ slots) :
    DerefIter.ptrAdd slots pos off = .ok ((pos : Int) + off).toNat := by
  unfold DerefIter.ptrAdd; rw [if_pos ⟨h0, h1⟩]

private theorem incr_ok (b : Build) {slots i p n : Nat} (h : i < n) (hn : n ≤ slots) :
    DerefIter.incr b slots ⟨i, p, n⟩ = .ok ⟨i + 1, p, n⟩ := by
  have e : (((i : Nat) : Int) + 1).toNat = i + 1 := by omega
  have hne : i ≠ n := by omega
  unfold DerefIter.incr
  simp only
  rw [ptrAdd_ok (by omega) (by omega), e]
  cases b <;> simp [debugAssert, hne, Bind.bind, Outcome.bind, Pure.pure]

private theorem decr_ok (b : Build) {slots i p n : Nat} (hn : i + 1 ≤ slots) :
    DerefIter.decr b slots ⟨i + 1, p, n⟩ = .ok ⟨i, p, n⟩ := by
  have e : (((i + 1 : Nat) : Int) + -1).toNat = i := by omega
  unfold DerefIter.decr
  simp only
  rw [ptrAdd_ok (by omega) (by omega), e]
  cases b <;> simp [debugAssert, Bind.bind, Outcome.bind, Pure.pure]

private theorem add_ok (b : Build) {slots i p n k : Nat} (h : i + k < n) (hn : n ≤ slots) :
    DerefIter.addAssign b slots (k : Int) ⟨i, p, n⟩ = .ok ⟨i + k, p, n⟩ := by
  have e : ((i : Int) + (k : Int)).toNat = i + k := by omega
  unfold DerefIter.addAssign
  simp only
  rw [ptrAdd_ok (by omega) (by omega), e]
  cases b <;> simp [DerefIter.assertPtr, debugAssert, h, Bind.bind, Outcome.bind, Pure.pure]

private theorem plus_ok (b : Build) {slots i p n : Nat} (h : i + 1 < n) (hn : n ≤ slots) :
    DerefIter.plus b slots ⟨i, p, n⟩ 1 = .ok ⟨i + 1, p, n⟩ := by
  have e : ((i : Int) + 1).toNat = i + 1 := by omega
  have h2 := add_ok b (k := 1) (p := p) h hn
  unfold DerefIter.plus
  simp only
  rw [ptrAdd_ok (by omega) (by omega), e]
  have h2' : DerefIter.addAssign b slots 1 ⟨i, p, n⟩ = .ok ⟨i + 1, p, n⟩ := h2
  rw [h2']
  cases b <;> simp [DerefIter.assertPtr, debugAssert, h, Bind.bind, Outcome.bind]

private theorem plus_release {slots i p n : Nat} (hn : i + 1 ≤ slots) :
    DerefIter.plus .release slots ⟨i, p, n⟩ 1 = .ok ⟨i + 1, p, n⟩ := by
  have e : ((i : Int) + 1).toNat = i + 1 := by omega
  unfold DerefIter.plus DerefIter.addAssign
  simp only
  rw [ptrAdd_ok (by omega) (by omega), e]
  simp [DerefIter.assertPtr, Bind.bind, Outcome.bind, Pure.pure]

private theorem plus_fails {slots i p n : Nat} (h : i + 1 = n) (hn : n ≤ slots) :
    DerefIter.plus .debug slots ⟨i, p, n⟩ 1 = .throw (.assertion "static_vector::operator+: incrementing past end") ∧
    DerefIter.plus .aborting slots ⟨i, p, n⟩ 1 = .terminate := by
  have e : ((i : Int) + 1).toNat = i + 1 := by omega
  have hn' : ¬ i + 1 < n := by omega
  constructor <;>
  · unfold DerefIter.plus
    simp only
    rw [ptrAdd_ok (by omega) (by omega), e]
    simp [DerefIter.assertPtr, debugAssert, hn', Bind.bind, Outcome.bind]

private theorem deref_at {cap : Nat} {v : StaticVector α} {xs ys : List α} {x : α} (h : StaticVector.Holds cap v (xs ++ x :: ys))
    {it : DerefIter} (hi : it.pos = xs.length) : DerefIter.deref v it = .ok x := by
  obtain ⟨rest, hd, _, _⟩ := h
  have := StaticVector.index_eq hd (i := it.pos) (by simp [hi])
  unfold DerefIter.deref
  rw [this]
  simp [hi]

private theorem load_run {cap : Nat} {v : StaticVector α} {xs ys : List α} {x : α} (h : StaticVector.Holds cap v (xs ++ x :: ys))
    {it : DerefIter} (hi : it.pos = xs.length) : (load it : St (StaticVector α) α).run v = (.ok x, v) := by
  unfold load St.run
  simp only
  rw [deref_at h hi]

private theorem store_run {cap : Nat} {v : StaticVector α} {xs ys : List α} {x : α} (h : StaticVector.Holds cap v (xs ++ x :: ys))
    {it : DerefIter} (hi : it.pos = xs.length) (z : α) :
    ∃ v', (store it z : St (StaticVector α) Unit).run v = (.ok (), v') ∧ StaticVector.Holds cap v' (xs ++ z :: ys) := by
  refine ⟨{ v with data := v.data.set it.pos (some z) }, ?_, ?_⟩
  · unfold store St.run
    simp only
    rw [deref_at h hi]
  · obtain ⟨rest, hd, hc, hl⟩ := h
    refine ⟨rest, ?_, ?_, ?_⟩
    · simp only [hd, hi]
      simp
    · simpa using hc
    · simpa using hl

private theorem holds_le {cap : Nat} {v : StaticVector α} {l : List α} (h : StaticVector.Holds cap v l) : l.length ≤ cap := by
  obtain ⟨rest, hd, _, hl⟩ := h
  rw [hd] at hl
  simp at hl
  omega

/-! ## Searching -/

private theorem lower_loop (b : Build) (less : α → Bool) (cap : Nat) (v : StaticVector α) (xs ys : List α)
    (hv : StaticVector.Holds cap v (xs ++ ys)) (hx : ∀ x ∈ xs, less x = true) (hy : ∀ y ∈ ys, less y = false) (p : Nat) :
    ∀ fuel len i, len < fuel → i ≤ xs.length → xs.length ≤ i + len → i + len ≤ (xs ++ ys).length →
      lowerBoundLoop b less v fuel len ⟨i, p, (xs ++ ys).length⟩ = .ok ⟨xs.length, p, (xs ++ ys).length⟩ := by
  have hcap := holds_le hv
  have hlen : v.data.length = cap := hv.choose_spec.2.2
  intro fuel
  induction fuel with
  | zero => intro len i h; omega
  | succ fuel ih =>
    intro len i hf h1 h2 h3
    unfold lowerBoundLoop
    by_cases h0 : len = 0
    · rw [if_pos h0]
      have : i = xs.length := by omega
      rw [this]
    · rw [if_neg h0, hlen]
      have hhalf : len / 2 < len := by omega
      rw [add_ok b (by omega) hcap]
      have hk : i + len / 2 < (xs ++ ys).length := by omega
      have hd : DerefIter.deref v ⟨i + len / 2, p, (xs ++ ys).length⟩ = .ok (xs ++ ys)[i + len / 2] := by
        obtain ⟨rest, hd, _, _⟩ := hv
        exact StaticVector.index_eq hd hk
      simp only [Bind.bind, Outcome.bind, hd]
      by_cases hside : i + len / 2 < xs.length
      · have : less (xs ++ ys)[i + len / 2] = true := by
          rw [List.getElem_append_left hside]; exact hx _ (List.getElem_mem _)
        rw [if_pos this, incr_ok b hk hcap]
        exact ih _ _ (by omega) (by omega) (by omega) (by omega)
      · have : ¬ less (xs ++ ys)[i + len / 2] = true := by
          rw [List.getElem_append_right (by omega)]
          have := hy _ (List.getElem_mem (l := ys) (n := i + len / 2 - xs.length) (by simp at hk; omega))
          rw [this]; simp
        rw [if_neg this]
        exact ih _ _ (by omega) (by omega) (by omega) (by omega)

/-- `std::lower_bound(v.begin(), v.end(), x)` in every build: if the elements less than `x` come first, the result is the
iterator to the first element that is not less, the end if there is none. -/
theorem c175_search (b : Build) (less : α → Bool) (cap : Nat) (v : StaticVector α) (xs ys : List α)
    (hv : StaticVector.Holds cap v (xs ++ ys)) (hx : ∀ x ∈ xs, less x = true) (hy : ∀ y ∈ ys, less y = false) (p : Nat) :
    lowerBound b less v (DerefIter.begin' p v.size) (DerefIter.end' p v.size) = .ok ⟨xs.length, p, v.size⟩ := by
  have hs : v.size = (xs ++ ys).length := hv.choose_spec.2.1
  rw [hs]
  have hd : DerefIter.distance b (DerefIter.end' p (xs ++ ys).length) (DerefIter.begin' p (xs ++ ys).length) =
      .ok ((xs ++ ys).length : Int) := by
    unfold DerefIter.distance DerefIter.end' DerefIter.begin'
    cases b <;> simp [debugAssert, Bind.bind, Outcome.bind, Pure.pure]
  unfold lowerBound
  simp only [hd, Bind.bind, Outcome.bind, Int.toNat_natCast]
  exact lower_loop b less cap v xs ys hv hx hy p _ _ _ (by omega) (by omega) (by simp) (by simp)

/-! ## Sorting -/

private theorem move_run (b : Build) (cap : Nat) (p n : Nat) : ∀ (k : Nat) (c : List α) (y : α) (r : List α) (v : StaticVector α),
    c.length = k → StaticVector.Holds cap v (c ++ y :: r) →
    ∃ v' z, (moveBackward b cap k ⟨k, p, n⟩ ⟨k + 1, p, n⟩ : St (StaticVector α) Unit).run v = (.ok (), v') ∧
      StaticVector.Holds cap v' (z :: c ++ r) := by
  intro k
  induction k with
  | zero =>
    intro c y r v hc hv
    have : c = [] := List.length_eq_zero_iff.mp hc
    subst this
    exact ⟨v, y, rfl, hv⟩
  | succ k ih =>
    intro c y r v hc hv
    obtain ⟨c0, x, rfl⟩ : ∃ c0 x, c = c0 ++ [x] :=
      ⟨c.dropLast, c.getLast (by intro h; simp [h] at hc), (List.dropLast_concat_getLast _).symm⟩
    have hc0 : c0.length = k := by simpa using hc
    have hle := holds_le hv
    simp at hle
    obtain ⟨v1, hs, hv1⟩ := store_run (xs := c0 ++ [x]) hv (it := ⟨k + 1, p, n⟩) (by simp [hc0]) x
    obtain ⟨v2, z, h2, hv2⟩ := ih c0 x (x :: r) v1 hc0 (by simpa using hv1)
    refine ⟨v2, z, ?_, by simpa using hv2⟩
    unfold moveBackward
    rw [decr_ok b (by omega), decr_ok b (by omega), St.run_bind_ok (St.run_lift _ _), St.run_bind_ok (St.run_lift _ _),
      St.run_bind_ok (load_run (xs := c0) (ys := y :: r) (x := x) (by simpa using hv) (by simpa using hc0.symm)),
      St.run_bind_ok hs]
    exact h2

private theorem unguarded_run (b : Build) (lt : α → α → Bool) (val : α) (cap : Nat) (p n : Nat) (a : List α) (last : α)
    (hlast : lt val last = false) : ∀ (k : Nat) (c : List α) (y : α) (r : List α) (v : StaticVector α) (fuel : Nat),
    c.length = k → k < fuel → (∀ x ∈ c, lt val x = true) → StaticVector.Holds cap v (a ++ last :: c ++ y :: r) →
    ∃ v', (unguardedInsert b cap lt val fuel ⟨a.length + 1 + k, p, n⟩ ⟨a.length + k, p, n⟩ :
        St (StaticVector α) Unit).run v = (.ok (), v') ∧
      StaticVector.Holds cap v' (a ++ last :: val :: c ++ r) := by
  intro k
  induction k with
  | zero =>
    intro c y r v fuel hc hf _ hv
    have : c = [] := List.length_eq_zero_iff.mp hc
    subst this
    obtain ⟨fuel, rfl⟩ : ∃ f, fuel = f + 1 := ⟨fuel - 1, by omega⟩
    obtain ⟨v1, hs, hv1⟩ := store_run (xs := a ++ [last]) (x := y) (ys := r) (v := v) (cap := cap)
      (by simpa using hv) (it := ⟨a.length + 1 + 0, p, n⟩) (by simp) val
    refine ⟨v1, ?_, by simpa using hv1⟩
    unfold unguardedInsert
    rw [St.run_bind_ok (load_run (xs := a) (ys := y :: r) (x := last) (by simpa using hv) (by simp)), hlast]
    simpa using hs
  | succ k ih =>
    intro c y r v fuel hc hf hlt hv
    obtain ⟨fuel, rfl⟩ : ∃ f, fuel = f + 1 := ⟨fuel - 1, by omega⟩
    obtain ⟨c0, x, rfl⟩ : ∃ c0 x, c = c0 ++ [x] :=
      ⟨c.dropLast, c.getLast (by intro h; simp [h] at hc), (List.dropLast_concat_getLast _).symm⟩
    have hc0 : c0.length = k := by simpa using hc
    have hle := holds_le hv
    simp at hle
    obtain ⟨v1, hs, hv1⟩ := store_run (xs := a ++ last :: c0 ++ [x]) (x := y) (ys := r) (v := v) (cap := cap)
      (by simpa using hv) (it := ⟨a.length + 1 + (k + 1), p, n⟩) (by simp [hc0]; omega) x
    obtain ⟨v2, h2, hv2⟩ := ih c0 x (x :: r) v1 fuel hc0 (by omega) (fun z hz => hlt z (by simp [hz])) (by simpa using hv1)
    refine ⟨v2, ?_, by simpa using hv2⟩
    have hx : lt val x = true := hlt x (by simp)
    unfold unguardedInsert
    rw [St.run_bind_ok (load_run (xs := a ++ last :: c0) (ys := y :: r) (x := x) (by simpa using hv) (by simp [hc0])), hx]
    simp only [if_true]
    have e : a.length + (k + 1) = (a.length + k) + 1 := by omega
    rw [St.run_bind_ok hs, e, decr_ok b (by omega), St.run_bind_ok (St.run_lift _ _)]
    have e2 : a.length + k + 1 = a.length + 1 + k := by omega
    rw [e2]
    exact h2

/-- A sorted list splits at the place of a value. -/
private theorem split_sorted {lt : α → α → Bool} (h : StrictWeak lt) (val : α) (s : List α) (hs : SortedBy lt s) :
    ∃ a c, s = a ++ c ∧ (∀ x ∈ a, lt val x = false) ∧ ∀ x ∈ c, lt val x = true := by
  induction s with
  | nil => exact ⟨[], [], rfl, by simp, by simp⟩
  | cons x s ih =>
    have hs' := List.pairwise_cons.mp hs
    by_cases hx : lt val x = true
    · refine ⟨[], x :: s, rfl, by simp, ?_⟩
      intro y hy
      rcases List.mem_cons.mp hy with rfl | hy
      · exact hx
      · by_cases hv : lt val y = true
        · exact hv
        · have := h.2 val y x (by simpa using hv) (hs'.1 y hy)
          rw [this] at hx; simp at hx
    · obtain ⟨a, c, e, ha, hc⟩ := ih hs'.2
      refine ⟨x :: a, c, by rw [e]; rfl, ?_, hc⟩
      intro y hy
      rcases List.mem_cons.mp hy with rfl | hy
      · simpa using hx
      · exact ha y hy

private theorem sorted_insert {lt : α → α → Bool} (h : StrictWeak lt) {val : α} {a c : List α} (hs : SortedBy lt (a ++ c))
    (ha : ∀ x ∈ a, lt val x = false) (hc : ∀ x ∈ c, lt val x = true) : SortedBy lt (a ++ val :: c) := by
  unfold SortedBy at *
  rw [List.pairwise_append] at hs ⊢
  refine ⟨hs.1, List.pairwise_cons.mpr ⟨fun y hy => h.1 _ _ (hc y hy), hs.2.1⟩, ?_⟩
  intro x hx y hy
  rcases List.mem_cons.mp hy with rfl | hy
  · exact ha x hx
  · exact hs.2.2 x hx y hy

/-- One round. -/
private theorem one_run (b : Build) (lt : α → α → Bool) (step : DerefIter → Outcome DerefIter) (cap p n : Nat) (a c : List α)
    (val : α) (t : List α) (v : StaticVector α) (hne : a ++ c ≠ []) (ha : ∀ x ∈ a, lt val x = false)
    (hc : ∀ x ∈ c, lt val x = true) (hv : StaticVector.Holds cap v (a ++ c ++ val :: t))
    (hstep : a = [] → step ⟨(a ++ c).length, p, n⟩ = .ok ⟨(a ++ c).length + 1, p, n⟩) :
    ∃ v', (insertOne b cap step lt ⟨0, p, n⟩ ⟨(a ++ c).length, p, n⟩ : St (StaticVector α) Unit).run v = (.ok (), v') ∧
      StaticVector.Holds cap v' (a ++ val :: c ++ t) := by
  have hle := holds_le hv
  simp at hle
  cases a with
  | nil =>
    cases c with
    | nil => simp at hne
    | cons f c =>
      simp only [List.nil_append] at *
      have hf : lt val f = true := hc f (by simp)
      have hdist : DerefIter.distance b ⟨(f :: c).length, p, n⟩ ⟨0, p, n⟩ = .ok ((f :: c).length : Int) := by
        unfold DerefIter.distance
        cases b <;> simp [debugAssert, Bind.bind, Outcome.bind, Pure.pure]
      obtain ⟨v1, z, h1, hv1⟩ := move_run b cap p n (f :: c).length (f :: c) val t v rfl hv
      obtain ⟨v2, h2, hv2⟩ := store_run (xs := []) (x := z) (ys := (f :: c) ++ t) (v := v1) (cap := cap) (by simpa using hv1)
        (it := ⟨0, p, n⟩) rfl val
      refine ⟨v2, ?_, by simpa using hv2⟩
      unfold insertOne
      rw [St.run_bind_ok (load_run (xs := f :: c) (ys := t) (x := val) hv rfl),
        St.run_bind_ok (load_run (xs := []) (ys := c ++ val :: t) (x := f) (by simpa using hv) rfl), hf]
      simp only [if_true]
      rw [hstep trivial, St.run_bind_ok (St.run_lift _ _), hdist, St.run_bind_ok (St.run_lift _ _), Int.toNat_natCast,
        St.run_bind_ok h1]
      exact h2
  | cons f a =>
    have hf : lt val f = false := ha f (by simp)
    obtain ⟨a0, last, e⟩ : ∃ a0 x, f :: a = a0 ++ [x] :=
      ⟨(f :: a).dropLast, (f :: a).getLast (by simp), (List.dropLast_concat_getLast _).symm⟩
    have hlast : lt val last = false := ha last (by rw [e]; simp)
    have hlen : (f :: a ++ c).length = (a0.length + c.length) + 1 := by rw [e]; simp; omega
    have hle2 : (f :: a ++ c).length ≤ cap := by rw [List.length_append]; omega
    obtain ⟨v1, h1, hv1⟩ := unguarded_run b lt val cap p n a0 last hlast c.length c val t v ((f :: a ++ c).length + 1) rfl
      (by rw [hlen]; omega) hc (by rw [e] at hv; simpa using hv)
    refine ⟨v1, ?_, by rw [e]; simpa using hv1⟩
    unfold insertOne
    rw [St.run_bind_ok (load_run (xs := f :: a ++ c) (ys := t) (x := val) hv rfl),
      St.run_bind_ok (load_run (xs := []) (ys := a ++ c ++ val :: t) (x := f) (by simpa using hv) rfl), hf]
    simp only [Bool.false_eq_true, if_false]
    have hd : DerefIter.decr b cap ⟨(f :: a ++ c).length, p, n⟩ = .ok ⟨a0.length + c.length, p, n⟩ := by
      rw [hlen]; exact decr_ok b (by omega)
    rw [hd, St.run_bind_ok (St.run_lift _ _)]
    have e3 : (f :: a ++ c).length = a0.length + 1 + c.length := by rw [hlen]; omega
    rw [e3] at h1 ⊢
    exact h1

private theorem ne_eq (i p n m : Nat) : DerefIter.ne ⟨i, p, n⟩ ⟨m, p, n⟩ = (i != m) := by
  unfold DerefIter.ne DerefIter.eq
  simp [bne]

/-- The rounds for the elements before a non-empty rest. -/
private theorem loop_run (b : Build) {lt : α → α → Bool} (hlt : StrictWeak lt) (step : DerefIter → Outcome DerefIter) (cap p n : Nat)
    (hn : n ≤ cap) (hstep : ∀ i, i + 1 < n → step ⟨i, p, n⟩ = .ok ⟨i + 1, p, n⟩) (u : List α) (hu : u ≠ []) :
    ∀ (r s : List α) (v : StaticVector α) (fuel : Nat), s ≠ [] → SortedBy lt s → (s ++ r ++ u).length = n →
      StaticVector.Holds cap v (s ++ r ++ u) →
      ∃ s' v', s'.Perm (s ++ r) ∧ SortedBy lt s' ∧ StaticVector.Holds cap v' (s' ++ u) ∧
        (insertionLoop b cap step lt ⟨0, p, n⟩ ⟨n, p, n⟩ (fuel + r.length) ⟨s.length, p, n⟩ : St (StaticVector α) Unit).run v =
          (insertionLoop b cap step lt ⟨0, p, n⟩ ⟨n, p, n⟩ fuel ⟨s'.length, p, n⟩ : St (StaticVector α) Unit).run v' := by
  have hu' : 0 < u.length := List.length_pos_iff.mpr hu
  intro r
  induction r with
  | nil =>
    intro s v fuel hs hsort hlen hv
    exact ⟨s, v, by simp, hsort, by simpa using hv, rfl⟩
  | cons x r ih =>
    intro s v fuel hs hsort hlen hv
    obtain ⟨a, c, rfl, ha, hc⟩ := split_sorted hlt x s hsort
    simp at hlen
    have hl : (a ++ c).length + 1 < n := by simp; omega
    obtain ⟨v1, h1, hv1⟩ := one_run b lt step cap p n a c x (r ++ u) v hs ha hc (by simpa using hv) (fun _ => hstep _ hl)
    have hl' : (a ++ x :: c).length = (a ++ c).length + 1 := by simp; omega
    obtain ⟨s', v', hp, hs', hv', he⟩ := ih (a ++ x :: c) v1 fuel (by simp) (sorted_insert hlt hsort ha hc)
      (by simp; omega) (by simpa using hv1)
    refine ⟨s', v', hp.trans ?_, hs', hv', ?_⟩
    · have : (a ++ x :: c ++ r).Perm (a ++ (c ++ (x :: r))) := by
        rw [List.append_assoc]
        exact List.Perm.append_left a (by simpa using (List.perm_middle (a := x) (l₁ := c) (l₂ := r)).symm)
      simpa using this
    · have ef : fuel + (x :: r).length = (fuel + r.length) + 1 := by simp; omega
      have hb : ((a ++ c).length != n) = true := by
        have : (a ++ c).length ≠ n := by omega
        simpa using this
      rw [ef]
      conv_lhs => unfold insertionLoop
      rw [ne_eq, hb]
      simp only [if_true]
      rw [St.run_bind_ok h1, incr_ok b (by omega) hn, St.run_bind_ok (St.run_lift _ _), ← hl']
      exact he

private theorem loop_end (b : Build) (lt : α → α → Bool) (step : DerefIter → Outcome DerefIter) (cap p n fuel : Nat) (v : StaticVector α) :
    (insertionLoop b cap step lt ⟨0, p, n⟩ ⟨n, p, n⟩ (fuel + 1) ⟨n, p, n⟩ : St (StaticVector α) Unit).run v = (.ok (), v) := by
  unfold insertionLoop
  rw [ne_eq]
  simp

/-- The rounds up to the last element: what is left to do. -/
private theorem upto_last (b : Build) {lt : α → α → Bool} (hlt : StrictWeak lt) (step : DerefIter → Outcome DerefIter) (cap p : Nat)
    (f : α) (r : List α) (x : α) (v : StaticVector α) (hv : StaticVector.Holds cap v (f :: r ++ [x]))
    (hstep : ∀ i, i + 1 < (f :: r ++ [x]).length → step ⟨i, p, (f :: r ++ [x]).length⟩ = .ok ⟨i + 1, p, (f :: r ++ [x]).length⟩) :
    ∃ s' v', s'.Perm (f :: r) ∧ SortedBy lt s' ∧ StaticVector.Holds cap v' (s' ++ [x]) ∧ ∃ fuel,
      (insertionSort b cap step lt (DerefIter.begin' p (f :: r ++ [x]).length) (DerefIter.end' p (f :: r ++ [x]).length) :
        St (StaticVector α) Unit).run v =
        (insertionLoop b cap step lt ⟨0, p, (f :: r ++ [x]).length⟩ ⟨(f :: r ++ [x]).length, p, (f :: r ++ [x]).length⟩ (fuel + 2)
          ⟨s'.length, p, (f :: r ++ [x]).length⟩ : St (StaticVector α) Unit).run v' := by
  have hcap := holds_le hv
  obtain ⟨s', v', hp, hs', hv', he⟩ := loop_run b hlt step cap p _ hcap hstep [x] (by simp) r [f] v 3
    (by simp) (List.pairwise_singleton _ _) (by simp) (by simpa using hv)
  refine ⟨s', v', by simpa using hp, hs', hv', 1, ?_⟩
  unfold insertionSort DerefIter.begin' DerefIter.end'
  have hne : DerefIter.eq ⟨0, p, (f :: r ++ [x]).length⟩ ⟨(f :: r ++ [x]).length, p, (f :: r ++ [x]).length⟩ = false := by
    unfold DerefIter.eq; simp
  rw [hne]
  simp only [Bool.false_eq_true, if_false]
  rw [hstep 0 (by simp), St.run_bind_ok (St.run_lift _ _)]
  have e : (f :: r ++ [x]).length + 1 = 3 + r.length := by simp; omega
  rw [e]
  exact he

private theorem sort_ok (b : Build) {lt : α → α → Bool} (hlt : StrictWeak lt) (step : DerefIter → Outcome DerefIter) (cap p : Nat)
    (f : α) (r : List α) (x : α) (v : StaticVector α) (hv : StaticVector.Holds cap v (f :: r ++ [x]))
    (hstep : ∀ i, i + 1 < (f :: r ++ [x]).length → step ⟨i, p, (f :: r ++ [x]).length⟩ = .ok ⟨i + 1, p, (f :: r ++ [x]).length⟩)
    (hlast : (∀ y ∈ f :: r, lt x y = true) →
      step ⟨(f :: r).length, p, (f :: r ++ [x]).length⟩ = .ok ⟨(f :: r).length + 1, p, (f :: r ++ [x]).length⟩) :
    ∃ v' l', (insertionSort b cap step lt (DerefIter.begin' p (f :: r ++ [x]).length) (DerefIter.end' p (f :: r ++ [x]).length) :
        St (StaticVector α) Unit).run v = (.ok (), v') ∧
      StaticVector.Holds cap v' l' ∧ l'.Perm (f :: r ++ [x]) ∧ SortedBy lt l' := by
  have hcap := holds_le hv
  obtain ⟨s', v1, hp, hs', hv1, fuel, he⟩ := upto_last b hlt step cap p f r x v hv hstep
  have hlen := hp.length_eq
  obtain ⟨a, c, rfl, ha, hc⟩ := split_sorted hlt x s' hs'
  have hne : a ++ c ≠ [] := by intro h; rw [h] at hlen; simp at hlen
  obtain ⟨v2, h2, hv2⟩ := one_run b lt step cap p (f :: r ++ [x]).length a c x [] v1 hne ha hc hv1 (by
    intro h0
    rw [hlen]
    apply hlast
    intro y hy
    exact hc y (by simpa [h0] using hp.mem_iff.mpr hy))
  refine ⟨v2, a ++ x :: c, ?_, by simpa using hv2, ?_, sorted_insert hlt hs' ha hc⟩
  · rw [he]
    have e1 : fuel + 2 = (fuel + 1) + 1 := rfl
    rw [e1]
    conv_lhs => unfold insertionLoop
    have hl : (a ++ c).length + 1 = (f :: r ++ [x]).length := by rw [hlen]; simp
    have hb : ((a ++ c).length != (f :: r ++ [x]).length) = true := by
      have : (a ++ c).length ≠ (f :: r ++ [x]).length := by omega
      simpa using this
    rw [ne_eq, hb]
    simp only [if_true]
    rw [St.run_bind_ok h2, incr_ok b (by omega) hcap, St.run_bind_ok (St.run_lift _ _), hl]
    exact loop_end b lt step cap p _ fuel v2
  · have h3 : (a ++ x :: c).Perm (x :: (a ++ c)) := List.perm_middle
    have h4 : (f :: r ++ [x]).Perm (x :: (f :: r)) := by
      simpa using List.perm_append_comm (l₁ := f :: r) (l₂ := [x])
    exact h3.trans ((List.Perm.cons x hp).trans h4.symm)

private theorem sort_empty (b : Build) (lt : α → α → Bool) (step : DerefIter → Outcome DerefIter) (cap p : Nat) (v : StaticVector α) :
    (insertionSort b cap step lt (DerefIter.begin' p 0) (DerefIter.end' p 0) : St (StaticVector α) Unit).run v = (.ok (), v) := by
  unfold insertionSort DerefIter.begin' DerefIter.end' DerefIter.eq
  simp

private theorem sort_one (b : Build) (lt : α → α → Bool) (step : DerefIter → Outcome DerefIter) (cap p : Nat) (v : StaticVector α)
    (h : step ⟨0, p, 1⟩ = .ok ⟨1, p, 1⟩) :
    (insertionSort b cap step lt (DerefIter.begin' p 1) (DerefIter.end' p 1) : St (StaticVector α) Unit).run v = (.ok (), v) := by
  unfold insertionSort DerefIter.begin' DerefIter.end'
  have hne : DerefIter.eq ⟨0, p, 1⟩ ⟨1, p, 1⟩ = false := by unfold DerefIter.eq; simp
  rw [hne]
  simp only [Bool.false_eq_true, if_false]
  rw [h, St.run_bind_ok (St.run_lift _ _)]
  exact loop_end b lt step cap p 1 1 v

private theorem three (l : List α) : l = [] ∨ (∃ x, l = [x]) ∨ ∃ f r x, l = f :: r ++ [x] := by
  cases l with
  | nil => exact Or.inl rfl
  | cons f r =>
    refine Or.inr ?_
    rcases List.eq_nil_or_concat r with rfl | ⟨r0, x, rfl⟩
    · exact Or.inl ⟨f, rfl⟩
    · exact Or.inr ⟨f, r0, x, by simp⟩

private theorem sort_all (b : Build) {lt : α → α → Bool} (hlt : StrictWeak lt) (step : DerefIter → Outcome DerefIter) (cap p : Nat)
    (l : List α) (v : StaticVector α) (hv : StaticVector.Holds cap v l)
    (hstep : ∀ i, i + 1 ≤ l.length → step ⟨i, p, l.length⟩ = .ok ⟨i + 1, p, l.length⟩) :
    ∃ v' l', (insertionSort b cap step lt (DerefIter.begin' p l.length) (DerefIter.end' p l.length) :
        St (StaticVector α) Unit).run v = (.ok (), v') ∧
      StaticVector.Holds cap v' l' ∧ l'.Perm l ∧ SortedBy lt l' := by
  rcases three l with rfl | ⟨x, rfl⟩ | ⟨f, r, x, rfl⟩
  · exact ⟨v, [], sort_empty b lt step cap p v, hv, List.Perm.refl _, List.Pairwise.nil⟩
  · exact ⟨v, [x], sort_one b lt step cap p v (hstep 0 (by simp)), hv, List.Perm.refl _, List.pairwise_singleton _ _⟩
  · exact sort_ok b hlt step cap p f r x v hv (fun i hi => hstep i (by omega)) (fun _ => hstep _ (by simp))

/-- `std::sort(v.begin(), v.end(), lt)` in release builds, where the library computes the next iterator by `+ 1`: the vector
then holds the same elements in order. -/
theorem c175_sort_partial {lt : α → α → Bool} (hlt : StrictWeak lt) (cap : Nat) (v : StaticVector α) (l : List α)
    (hv : StaticVector.Holds cap v l) (p : Nat) :
    ∃ v' l', (sortPlus .release lt (DerefIter.begin' p v.size) (DerefIter.end' p v.size)).run v = (.ok (), v') ∧
      StaticVector.Holds cap v' l' ∧ l'.Perm l ∧ SortedBy lt l' := by
  have hs : v.size = l.length := hv.choose_spec.2.1
  have hlen : v.data.length = cap := hv.choose_spec.2.2
  have hcap := holds_le hv
  rw [hs]
  unfold sortPlus
  simp only [St.run, hlen]
  exact sort_all .release hlt _ cap p l v hv (fun i hi => plus_release (by omega))

/-- Where the library computes the next iterator by `++`, the same is true in every build. -/
theorem c175_sort_increments_partial (b : Build) {lt : α → α → Bool} (hlt : StrictWeak lt) (cap : Nat) (v : StaticVector α)
    (l : List α) (hv : StaticVector.Holds cap v l) (p : Nat) :
    ∃ v' l', (sortIncr b lt (DerefIter.begin' p v.size) (DerefIter.end' p v.size)).run v = (.ok (), v') ∧
      StaticVector.Holds cap v' l' ∧ l'.Perm l ∧ SortedBy lt l' := by
  have hs : v.size = l.length := hv.choose_spec.2.1
  have hlen : v.data.length = cap := hv.choose_spec.2.2
  have hcap := holds_le hv
  rw [hs]
  unfold sortIncr
  simp only [St.run, hlen]
  exact sort_all b hlt _ cap p l v hv (fun i hi => incr_ok b (by omega) hcap)

/-- Builds that check, with `+ 1`: two or more elements of which the last is not less than all the others are sorted. -/
theorem c175_sort_checked_partial (b : Build) {lt : α → α → Bool} (hlt : StrictWeak lt) (cap : Nat) (v : StaticVector α)
    (l : List α) (x y : α) (hv : StaticVector.Holds cap v (l ++ [x])) (hy : y ∈ l) (hxy : lt x y = false) (p : Nat) :
    ∃ v' l', (sortPlus b lt (DerefIter.begin' p v.size) (DerefIter.end' p v.size)).run v = (.ok (), v') ∧
      StaticVector.Holds cap v' l' ∧ l'.Perm (l ++ [x]) ∧ SortedBy lt l' := by
  have hs : v.size = (l ++ [x]).length := hv.choose_spec.2.1
  have hlen : v.data.length = cap := hv.choose_spec.2.2
  have hcap := holds_le hv
  cases l with
  | nil => simp at hy
  | cons f r =>
    rw [hs]
    unfold sortPlus
    simp only [St.run, hlen]
    refine sort_ok b hlt _ cap p f r x v hv (fun i hi => plus_ok b hi hcap) ?_
    intro h
    have := h y hy
    rw [hxy] at this; simp at this

/-- Builds that check, with `+ 1`: sorting a vector of one element fails an assertion. -/
theorem c175_refuted_one (lt : α → α → Bool) (cap : Nat) (v : StaticVector α) (x : α) (hv : StaticVector.Holds cap v [x]) (p : Nat) :
    (sortPlus .debug lt (DerefIter.begin' p v.size) (DerefIter.end' p v.size)).run v =
        (.throw (.assertion "static_vector::operator+: incrementing past end"), v) ∧
      (sortPlus .aborting lt (DerefIter.begin' p v.size) (DerefIter.end' p v.size)).run v = (.terminate, v) := by
  have hs : v.size = 1 := hv.choose_spec.2.1
  have hlen : v.data.length = cap := hv.choose_spec.2.2
  have hcap : 1 ≤ cap := holds_le hv
  have hf := plus_fails (slots := cap) (i := 0) (p := p) (n := 1) rfl hcap
  have hne : DerefIter.eq ⟨0, p, 1⟩ ⟨1, p, 1⟩ = false := by unfold DerefIter.eq; simp
  constructor <;>
  · unfold sortPlus insertionSort DerefIter.begin' DerefIter.end'
    simp only [St.run, hlen, hs, hne, hf, Bool.false_eq_true, if_false]
    rfl

private theorem sort_fails (b : Build) {lt : α → α → Bool} (hlt : StrictWeak lt) (step : DerefIter → Outcome DerefIter) (cap p : Nat)
    (f : α) (r : List α) (x : α) (v : StaticVector α) (hv : StaticVector.Holds cap v (f :: r ++ [x]))
    (hx : ∀ y ∈ f :: r, lt x y = true)
    (hstep : ∀ i, i + 1 < (f :: r ++ [x]).length → step ⟨i, p, (f :: r ++ [x]).length⟩ = .ok ⟨i + 1, p, (f :: r ++ [x]).length⟩) :
    ∃ v' s, StaticVector.Holds cap v' (s ++ [x]) ∧ s.Perm (f :: r) ∧ SortedBy lt s ∧
      (∀ e, step ⟨(f :: r).length, p, (f :: r ++ [x]).length⟩ = .throw e →
        (insertionSort b cap step lt (DerefIter.begin' p (f :: r ++ [x]).length) (DerefIter.end' p (f :: r ++ [x]).length) :
          St (StaticVector α) Unit).run v = (.throw e, v')) ∧
      (step ⟨(f :: r).length, p, (f :: r ++ [x]).length⟩ = .terminate →
        (insertionSort b cap step lt (DerefIter.begin' p (f :: r ++ [x]).length) (DerefIter.end' p (f :: r ++ [x]).length) :
          St (StaticVector α) Unit).run v = (.terminate, v')) := by
  obtain ⟨s', v1, hp, hs', hv1, fuel, he⟩ := upto_last b hlt step cap p f r x v hv hstep
  have hlen := hp.length_eq
  obtain ⟨g, s, rfl⟩ : ∃ g s, s' = g :: s := by
    cases s' with
    | nil => simp at hlen
    | cons g s => exact ⟨g, s, rfl⟩
  have hg : lt x g = true := hx g (hp.mem_iff.mp (by simp))
  refine ⟨v1, g :: s, hv1, hp, hs', ?_⟩
  have e1 : fuel + 2 = (fuel + 1) + 1 := rfl
  have hb : ((g :: s).length != (f :: r ++ [x]).length) = true := by
    have : (g :: s).length ≠ (f :: r ++ [x]).length := by rw [hlen]; simp
    simpa using this
  constructor
  · intro e hse
    rw [he, e1]
    unfold insertionLoop
    rw [ne_eq, hb]
    simp only [if_true]
    apply St.run_bind_throw
    unfold insertOne
    rw [St.run_bind_ok (load_run (xs := g :: s) (ys := []) (x := x) hv1 rfl),
      St.run_bind_ok (load_run (xs := []) (ys := s ++ [x]) (x := g) (by simpa using hv1) rfl), hg]
    simp only [if_true]
    rw [hlen, hse]
    rfl
  · intro hse
    rw [he, e1]
    unfold insertionLoop
    rw [ne_eq, hb]
    simp only [if_true]
    have : (insertOne b cap step lt ⟨0, p, (f :: r ++ [x]).length⟩ ⟨(g :: s).length, p, (f :: r ++ [x]).length⟩ :
        St (StaticVector α) Unit).run v1 = (.terminate, v1) := by
      unfold insertOne
      rw [St.run_bind_ok (load_run (xs := g :: s) (ys := []) (x := x) hv1 rfl),
        St.run_bind_ok (load_run (xs := []) (ys := s ++ [x]) (x := g) (by simpa using hv1) rfl), hg]
      simp only [if_true]
      rw [hlen, hse]
      rfl
    rw [St.run_bind, this]

/-- Builds that check, with `+ 1`: sorting fails an assertion whenever the last element is less than all the others, for
any number of them.  The others are sorted by then, the last is where it was. -/
theorem c175_refuted_last {lt : α → α → Bool} (hlt : StrictWeak lt) (cap : Nat) (v : StaticVector α) (l : List α) (x : α)
    (hv : StaticVector.Holds cap v (l ++ [x])) (hl : l ≠ []) (hx : ∀ y ∈ l, lt x y = true) (p : Nat) :
    (∃ v' s, (sortPlus .debug lt (DerefIter.begin' p v.size) (DerefIter.end' p v.size)).run v =
        (.throw (.assertion "static_vector::operator+: incrementing past end"), v') ∧
      StaticVector.Holds cap v' (s ++ [x]) ∧ s.Perm l ∧ SortedBy lt s) ∧
    ((sortPlus .aborting lt (DerefIter.begin' p v.size) (DerefIter.end' p v.size)).run v).1 = .terminate := by
  have hs : v.size = (l ++ [x]).length := hv.choose_spec.2.1
  have hlen : v.data.length = cap := hv.choose_spec.2.2
  have hcap := holds_le hv
  cases l with
  | nil => simp at hl
  | cons f r =>
    have hfail := plus_fails (slots := cap) (i := (f :: r).length) (p := p) (n := (f :: r ++ [x]).length) (by simp) hcap
    constructor
    · obtain ⟨v', s, h1, h2, h3, h4, _⟩ := sort_fails .debug hlt (fun i => DerefIter.plus .debug cap i 1) cap p f r x v hv hx
        (fun i hi => plus_ok .debug hi hcap)
      refine ⟨v', s, ?_, h1, h2, h3⟩
      rw [hs]
      unfold sortPlus
      simp only [St.run, hlen]
      exact h4 _ hfail.1
    · obtain ⟨v', s, _, _, _, _, h4⟩ := sort_fails .aborting hlt (fun i => DerefIter.plus .aborting cap i 1) cap p f r x v hv hx
        (fun i hi => plus_ok .aborting hi hcap)
      rw [hs]
      unfold sortPlus
      simp only [St.run, hlen]
      have := h4 hfail.2
      simp only [St.run] at this
      rw [this]

/-- Sorting and then searching (release builds): `std::lower_bound` for an element finds a position that holds an element
equivalent to it, and everything before that position is less. -/
theorem c175_sort_then_search_partial {lt : α → α → Bool} (hlt : StrictWeak lt) (cap : Nat) (v : StaticVector α) (l : List α)
    (hv : StaticVector.Holds cap v l) (p : Nat) (x : α) (hx : x ∈ l) :
    ∃ v' l' k y, (sortPlus .release lt (DerefIter.begin' p v.size) (DerefIter.end' p v.size)).run v = (.ok (), v') ∧
      StaticVector.Holds cap v' l' ∧ l'.Perm l ∧
      lowerBound .release (fun y => lt y x) v' (DerefIter.begin' p v'.size) (DerefIter.end' p v'.size) = .ok ⟨k, p, v'.size⟩ ∧
      DerefIter.deref v' ⟨k, p, v'.size⟩ = .ok y ∧ lt x y = false ∧ lt y x = false ∧
      ∀ z ∈ l'.take k, lt z x = true := by
  obtain ⟨v', l', h1, h2, h3, h4⟩ := c175_sort_partial hlt cap v l hv p
  -- split at the first element not less than `x`
  obtain ⟨a, c, rfl, ha, hc⟩ : ∃ a c, l' = a ++ c ∧ (∀ z ∈ a, lt z x = true) ∧ ∀ z ∈ c, lt z x = false := by
    clear h1 h2 h3
    induction l' with
    | nil => exact ⟨[], [], rfl, by simp, by simp⟩
    | cons z l' ih =>
      have h4' := List.pairwise_cons.mp h4
      by_cases hz : lt z x = true
      · obtain ⟨a, c, e, ha, hc⟩ := ih h4'.2
        refine ⟨z :: a, c, by rw [e]; rfl, ?_, hc⟩
        intro w hw
        rcases List.mem_cons.mp hw with rfl | hw
        · exact hz
        · exact ha w hw
      · refine ⟨[], z :: l', rfl, by simp, ?_⟩
        intro w hw
        rcases List.mem_cons.mp hw with rfl | hw
        · simpa using hz
        · exact hlt.2 w z x (h4'.1 w hw) (by simpa using hz)
  have hself : lt x x = false := by
    by_cases h : lt x x = true
    · have := hlt.1 _ _ h; exact this
    · simpa using h
  have hxc : x ∈ c := by
    rcases List.mem_append.mp (h3.mem_iff.mpr hx) with h | h
    · have := ha x h; rw [hself] at this; simp at this
    · exact h
  cases c with
  | nil => simp at hxc
  | cons y c =>
    refine ⟨v', a ++ y :: c, a.length, y, h1, h2, h3, c175_search .release _ cap v' a (y :: c) h2 ha hc p, ?_, ?_, hc y (by simp), ?_⟩
    · exact deref_at h2 rfl
    · rcases List.mem_cons.mp hxc with rfl | h
      · exact hself
      · exact (List.pairwise_cons.mp (List.pairwise_append.mp h4).2.1).1 x h
    · intro z hz
      exact ha z (by simpa using hz)

example : StrictWeak (fun x y : Nat => decide (x < y)) := by
  refine ⟨?_, ?_⟩ <;> simp <;> omega

example : ((sortPlus .debug (fun x y : Nat => decide (x < y)) (DerefIter.begin' 0 4) (DerefIter.end' 0 4)).run
    ⟨[some 3, some 1, some 4, some 2, none], 4⟩) = (.ok (), ⟨[some 1, some 2, some 3, some 4, none], 4⟩) := by
  decide +kernel
example : ((sortPlus .debug (fun x y : Nat => decide (x < y)) (DerefIter.begin' 0 3) (DerefIter.end' 0 3)).run
    ⟨[some 3, some 2, some 1, none], 3⟩) =
    (.throw (.assertion "static_vector::operator+: incrementing past end"), ⟨[some 2, some 3, some 1, none], 3⟩) := by
  decide +kernel
example : lowerBound .debug (fun y => decide (y < 5)) ⟨[some 1, some 4, some 7, none], 3⟩ (DerefIter.begin' 0 3) (DerefIter.end' 0 3) =
    .ok ⟨2, 0, 3⟩ := by decide +kernel

end Wite.Props
