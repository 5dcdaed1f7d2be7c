import Verif.Model.DerefIterator
import Verif.Lemmas.StaticVector

/-!
# Properties C70 and C125: iterators of the collections
-/

namespace Wite.Props

open Wite Wite.Collections Wite.Collections.DerefIter

private theorem ptrAdd_ok {slots pos : Nat} {off : Int} (h0 : 0 ≤ (pos : Int) + off) (h1 : (pos : Int) + off ≤ slots) :
    ptrAdd slots pos off = .ok ((pos : Int) + off).toNat := by
  rw [ptrAdd, if_pos ⟨h0, h1⟩]

private theorem ptrAdd_ub {slots pos : Nat} {off : Int} (h : ¬ (0 ≤ (pos : Int) + off ∧ (pos : Int) + off ≤ slots)) :
    ptrAdd slots pos off = .ub := by
  rw [ptrAdd, if_neg h]

/-- C70: release builds: `it + n` (and `+=`) is defined exactly if it stays in the array, and then moves the
position by `n`; `it - n` likewise. -/
theorem c70_release (slots : Nat) (it : DerefIter) (n : Int) :
    plus .release slots it n = addAssign .release slots n it ∧
    minus .release slots it n = subAssign .release slots n it ∧
    minus .release slots it n = plus .release slots it (-n) ∧
    (0 ≤ it.pos + n ∧ it.pos + n ≤ slots → ∃ it', plus .release slots it n = .ok it' ∧ (it'.pos : Int) = it.pos + n ∧
      it'.parent = it.parent ∧ it'.parentEnd = it.parentEnd) ∧
    (¬ (0 ≤ it.pos + n ∧ it.pos + n ≤ slots) → plus .release slots it n = .ub) := by
  refine ⟨rfl, rfl, rfl, ?_, ?_⟩
  · rintro ⟨h0, h1⟩
    refine ⟨{ it with pos := ((it.pos : Int) + n).toNat }, ?_, by simp only; omega, rfl, rfl⟩
    simp [plus, addAssign, assertPtr, ptrAdd_ok h0 h1]
  · intro h
    simp [plus, addAssign, assertPtr, ptrAdd_ub h]

/-- C70: `(it + n) - n == it`, `(it + n) - it == n`, and comparing agrees with the distance, wherever `it + n` is
defined, in release builds. -/
theorem c70_laws (slots : Nat) (it it' : DerefIter) (n : Int) (hit : it.pos ≤ slots)
    (h : plus .release slots it n = .ok it') :
    minus .release slots it' n = .ok it ∧
    distance .release it' it = .ok n ∧
    (eq it' it ↔ n = 0) ∧
    (∀ u, cmp .release u it' it = .ok (compare n 0)) := by
  by_cases hr : 0 ≤ (it.pos : Int) + n ∧ (it.pos : Int) + n ≤ slots
  · obtain ⟨t, h1, h2, h3, h4⟩ := (c70_release slots it n).2.2.2.1 hr
    rw [h] at h1
    cases h1
    refine ⟨?_, ?_, ?_, ?_⟩
    · have hb : 0 ≤ (it'.pos : Int) + -n ∧ (it'.pos : Int) + -n ≤ slots := by omega
      simp only [minus, subAssign, assertPtr, Outcome.bind_ok, ptrAdd_ok hb.1 hb.2, Outcome.pure_eq]
      cases it; cases it'
      simp only [DerefIter.mk.injEq, Outcome.ok.injEq] at *
      exact ⟨by omega, h3, h4⟩
    · simp only [distance, debugAssert, Outcome.bind_ok, h3, if_true, Outcome.pure_eq]
      congr 1; omega
    · simp only [eq, h3, BEq.rfl, Bool.true_and, beq_iff_eq]
      omega
    · intro u
      simp only [cmp, debugAssert, Outcome.bind_ok, h3, if_true, Outcome.pure_eq]
      congr 1
      simp only [compare, compareOfLessAndEq]
      have e1 : it'.pos < it.pos ↔ n < 0 := by omega
      have e2 : it'.pos = it.pos ↔ n = 0 := by omega
      simp only [e1, e2]
  · rw [(c70_release slots it n).2.2.2.2 hr] at h; cases h

/-- C70: in release builds `it + n` is `n` increments, and `it - n` is `n` decrements. -/
theorem c70_increments (slots : Nat) (it : DerefIter) (hit : it.pos ≤ slots) (n : Nat) :
    plus .release slots it n = incrs .release slots n it ∧
    minus .release slots it n = decrs .release slots n it := by
  have hone : ∀ t : DerefIter, t.pos ≤ slots →
      incr .release slots t = (if t.pos + 1 ≤ slots then .ok { t with pos := t.pos + 1 } else .ub) := by
    intro t ht
    simp only [incr, debugAssert, Outcome.bind_ok]
    split
    · rw [ptrAdd_ok (by omega) (by omega)]; rfl
    · rw [ptrAdd_ub (by omega)]; rfl
  have hone' : ∀ t : DerefIter, t.pos ≤ slots →
      decr .release slots t = (if 1 ≤ t.pos then .ok { t with pos := t.pos - 1 } else .ub) := by
    intro t ht
    simp only [decr, debugAssert, Outcome.bind_ok]
    split
    · rw [ptrAdd_ok (by omega) (by omega)]
      simp only [Outcome.bind_ok, Outcome.pure_eq]
      congr 2
      omega
    · rw [ptrAdd_ub (by omega)]; rfl
  constructor
  · induction n generalizing it with
    | zero =>
      have h0 : 0 ≤ (it.pos : Int) + ((0 : Nat) : Int) ∧ (it.pos : Int) + ((0 : Nat) : Int) ≤ slots := by omega
      simp only [plus, addAssign, assertPtr, incrs, ptrAdd_ok h0.1 h0.2, Outcome.bind_ok, Outcome.pure_eq]
      congr 1
    | succ n ih =>
      rw [incrs, hone it hit]
      by_cases h1 : it.pos + 1 ≤ slots
      · rw [if_pos h1, Outcome.bind_ok, ← ih _ h1]
        simp only [plus, addAssign, assertPtr, Outcome.bind_ok]
        have e : ((it.pos + 1 : Nat) : Int) + (n : Int) = it.pos + ((n + 1 : Nat) : Int) := by omega
        simp only [ptrAdd, e]
      · rw [if_neg h1, Outcome.bind_ub]
        simp only [plus, addAssign, assertPtr, Outcome.bind_ok]
        rw [ptrAdd_ub (by omega)]; rfl
  · induction n generalizing it with
    | zero =>
      have h0 : 0 ≤ (it.pos : Int) + -((0 : Nat) : Int) ∧ (it.pos : Int) + -((0 : Nat) : Int) ≤ slots := by omega
      simp only [minus, subAssign, assertPtr, decrs, ptrAdd_ok h0.1 h0.2, Outcome.bind_ok, Outcome.pure_eq]
      congr 1
    | succ n ih =>
      rw [decrs, hone' it hit]
      by_cases h1 : 1 ≤ it.pos
      · rw [if_pos h1, Outcome.bind_ok, ← ih _ (by simp only; omega)]
        simp only [minus, subAssign, assertPtr, Outcome.bind_ok]
        have e : ((it.pos - 1 : Nat) : Int) + -(n : Int) = it.pos + -((n + 1 : Nat) : Int) := by omega
        simp only [ptrAdd, e]
      · rw [if_neg h1, Outcome.bind_ub]
        simp only [minus, subAssign, assertPtr, Outcome.bind_ok]
        rw [ptrAdd_ub (by omega)]; rfl

/-- C70: in both builds, stepping from `begin()` reaches `end()` after exactly `size()` increments, and back
after as many decrements; no step in between fails or has reached the end earlier. -/
theorem c70_steps (b : Build) (slots parent size : Nat) (h : size ≤ slots) (k : Nat) (hk : k ≤ size) :
    incrs b slots k (begin' parent size) = .ok ⟨k, parent, size⟩ ∧
    decrs b slots k (end' parent size) = .ok ⟨size - k, parent, size⟩ ∧
    (ne ⟨k, parent, size⟩ (end' parent size) = decide (k < size)) := by
  have up : ∀ k i, i + k ≤ size → incrs b slots k ⟨i, parent, size⟩ = .ok ⟨i + k, parent, size⟩ := by
    intro k
    induction k with
    | zero => intro i _; rfl
    | succ k ih =>
      intro i hi
      have : incr b slots ⟨i, parent, size⟩ = .ok ⟨i + 1, parent, size⟩ := by
        have hne : i ≠ size := by omega
        cases b <;> simp [incr, debugAssert, hne, ptrAdd_ok (show 0 ≤ (i : Int) + 1 by omega) (show (i : Int) + 1 ≤ slots by omega)] <;> omega
      rw [incrs, this, Outcome.bind_ok, ih (i + 1) (by omega)]
      congr 2; omega
  have down : ∀ k i, k ≤ i → i ≤ size → decrs b slots k ⟨i, parent, size⟩ = .ok ⟨i - k, parent, size⟩ := by
    intro k
    induction k with
    | zero => intro i _ _; rfl
    | succ k ih =>
      intro i hi hs
      have : decr b slots ⟨i, parent, size⟩ = .ok ⟨i - 1, parent, size⟩ := by
        have hne : i ≠ 0 := by omega
        cases b <;> simp [decr, debugAssert, hne, ptrAdd_ok (show 0 ≤ (i : Int) + -1 by omega) (show (i : Int) + -1 ≤ slots by omega)] <;> omega
      rw [decrs, this, Outcome.bind_ok, ih (i - 1) (by omega) (by omega)]
      congr 2; omega
  refine ⟨?_, down k size hk (Nat.le_refl _), ?_⟩
  · have := up k 0 (by omega)
    rwa [Nat.zero_add] at this
  · simp only [ne, eq, end', BEq.rfl, Bool.true_and]
    by_cases he : k = size
    · simp [he]
    · have h1 : (k == size) = false := by simpa using he
      rw [h1, decide_eq_true (by omega)]; rfl

/-- C70: a range `for` over a static vector, in both builds, visits exactly its elements in order, after every
program. -/
theorem c70_loop {α : Type} (b : Build) (cap : Nat) (hcap : cap < 2 ^ 64 - 1) (d : α) (mv : α → α) (parent k : Nat)
    (ops : List (StaticVector.Op α)) :
    let v := (St.outcomes (StaticVector.step cap d mv) ops fun _ => StaticVector.empty cap).2 k
    let l := (Spec.StaticVector.history cap d mv ops fun _ => []).2 k
    loop b v (end' parent v.size) v.size (begin' parent v.size) = .ok l := by
  intro v l
  obtain ⟨rest, h1, h2, h3⟩ := (StaticVector.outcomes_refines hcap d mv ops _ _ fun _ => StaticVector.holds_empty cap).2 k
  have hv : v.size = l.length := h2
  have hle : l.length ≤ v.data.length := by
    show l.length ≤ List.length _
    rw [h1]; simp [l]
  have hgo : ∀ n i, i + n = l.length → loop b v (end' parent v.size) n ⟨i, parent, v.size⟩ = .ok (l.drop i) := by
    intro n
    induction n with
    | zero =>
      intro i hi
      have : ne ⟨i, parent, v.size⟩ (end' parent v.size) = false := by
        simp only [ne, eq, end', BEq.rfl, Bool.true_and, hv]
        simp; omega
      rw [loop, this, List.drop_eq_nil_of_le (by omega)]; rfl
    | succ n ih =>
      intro i hi
      have hne : ne ⟨i, parent, v.size⟩ (end' parent v.size) = true := by
        simp only [ne, eq, end', BEq.rfl, Bool.true_and, hv]
        simp; omega
      have hix : v.index i = .ok l[i] := StaticVector.index_eq h1 (show i < l.length by omega)
      have hinc : incr b v.data.length ⟨i, parent, v.size⟩ = .ok ⟨i + 1, parent, v.size⟩ := by
        have hne : i ≠ v.size := by omega
        cases b <;> simp [incr, debugAssert, hne, ptrAdd_ok (show 0 ≤ (i : Int) + 1 by omega) (show (i : Int) + 1 ≤ v.data.length by omega)] <;> omega
      rw [loop, hne, if_pos rfl, deref, hix, Outcome.bind_ok, hinc, Outcome.bind_ok, ih (i + 1) (by omega),
        Outcome.bind_ok, List.drop_eq_getElem_cons (by omega : i < l.length)]
      rfl
  rw [hv] at hgo ⊢
  exact hgo l.length 0 (by omega)

/-- C70 is false in debug builds: the move from `begin()` to `end()`, and any other move to `end()` by an offset, fails
an assertion, for every container. -/
theorem c70_refuted_end (slots parent size : Nat) (h : size ≤ slots) (k : Nat) (hk : k ≤ size) :
    plus .debug slots ⟨k, parent, size⟩ ((size : Int) - k) =
      .throw (.assertion "static_vector::operator+: incrementing past end") ∧
    plus .release slots ⟨k, parent, size⟩ ((size : Int) - k) = .ok (end' parent size) := by
  have h0 : 0 ≤ (k : Int) + ((size : Int) - k) ∧ (k : Int) + ((size : Int) - k) ≤ slots := by omega
  have e : ((k : Int) + ((size : Int) - k)).toNat = size := by omega
  simp [plus, addAssign, assertPtr, debugAssert, ptrAdd_ok h0.1 h0.2, e, end']

/-- C70, what holds in debug builds: a move by an offset to an element (a position before `end()`) is accepted and
does what the release build does; so are single steps to anywhere in `[begin(), end()]`. -/
theorem c70_debug_partial (slots parent size : Nat) (h : size ≤ slots) (k : Nat) (n : Int)
    (h0 : 0 ≤ k + n) (h1 : k + n < size) :
    plus .debug slots ⟨k, parent, size⟩ n = plus .release slots ⟨k, parent, size⟩ n ∧
    minus .debug slots ⟨k, parent, size⟩ (-n) = plus .release slots ⟨k, parent, size⟩ n ∧
    addAssign .debug slots n ⟨k, parent, size⟩ = plus .release slots ⟨k, parent, size⟩ n ∧
    subAssign .debug slots (-n) ⟨k, parent, size⟩ = plus .release slots ⟨k, parent, size⟩ n ∧
    (plus .release slots ⟨k, parent, size⟩ n).returns ∧
    (k < size → incr .debug slots ⟨k, parent, size⟩ = incr .release slots ⟨k, parent, size⟩) ∧
    (0 < k → decr .debug slots ⟨k, parent, size⟩ = decr .release slots ⟨k, parent, size⟩) := by
  have a : 0 ≤ (k : Int) + n ∧ (k : Int) + n ≤ slots := by omega
  have e : decide (((k : Int) + n).toNat < size) = true := by simp; omega
  simp only [plus, minus, addAssign, subAssign, assertPtr, debugAssert, Int.neg_neg, ptrAdd_ok a.1 a.2, Outcome.bind_ok, e, if_true,
    Outcome.pure_eq, Nat.zero_le, decide_true, true_and]
  refine ⟨trivial, fun hlt => ?_, fun hpos => ?_⟩
  · have : k ≠ size := by omega
    simp [incr, debugAssert, this]
  · have : k ≠ 0 := by omega
    simp [decr, debugAssert, this]

/-- C70: debug builds report stepping over either end, and mixing iterators of different containers. -/
theorem c70_debug_reports (slots parent size : Nat) (it other : DerefIter) (u : DerefIter → DerefIter → Ordering)
    (h : it.parent ≠ other.parent) :
    incr .debug slots (end' parent size) = .throw (.assertion "static_vector::operator++: incrementing past end") ∧
    decr .debug slots (begin' parent size) = .throw (.assertion "static_vector::operator--: decrementing past beginning") ∧
    distance .debug it other = .throw (.assertion
      "static_vector::operator-: distance comparison between two iterators with different parent containers") ∧
    cmp .debug u it other = .throw (.assertion
      "static_vector::operator<=>: comparison between two iterators with different parent containers") ∧
    distance .release it other = .ub := by
  simp [incr, decr, end', begin', distance, cmp, debugAssert, h]

/-- C70: iterators of different containers are never equal, wherever they stand, and iterators of one container are equal
exactly if they stand at the same position; `!=` is the opposite. -/
theorem c70_equal (it other : DerefIter) :
    (eq it other = true ↔ it.parent = other.parent ∧ it.pos = other.pos) ∧ (ne it other = true ↔ ¬ eq it other = true) := by
  constructor
  · simp [eq]
  · cases h : eq it other <;> simp [ne, h]

example : eq (end' 0 3) (end' 1 3) = false ∧ ne (begin' 0 3) (begin' 1 3) = true := by decide

/-- C70: subscripting an iterator of a static vector reaches the element `n` further on, in both builds, wherever
that is an element. -/
theorem c70_subscript {α : Type} (b : Build) (cap : Nat) (v : StaticVector α) (l : List α)
    (hv : StaticVector.Holds cap v l) (parent k n : Nat) (hn : k + n < l.length) :
    subscript b v ⟨k, parent, v.size⟩ n = .ok l[k + n] := by
  obtain ⟨rest, h1, h2, h3⟩ := hv
  have hlen : l.length ≤ v.data.length := by rw [h1]; simp
  have a : 0 ≤ (k : Int) + (n : Int) ∧ (k : Int) + (n : Int) ≤ v.data.length := by omega
  have e : ((k : Int) + (n : Int)).toNat = k + n := by omega
  have hd : v.data[k + n]? = some (some l[k + n]) := by
    rw [h1, List.getElem?_append_left (by simpa using hn), List.getElem?_map, List.getElem?_eq_getElem hn]; rfl
  have hsz : v.size = l.length := h2
  cases b
  · have hlt : decide (k + n < v.size) = true := by simp; omega
    have hnn : decide ((0 : Int) ≤ (n : Int)) = true := by simp
    simp only [subscript, debugAssert, assertPtr, ptrAdd_ok a.1 a.2, Outcome.bind_ok, e, hlt, if_true, Outcome.pure_eq, hd,
      hnn]
  · have hlt : decide (k + n < v.size) = true := by simp; omega
    have hnn : decide ((0 : Int) ≤ (n : Int)) = true := by simp
    simp only [subscript, debugAssert, assertPtr, ptrAdd_ok a.1 a.2, Outcome.bind_ok, e, hlt, if_true, Outcome.pure_eq, hd,
      hnn]
  · simp only [subscript, debugAssert, assertPtr, ptrAdd_ok a.1 a.2, Outcome.bind_ok, e, hd]

example : plus .release 4 ⟨1, 0, 3⟩ 2 = .ok ⟨3, 0, 3⟩ := by decide
example : plus .debug 4 ⟨1, 0, 3⟩ 1 = .ok ⟨2, 0, 3⟩ := by decide
example : plus .debug 0 (begin' 0 0) 0 = .throw (.assertion "static_vector::operator+: incrementing past end") := by decide
example : loop .debug (⟨[some 4, some 5, some 6, none], 3⟩ : StaticVector Nat) (end' 0 3) 3 (begin' 0 3) = .ok [4, 5, 6] := by decide

/-! ## C125 -/

private theorem incrs_release (slots parent e : Nat) : ∀ j k, k + j ≤ slots →
    incrs .release slots j ⟨k, parent, e⟩ = .ok ⟨k + j, parent, e⟩ := by
  intro j
  induction j with
  | zero => intro k _; rfl
  | succ j ih =>
    intro k hk
    have : incr .release slots ⟨k, parent, e⟩ = .ok ⟨k + 1, parent, e⟩ := by
      simp [incr, debugAssert, ptrAdd_ok (show 0 ≤ (k : Int) + 1 by omega) (show (k : Int) + 1 ≤ slots by omega)]
    rw [incrs, this, Outcome.bind_ok, ih (k + 1) (by omega)]
    congr 2; omega

/-- C125: in both builds, an iterator to an element obtained before a static vector grows (by `resize`, or `push_back`,
which is `resize` by one) leads to the same element afterwards. -/
theorem c125_same_element {α : Type} (cap : Nat) (v : StaticVector α) (l : List α) (hv : StaticVector.Holds cap v l)
    (n : Nat) (hn : l.length ≤ n) (x : α) (it : DerefIter) (hit : it.pos < l.length) :
    deref (StaticVector.resize n x v).2 it = deref v it ∧ deref v it = .ok l[it.pos] := by
  have h := StaticVector.resize_eq hv n x
  obtain ⟨rest, h1, h2, h3⟩ := hv
  refine ⟨?_, StaticVector.index_eq h1 hit⟩
  split at h
  · obtain ⟨v', g1, rest', g2, g3, g4⟩ := h
    rw [g1]
    simp only [deref]
    have hl : it.pos < (Spec.StaticVector.resized l n x).length := by simp [Spec.StaticVector.resized]; omega
    rw [StaticVector.index_eq g2 hl, StaticVector.index_eq h1 hit]
    congr 1
    simp only [Spec.StaticVector.resized]
    rw [List.getElem_append_left (by simp; omega), List.getElem_take]
  · rw [h]

/-- C125: release builds: stepping `begin()` obtained before the vector grew reaches the new elements too, and after `size()`
steps the new `end()`. -/
theorem c125_release {α : Type} (cap : Nat) (v : StaticVector α) (l : List α) (hv : StaticVector.Holds cap v l)
    (parent n : Nat) (hn : l.length ≤ n) (hcap : n ≤ cap) (x : α) (j : Nat) (hj : j ≤ n) :
    let w := (StaticVector.resize n x v).2
    ∃ it, incrs .release cap j (begin' parent v.size) = .ok it ∧
      (eq it (end' parent w.size) ↔ j = n) ∧
      (∀ h : j < l.length, deref w it = .ok l[j]) ∧ (l.length ≤ j → j < n → deref w it = .ok x) := by
  intro w
  obtain ⟨v', g1, rest', g2, g3, g4⟩ := (if_pos hcap).mp (StaticVector.resize_eq hv n x)
  have hw : w = v' := by simp only [w, g1]
  have hlen : (Spec.StaticVector.resized l n x).length = n := by simp [Spec.StaticVector.resized]; omega
  refine ⟨⟨0 + j, parent, v.size⟩, incrs_release cap parent v.size j 0 (by omega), ?_, ?_, ?_⟩
  · have : w.size = n := by rw [hw]; exact g3.trans hlen
    simp only [eq, end', BEq.rfl, Bool.true_and, beq_iff_eq, this]; omega
  · intro h
    simp only [deref, hw, Nat.zero_add]
    rw [StaticVector.index_eq g2 (by omega)]
    congr 1
    simp only [Spec.StaticVector.resized]
    rw [List.getElem_append_left (by simp; omega), List.getElem_take]
  · intro h h'
    simp only [deref, hw, Nat.zero_add]
    rw [StaticVector.index_eq g2 (by omega)]
    congr 1
    simp only [Spec.StaticVector.resized]
    rw [List.getElem_append_right (by simp; omega), List.getElem_replicate]

/-- C125 is false in debug builds: an iterator remembers the end its container had when it was made.  For every vector that
has grown, stepping an old iterator to any element behind the first new one fails an assertion, though the element exists. -/
theorem c125_refuted (slots parent size : Nat) (h : size ≤ slots) (j : Nat) (hj : size < j) :
    incrs .debug slots j (begin' parent size) =
      .throw (.assertion "static_vector::operator++: incrementing past end") := by
  obtain ⟨j', rfl⟩ : ∃ j', j = size + (j' + 1) := ⟨j - size - 1, by omega⟩
  have hadd : ∀ a b it, incrs .debug slots (a + b) it = (incrs .debug slots a it >>= incrs .debug slots b) := by
    intro a
    induction a with
    | zero => intro b it; simp [incrs]
    | succ a ih =>
      intro b it
      rw [Nat.succ_add, incrs, incrs]
      cases incr .debug slots it with
      | ok t => simp only [Outcome.bind_ok, ih]
      | _ => rfl
  rw [hadd, (c70_steps .debug slots parent size h size (Nat.le_refl _)).1, Outcome.bind_ok, incrs,
    show (⟨size, parent, size⟩ : DerefIter) = end' parent size from rfl]
  have : incr .debug slots (end' parent size) = .throw (.assertion "static_vector::operator++: incrementing past end") := by
    simp [incr, end', debugAssert]
  rw [this]; rfl

/-- C125 is false in debug builds for the usual loop as well, whenever a vector grew (by `resize`, or `push_back`, which is
`resize` by one): a loop that starts from an iterator obtained before, and compares with the current `end()`, visits all
elements in release builds and fails an assertion in debug builds. -/
theorem c125_refuted_loop {α : Type} (cap : Nat) (v : StaticVector α) (l : List α) (hv : StaticVector.Holds cap v l)
    (parent n : Nat) (hn : l.length < n) (hcap : n ≤ cap) (x : α) (w : StaticVector α)
    (hw : StaticVector.resize n x v = (.ok (), w)) :
    loop .release w (end' parent w.size) w.size (begin' parent v.size) = .ok (l ++ List.replicate (n - l.length) x) ∧
    loop .debug w (end' parent w.size) w.size (begin' parent v.size) =
      .throw (.assertion "static_vector::operator++: incrementing past end") := by
  obtain ⟨v', g1, rest', g2, g3, g4⟩ := (if_pos hcap).mp (StaticVector.resize_eq hv n x)
  obtain rfl : w = v' := by rw [hw] at g1; exact (Prod.mk.inj g1).2
  have hvs : v.size = l.length := hv.choose_spec.2.1
  have hr : Spec.StaticVector.resized l n x = l ++ List.replicate (n - l.length) x := by
    rw [Spec.StaticVector.resized, List.take_of_length_le (by omega)]
  rw [hr] at g2 g3
  generalize hL : l ++ List.replicate (n - l.length) x = L at g2 g3 ⊢
  have hLn : L.length = n := by rw [← hL]; simp; omega
  have hws : w.size = L.length := g3
  have hne : ∀ i e, i < L.length → ne ⟨i, parent, e⟩ (end' parent w.size) = true := by
    intro i e hi
    simp only [ne, eq, end', BEq.rfl, Bool.true_and, hws]
    simp; omega
  have hadd : ∀ i, i < L.length → ptrAdd w.data.length i 1 = .ok (i + 1) := by
    intro i hi
    rw [ptrAdd_ok (by omega) (by omega)]; congr 1
  constructor
  · have hgo : ∀ k i, i + k = L.length →
        loop .release w (end' parent w.size) k ⟨i, parent, v.size⟩ = .ok (L.drop i) := by
      intro k
      induction k with
      | zero =>
        intro i hi
        have : ne ⟨i, parent, v.size⟩ (end' parent w.size) = false := by
          simp only [ne, eq, end', BEq.rfl, Bool.true_and, hws]
          simp; omega
        rw [loop, this, List.drop_eq_nil_of_le (by omega)]; rfl
      | succ k ih =>
        intro i hi
        have hix : w.index i = .ok L[i] := StaticVector.index_eq g2 (show i < L.length by omega)
        have hinc : incr .release w.data.length ⟨i, parent, v.size⟩ = .ok ⟨i + 1, parent, v.size⟩ := by
          simp [incr, debugAssert, hadd i (by omega)]
        rw [loop, hne i _ (by omega), if_pos rfl, deref, hix, Outcome.bind_ok, hinc, Outcome.bind_ok, ih (i + 1) (by omega),
          Outcome.bind_ok, List.drop_eq_getElem_cons (by omega : i < L.length)]
        rfl
    have := hgo w.size 0 (by omega)
    rwa [List.drop_zero] at this
  · have hgo : ∀ k i f, i + k = l.length → k < f →
        loop .debug w (end' parent w.size) f ⟨i, parent, v.size⟩ =
          .throw (.assertion "static_vector::operator++: incrementing past end") := by
      intro k
      induction k with
      | zero =>
        intro i f hi hf
        obtain ⟨f, rfl⟩ : ∃ f', f = f' + 1 := ⟨f - 1, by omega⟩
        have hix : w.index i = .ok L[i] := StaticVector.index_eq g2 (show i < L.length by omega)
        have hinc : incr .debug w.data.length ⟨i, parent, v.size⟩ =
            .throw (.assertion "static_vector::operator++: incrementing past end") := by
          have : i = v.size := by omega
          simp [incr, debugAssert, this]
        rw [loop, hne i _ (by omega), if_pos rfl, deref, hix, Outcome.bind_ok, hinc]
        rfl
      | succ k ih =>
        intro i f hi hf
        obtain ⟨f, rfl⟩ : ∃ f', f = f' + 1 := ⟨f - 1, by omega⟩
        have hix : w.index i = .ok L[i] := StaticVector.index_eq g2 (show i < L.length by omega)
        have hinc : incr .debug w.data.length ⟨i, parent, v.size⟩ = .ok ⟨i + 1, parent, v.size⟩ := by
          have : i ≠ v.size := by omega
          simp [incr, debugAssert, this, hadd i (by omega)]
        rw [loop, hne i _ (by omega), if_pos rfl, deref, hix, Outcome.bind_ok, hinc, Outcome.bind_ok, ih (i + 1) f (by omega) (by omega)]
        rfl
    exact hgo l.length 0 _ (by omega) (by omega)

example : ∃ v w : StaticVector Nat, StaticVector.ofList 4 [1, 2] = .ok v ∧ StaticVector.pushBack 3 v = (.ok (), w) ∧
    loop .release w (end' 0 w.size) w.size (begin' 0 v.size) = .ok [1, 2, 3] :=
  ⟨⟨[some 1, some 2, none, none], 2⟩, ⟨[some 1, some 2, some 3, none], 3⟩, by decide, by decide, by decide⟩

/-- C125, what holds in debug builds: old iterators step up to the end the vector had then. -/
theorem c125_debug_partial {α : Type} (cap : Nat) (v : StaticVector α) (l : List α) (hv : StaticVector.Holds cap v l)
    (parent n : Nat) (hn : l.length ≤ n) (x : α) (j : Nat) (hj : j ≤ l.length) :
    let w := (StaticVector.resize n x v).2
    ∃ it, incrs .debug cap j (begin' parent v.size) = .ok it ∧
      (∀ h : j < l.length, deref w it = .ok l[j]) := by
  intro w
  have hsz : v.size = l.length := hv.choose_spec.2.1
  have hle : l.length ≤ cap := by
    obtain ⟨rest, h1, h2, h3⟩ := hv
    rw [← h3, h1]; simp
  refine ⟨⟨j, parent, v.size⟩, (c70_steps .debug cap parent v.size (by omega) j (by omega)).1, fun h => ?_⟩
  have := c125_same_element cap v l hv n hn x ⟨j, parent, v.size⟩ h
  exact this.1.trans this.2

end Wite.Props
