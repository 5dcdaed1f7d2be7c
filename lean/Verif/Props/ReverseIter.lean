import Verif.Model.ReverseIter
import Verif.Lemmas.StaticVector
import Verif.Lemmas.ItemCollection

/-!
# Property C124: reverse iterators of the collections
-/

namespace Wite.Props

open Wite Wite.Collections

private theorem ptrAdd_ok {slots pos : Nat} {off : Int} (h0 : 0 ≤ (pos : Int) + off) (h1 : (pos : Int) + off ≤ slots) :
    DerefIter.ptrAdd slots pos off = .ok ((pos : Int) + off).toNat := by
  rw [DerefIter.ptrAdd, if_pos ⟨h0, h1⟩]

private theorem decr_eq (b : Build) {slots i parent size : Nat} (h0 : 0 < i) (h1 : i ≤ slots) :
    DerefIter.decr b slots ⟨i, parent, size⟩ = .ok ⟨i - 1, parent, size⟩ := by
  have hne : i ≠ 0 := by omega
  have e : ((i : Int) + -1).toNat = i - 1 := by omega
  cases b <;>
    simp [DerefIter.decr, debugAssert, hne, ptrAdd_ok (show 0 ≤ (i : Int) + -1 by omega) (show (i : Int) + -1 ≤ slots by omega), e]

private theorem deref_eq {α : Type} (b : Build) {slots i parent size : Nat} (read : Nat → Outcome α) (h0 : 0 < i)
    (h1 : i ≤ slots) : RevIter.deref b slots read ⟨⟨i, parent, size⟩⟩ = read (i - 1) := by
  rw [RevIter.deref, decr_eq b h0 h1, Outcome.bind_ok]

private theorem incr_eq (b : Build) {slots i parent size : Nat} (h0 : 0 < i) (h1 : i ≤ slots) :
    RevIter.incr b slots ⟨⟨i, parent, size⟩⟩ = .ok ⟨⟨i - 1, parent, size⟩⟩ := by
  rw [RevIter.incr, decr_eq b h0 h1, Outcome.bind_ok]; rfl

private theorem ne_rend (i parent size : Nat) :
    RevIter.ne ⟨⟨i, parent, size⟩⟩ (RevIter.rend parent size) = decide (0 < i) := by
  cases i <;> simp [RevIter.ne, RevIter.rend, DerefIter.ne, DerefIter.eq, DerefIter.begin']

private theorem incrs_eq (b : Build) {slots parent size : Nat} (hslots : size ≤ slots) (k : Nat) : ∀ i, k ≤ i → i ≤ size →
    RevIter.incrs b slots k ⟨⟨i, parent, size⟩⟩ = .ok ⟨⟨i - k, parent, size⟩⟩ := by
  induction k with
  | zero => intro i _ _; rfl
  | succ k ih =>
    intro i hi hl
    rw [RevIter.incrs, incr_eq b (by omega) (by omega), Outcome.bind_ok, ih (i - 1) (by omega) (by omega)]
    congr 3; omega

/-- The loop over anything that reads like a list. -/
private theorem loop_eq {α : Type} (b : Build) {slots : Nat} (read : Nat → Outcome α) (l : List α) (parent : Nat)
    (hslots : l.length ≤ slots) (hread : ∀ i (h : i < l.length), read i = .ok l[i]) :
    RevIter.loop b slots read (RevIter.rend parent l.length) l.length (RevIter.rbegin parent l.length) = .ok l.reverse := by
  have hgo : ∀ i, i ≤ l.length →
      RevIter.loop b slots read (RevIter.rend parent l.length) i ⟨⟨i, parent, l.length⟩⟩ = .ok (l.take i).reverse := by
    intro i
    induction i with
    | zero => intro _; rw [RevIter.loop, ne_rend]; rfl
    | succ i ih =>
      intro hi
      rw [RevIter.loop, ne_rend, if_pos (by simp), deref_eq b read (by omega) (by omega),
        incr_eq b (by omega) (by omega)]
      simp only [Nat.add_sub_cancel]
      rw [hread i (by omega), Outcome.bind_ok, Outcome.bind_ok, ih (by omega), Outcome.bind_ok,
        List.take_succ_eq_append_getElem (by omega : i < l.length), List.reverse_append]
      rfl
  have := hgo l.length (Nat.le_refl _)
  rw [List.take_length] at this
  exact this

/-- C124: a loop from `rbegin()` to `rend()` over a static vector visits its elements last to first, in both builds, after
every program. -/
theorem c124_loop {α : Type} (b : Build) (cap : Nat) (hcap : cap < 2 ^ 64 - 1) (d : α) (mv : α → α) (parent k : Nat)
    (ops : List (StaticVector.Op α)) :
    let v := (St.outcomes (StaticVector.step cap d mv) ops fun _ => StaticVector.empty cap).2 k
    let l := (Spec.StaticVector.history cap d mv ops fun _ => []).2 k
    RevIter.loop b v.capacity v.index (RevIter.rend parent v.size) v.size (RevIter.rbegin parent v.size) =
      .ok l.reverse := by
  intro v l
  obtain ⟨rest, h1, h2, h3⟩ := (StaticVector.outcomes_refines hcap d mv ops _ _ fun _ => StaticVector.holds_empty cap).2 k
  have hv : v.size = l.length := h2
  have hle : l.length ≤ v.capacity := by
    show l.length ≤ List.length _
    rw [h1]; simp [l]
  rw [hv]
  exact loop_eq b v.index l parent hle fun i hi => StaticVector.index_eq h1 hi

/-- C124: a loop from `rbegin()` to `rend()` over an `identifiable_item_collection` visits the items in the opposite order of
a loop from `begin()` to `end()`, in both builds, after every program that does not change ids through references. -/
theorem c124_loop_collection {ι α : Type} [DecidableEq ι] (b : Build) (idOf : α → ι) (parent : Nat)
    (ops : List (ItemCollection.Op ι α))
    (h : ∀ op ∈ ops, match op with
      | .modify _ f => ∀ x, idOf (f x) = idOf x
      | _ => True) :
    ∃ s l, St.history (ItemCollection.step b (fun _ _ => true) idOf) ops ItemCollection.empty = some s ∧
      s.iterate = .ok l ∧
      RevIter.loop b s.ordered.length (RevIter.readItem s) (RevIter.rend parent s.size) s.size
        (RevIter.rbegin parent s.size) = .ok l.reverse := by
  have hk : ∀ op ∈ ops, op.keepsIds idOf := by
    intro op hop
    have := h op hop
    cases op <;> simp_all [ItemCollection.Op.keepsIds]
  obtain ⟨s, es, h1, h2⟩ := ItemCollection.reachable_inv (fun _ _ => rfl) b ops (ItemCollection.inv_empty idOf) hk
  refine ⟨s, es.map Prod.snd, h1, h2.shows.2.2.1, ?_⟩
  have hs : s.size = (es.map Prod.snd).length := h2.shows.1
  rw [hs]
  refine loop_eq b _ _ parent (by rw [h2.ordered]; simp) fun i hi => ?_
  have hi' : i < es.length := by simpa using hi
  have ho : s.ordered[i]? = some es[i].1 := by
    rw [h2.ordered, List.getElem?_map, List.getElem?_eq_getElem hi']; rfl
  have hh := h2.heap es[i] (List.getElem_mem hi')
  simp only [RevIter.readItem, ho, hh, List.getElem_map]

/-- C124: in both builds, `k` increments of `rbegin()` are possible for every `k` up to the size, the last and only the
last of them gives `rend()`, and before that `*r` is element `k` of the reversed contents and `--` undoes `++`. -/
theorem c124_steps {α : Type} (b : Build) (slots parent : Nat) (read : Nat → Outcome α) (l : List α)
    (hslots : l.length ≤ slots) (hread : ∀ i (h : i < l.length), read i = .ok l[i]) (k : Nat) (hk : k ≤ l.length) :
    ∃ r, RevIter.incrs b slots k (RevIter.rbegin parent l.length) = .ok r ∧
      (RevIter.ne r (RevIter.rend parent l.length) ↔ k < l.length) ∧
      (∀ h : k < l.length, RevIter.deref b slots read r = .ok (l.reverse[k]'(by simpa using h)) ∧
        ∃ r', RevIter.incr b slots r = .ok r' ∧ RevIter.decr b slots r' = .ok r) := by
  have hgo := incrs_eq b (parent := parent) hslots
  refine ⟨_, hgo k l.length hk (Nat.le_refl _), ?_, fun h => ?_⟩
  · rw [ne_rend]; simp; omega
  · constructor
    · rw [deref_eq b read (by omega) (by omega), hread _ (by omega)]
      simp only [List.getElem_reverse]
      congr 2; omega
    · refine ⟨_, incr_eq b (by omega) (by omega), ?_⟩
      have hne : l.length - k - 1 ≠ l.length := by omega
      have e : (((l.length - k - 1 : Nat) : Int) + 1).toNat = l.length - k := by omega
      cases b <;>
        simp only [RevIter.decr, DerefIter.incr, debugAssert, hne, ne_eq, not_false_eq_true, decide_true, if_true,
          Outcome.bind_ok, ptrAdd_ok (show 0 ≤ ((l.length - k - 1 : Nat) : Int) + 1 by omega)
            (show ((l.length - k - 1 : Nat) : Int) + 1 ≤ slots by omega), e, Outcome.pure_eq]

/-- The iterator `k` steps from `rbegin()`. -/
private abbrev revAt (parent size k : Nat) : RevIter := ⟨⟨size - k, parent, size⟩⟩

private theorem minus_release {slots i parent size : Nat} {n : Int} (h0 : 0 ≤ (i : Int) - n) (h1 : (i : Int) - n ≤ slots) :
    DerefIter.minus .release slots ⟨i, parent, size⟩ n = .ok ⟨((i : Int) - n).toNat, parent, size⟩ := by
  simp only [DerefIter.minus, DerefIter.subAssign, DerefIter.assertPtr, Outcome.bind_ok,
    ptrAdd_ok (show 0 ≤ (i : Int) + -n by omega) (show (i : Int) + -n ≤ slots by omega), Outcome.pure_eq]
  rfl

private theorem minus_debug {slots i parent size : Nat} {n : Int} (h0 : 0 ≤ (i : Int) - n) (h1 : (i : Int) - n < size)
    (h2 : size ≤ slots) :
    DerefIter.minus .debug slots ⟨i, parent, size⟩ n = .ok ⟨((i : Int) - n).toNat, parent, size⟩ := by
  have e : decide (((i : Int) + -n).toNat < size) = true := by simp; omega
  simp only [DerefIter.minus, DerefIter.subAssign, DerefIter.assertPtr, Outcome.bind_ok,
    ptrAdd_ok (show 0 ≤ (i : Int) + -n by omega) (show (i : Int) + -n ≤ slots by omega), Outcome.pure_eq, e, if_true,
    Nat.zero_le, decide_true]
  rfl

/-- C124: release builds: from the `k`-th position of the reverse order, `r + n`, `r - (-n)`, `r += n` and `r -= -n` go to
position `k + n`, wherever that is (up to and including `rend()`); the distance back is `n` and the order agrees. -/
theorem c124_arithmetic (slots parent size : Nat) (hslots : size ≤ slots) (k : Nat) (n : Int) (hk : k ≤ size)
    (h0 : 0 ≤ k + n) (h1 : k + n ≤ size) (u : DerefIter → DerefIter → Ordering) :
    ∃ r r', RevIter.incrs .release slots k (RevIter.rbegin parent size) = .ok r ∧
      RevIter.incrs .release slots (k + n).toNat (RevIter.rbegin parent size) = .ok r' ∧
      RevIter.plus .release slots r n = .ok r' ∧ RevIter.minus .release slots r (-n) = .ok r' ∧
      RevIter.addAssign .release slots n r = .ok r' ∧ RevIter.subAssign .release slots (-n) r = .ok r' ∧
      RevIter.distance .release r' r = .ok n ∧ RevIter.cmp .release u r' r = .ok (compare n 0) := by
  have hgo := incrs_eq .release (parent := parent) hslots
  have e : (((size - k : Nat) : Int) - n).toNat = size - (k + n).toNat := by omega
  have e' : (((size - k : Nat) : Int) + -n).toNat = size - (k + n).toNat := by omega
  have hp := minus_release (parent := parent) (size := size) (slots := slots) (i := size - k) (n := n) (by omega) (by omega)
  rw [e] at hp
  refine ⟨revAt parent size k, revAt parent size (k + n).toNat, hgo k size hk (Nat.le_refl _),
    hgo _ size (by omega) (Nat.le_refl _), ?_, ?_, ?_, ?_, ?_, ?_⟩
  · rw [RevIter.plus, hp]; rfl
  · simp only [RevIter.minus, DerefIter.plus, DerefIter.addAssign, DerefIter.assertPtr, Outcome.bind_ok,
      ptrAdd_ok (show 0 ≤ ((size - k : Nat) : Int) + -n by omega) (show ((size - k : Nat) : Int) + -n ≤ slots by omega),
      Outcome.pure_eq, e']
  · simp only [RevIter.addAssign, DerefIter.subAssign, DerefIter.assertPtr, Outcome.bind_ok,
      ptrAdd_ok (show 0 ≤ ((size - k : Nat) : Int) + -n by omega) (show ((size - k : Nat) : Int) + -n ≤ slots by omega),
      Outcome.pure_eq, e']
  · simp only [RevIter.subAssign, DerefIter.addAssign, DerefIter.assertPtr, Outcome.bind_ok,
      ptrAdd_ok (show 0 ≤ ((size - k : Nat) : Int) + -n by omega) (show ((size - k : Nat) : Int) + -n ≤ slots by omega),
      Outcome.pure_eq, e']
  · simp only [RevIter.distance, DerefIter.distance, debugAssert, Outcome.bind_ok, if_true, Outcome.pure_eq]
    congr 1; omega
  · simp only [RevIter.cmp, DerefIter.cmp, debugAssert, Outcome.bind_ok, if_true, Outcome.pure_eq]
    congr 1
    simp only [compare, compareOfLessAndEq]
    have e1 : size - k < size - (k + n).toNat ↔ n < 0 := by omega
    have e2 : size - k = size - (k + n).toNat ↔ n = 0 := by omega
    simp only [e1, e2]

/-- C124: release builds: `r[n]` is element `k + n` of the reversed contents, by either way the standard library has of
computing it. -/
theorem c124_subscript {α : Type} (cap : Nat) (v : StaticVector α) (l : List α) (hv : StaticVector.Holds cap v l)
    (parent k : Nat) (n : Int) (hk : k ≤ l.length) (h0 : 0 ≤ k + n) (h1 : k + n < l.length) :
    ∃ r, RevIter.incrs .release v.capacity k (RevIter.rbegin parent v.size) = .ok r ∧
      RevIter.subscript .release v.capacity v.index r n = .ok (l.reverse[(k + n).toNat]'(by simp; omega)) ∧
      RevIter.subscriptBase .release v r n = .ok (l.reverse[(k + n).toNat]'(by simp; omega)) := by
  obtain ⟨rest, g1, g2, g3⟩ := hv
  have hlen : l.length ≤ v.data.length := by rw [g1]; simp
  have hsz : v.size = l.length := g2
  obtain ⟨r, r', a1, a2, a3, -⟩ := c124_arithmetic v.capacity parent v.size (by rw [hsz]; exact hlen) k n (by omega)
    (by omega) (by omega) fun _ _ => .eq
  obtain ⟨r1, b1, -, b3⟩ := c124_steps .release v.capacity parent v.index l hlen (fun i hi => StaticVector.index_eq g1 hi)
    (k + n).toNat (by omega)
  rw [← hsz, a2] at b1
  cases b1
  refine ⟨r, a1, ?_, ?_⟩
  · rw [RevIter.subscript, a3, Outcome.bind_ok, (b3 (by omega)).1]
  · have hr : r = revAt parent v.size k := by
      have hgo := incrs_eq .release (parent := parent) (show v.size ≤ v.capacity by rw [hsz]; exact hlen)
      have := hgo k v.size (by omega) (Nat.le_refl _)
      rw [show (⟨⟨v.size, parent, v.size⟩⟩ : RevIter) = RevIter.rbegin parent v.size from rfl, a1] at this
      exact Outcome.ok.inj this
    have e : (((v.size - k : Nat) : Int) + (-n - 1)).toNat = l.length - 1 - (k + n).toNat := by omega
    have hd : v.data[l.length - 1 - (k + n).toNat]? = some (some (l[l.length - 1 - (k + n).toNat]'(by omega))) := by
      rw [g1, List.getElem?_append_left (by simp; omega), List.getElem?_map, List.getElem?_eq_getElem (by omega)]; rfl
    simp only [RevIter.subscriptBase, DerefIter.subscript, hr, debugAssert, DerefIter.assertPtr, Outcome.bind_ok,
      ptrAdd_ok (show 0 ≤ ((v.size - k : Nat) : Int) + (-n - 1) by omega)
        (show ((v.size - k : Nat) : Int) + (-n - 1) ≤ v.data.length by omega), e, hd, List.getElem_reverse]

/-- C124 is false in debug builds.  For every container: moving by an offset to `rbegin()` (from anywhere, also from `rbegin()`
itself by 0) fails an assertion, so `rbegin()[0]` does, and `rend() - size()`. -/
theorem c124_refuted {α : Type} (slots parent size : Nat) (hslots : size ≤ slots) (read : Nat → Outcome α) (k : Nat)
    (hk : k ≤ size) :
    ∃ r, RevIter.incrs .debug slots k (RevIter.rbegin parent size) = .ok r ∧
      RevIter.plus .debug slots r (-k) = .throw (.assertion "static_vector::operator-: incrementing past end") ∧
      RevIter.minus .debug slots r k = .throw (.assertion "static_vector::operator+: incrementing past end") ∧
      RevIter.subscript .debug slots read r (-k) =
        .throw (.assertion "static_vector::operator-: incrementing past end") := by
  have hgo := incrs_eq .debug (parent := parent) hslots
  have e1 : (((size - k : Nat) : Int) + (k : Int)).toNat = size := by omega
  have hm : DerefIter.minus .debug slots ⟨size - k, parent, size⟩ (-(k : Int)) =
      .throw (.assertion "static_vector::operator-: incrementing past end") := by
    simp [DerefIter.minus, DerefIter.assertPtr, debugAssert,
      ptrAdd_ok (show 0 ≤ ((size - k : Nat) : Int) + (k : Int) by omega)
        (show ((size - k : Nat) : Int) + (k : Int) ≤ slots by omega), e1]
  refine ⟨revAt parent size k, hgo k size hk (Nat.le_refl _), ?_, ?_, ?_⟩
  · rw [RevIter.plus, hm]; rfl
  · simp [RevIter.minus, DerefIter.plus, DerefIter.assertPtr, debugAssert,
      ptrAdd_ok (show 0 ≤ ((size - k : Nat) : Int) + (k : Int) by omega)
        (show ((size - k : Nat) : Int) + (k : Int) ≤ slots by omega), e1]
  · rw [RevIter.subscript, RevIter.plus, hm]; rfl

/-- C124 is false in debug builds with a standard library that computes `r[n]` as `base[-n - 1]`: for every static vector,
iterator and `n ≥ 0` that fails an assertion. -/
theorem c124_refuted_base {α : Type} (v : StaticVector α) (r : RevIter) (n : Nat) :
    RevIter.subscriptBase .debug v r n =
      .throw (.assertion "static_vector::operator[]: negative indices are invalid") := by
  have : decide ((0 : Int) ≤ -(n : Int) - 1) = false := by simp; omega
  simp only [RevIter.subscriptBase, DerefIter.subscript, debugAssert, this]
  rfl

/-- C124, what holds in debug builds: a move by an offset to any position but `rbegin()`, and `*(r + n)` at such a position, do
what they do in release builds. -/
theorem c124_debug_partial {α : Type} (slots parent : Nat) (read : Nat → Outcome α) (l : List α)
    (hslots : l.length ≤ slots) (hread : ∀ i (h : i < l.length), read i = .ok l[i]) (k : Nat) (n : Int)
    (hk : k ≤ l.length) (h0 : 0 < k + n) (h1 : k + n ≤ l.length) :
    ∃ r r', RevIter.incrs .debug slots k (RevIter.rbegin parent l.length) = .ok r ∧
      RevIter.incrs .debug slots (k + n).toNat (RevIter.rbegin parent l.length) = .ok r' ∧
      RevIter.plus .debug slots r n = .ok r' ∧
      RevIter.distance .debug r' r = .ok n ∧
      (∀ h : k + n < l.length,
        RevIter.subscript .debug slots read r n = .ok (l.reverse[(k + n).toNat]'(by simp; omega))) := by
  have hgo := incrs_eq .debug (parent := parent) hslots
  have hp := minus_debug (parent := parent) (size := l.length) (slots := slots) (i := l.length - k) (n := n) (by omega)
    (by omega) hslots
  have e : (((l.length - k : Nat) : Int) - n).toNat = l.length - (k + n).toNat := by omega
  rw [e] at hp
  have hplus : RevIter.plus .debug slots (revAt parent l.length k) n = .ok (revAt parent l.length (k + n).toNat) := by
    rw [RevIter.plus, hp]; rfl
  refine ⟨revAt parent l.length k, revAt parent l.length (k + n).toNat, hgo k l.length hk (Nat.le_refl _),
    hgo _ l.length (by omega) (Nat.le_refl _), hplus, ?_, fun h => ?_⟩
  · simp only [RevIter.distance, DerefIter.distance, debugAssert, Outcome.bind_ok, if_true, Outcome.pure_eq, decide_true]
    congr 1; omega
  · obtain ⟨r1, b1, -, b3⟩ := c124_steps .debug slots parent read l hslots hread (k + n).toNat (by omega)
    rw [RevIter.rbegin, DerefIter.end', hgo _ l.length (by omega) (Nat.le_refl _)] at b1
    cases b1
    rw [RevIter.subscript, hplus, Outcome.bind_ok, (b3 (by omega)).1]

example : RevIter.loop .debug 4 (⟨[some 4, some 5, some 6, none], 3⟩ : StaticVector Nat).index (RevIter.rend 0 3) 3
    (RevIter.rbegin 0 3) = .ok [6, 5, 4] := by decide
example : RevIter.subscript .release 4 (⟨[some 4, some 5, some 6, none], 3⟩ : StaticVector Nat).index (RevIter.rbegin 0 3) 0 =
    .ok 6 := by decide
example : RevIter.subscript .debug 4 (⟨[some 4, some 5, some 6, none], 3⟩ : StaticVector Nat).index (RevIter.rbegin 0 3) 0 =
    .throw (.assertion "static_vector::operator-: incrementing past end") := by decide
example : RevIter.subscript .debug 4 (⟨[some 4, some 5, some 6, none], 3⟩ : StaticVector Nat).index (RevIter.rbegin 0 3) 2 =
    .ok 4 := by decide
example : RevIter.subscriptBase .release (⟨[some 4, some 5, some 6, none], 3⟩ : StaticVector Nat) (RevIter.rbegin 0 3) 2 =
    .ok 4 := by decide

end Wite.Props
