import Verif.Spec.CollIter
import Verif.Lemmas.CollectionMove

/-!
# Property C131: iterators of an `identifiable_item_collection` that is moved
-/

namespace Wite.Props

open Wite Wite.Collections Wite.Spec.CollectionMove Wite.Spec.CollIter

variable {n : Nat} {ι α : Type} [DecidableEq ι]

/-- Memory never runs out. -/
private abbrev plenty : Site → Nat → Bool := fun _ _ => true

/-- The state after a program on `n` empty collections, if no call had undefined behaviour. -/
private abbrev after (b : Build) (idOf : α → ι) (ops : List (Colls.Op n ι α)) : Option (Colls n ι α) :=
  St.history (Colls.step b plenty idOf) ops Colls.empty

private theorem inv_after {b : Build} {idOf : α → ι} {ops : List (Colls.Op n ι α)} (h : KeepsIds idOf ops) {w : Colls n ι α}
    (hw : after b idOf ops = some w) : ∃ es, Colls.Inv idOf es w := by
  have hk : ∀ op ∈ ops, op.keepsIds idOf := by
    intro op hop
    cases op with
    | move i j => trivial
    | call i op =>
      cases op <;> try trivial
      exact h i _ _ hop
  obtain ⟨w', es, h1, h2⟩ := Colls.reachable_inv (fun _ _ => rfl) b ops (Colls.inv_empty idOf) hk
  have := hw.symm.trans h1
  cases this
  exact ⟨es, h2⟩

private theorem elements_into {s : Arrays n ι α} (hd : Distinct s) {k : Fin n} {it : CollIter n} (hi : Into s k it)
    (hp : it.pos < (s.w.colls k).ordered.length) : CollIter.elements s it.array = some (s.w.colls k).ordered := by
  cases ha : s.data k with
  | none => rw [hd.2 k ha] at hp; simp at hp
  | some a =>
    rw [hi.1, ha]
    have : (List.finRange n).find? (fun k' => s.data k' = some a) = some k := by
      cases hf : (List.finRange n).find? (fun k' => s.data k' = some a) with
      | none =>
        rw [List.find?_eq_none] at hf
        exact absurd ha (by simpa using hf k (List.mem_finRange k))
      | some k' =>
        have := List.find?_some hf
        rw [hd.1 k' k a (by simpa using this) ha]
    simp [CollIter.elements, this]

private theorem history_append {σ κ β : Type} (f : κ → St σ β) (xs ys : List κ) : ∀ (s : σ),
    St.history f (xs ++ ys) s = (St.history f xs s).bind (St.history f ys) := by
  induction xs with
  | nil => intro s; rfl
  | cons x xs ih =>
    intro s
    simp only [List.cons_append, St.history]
    rcases f x s with ⟨o, s'⟩
    cases o <;> first | exact ih s' | rfl

/-! ## C131 -/

/-- C131: iterators that `begin()` and `end()` return point into their collection. -/
theorem c131_obtained (s : Arrays n ι α) (k : Fin n) :
    Into s k (CollIter.begin' s k) ∧ Into s k (CollIter.end' s k) :=
  ⟨⟨rfl, Nat.zero_le _, rfl⟩, ⟨rfl, Nat.le_refl _, rfl⟩⟩

/-- C131: an iterator into a collection that is moved points to the same place in the target, and one into a third collection
to the same place there; the state is again one to which all this applies. -/
theorem c131_follows (b : Build) (idOf : α → ι) (ops : List (Colls.Op n ι α)) (h : KeepsIds idOf ops) (s : Arrays n ι α)
    (hs : after b idOf ops = some s.w) (hd : Distinct s) (i j : Fin n) (hij : i ≠ j) :
    ((CollIter.move i j).run s).1 = .ok () ∧ Distinct ((CollIter.move i j).run s).2 ∧
    after b idOf (ops ++ [.move i j]) = some ((CollIter.move i j).run s).2.w ∧
    (∀ it, Into s j it → Into ((CollIter.move i j).run s).2 i it) ∧
    ∀ k it, k ≠ i → k ≠ j → Into s k it → Into ((CollIter.move i j).run s).2 k it := by
  obtain ⟨es, hi⟩ := inv_after h hs
  have hm := Colls.move_run hi i j
  have hrun : (CollIter.move i j).run s =
      (.ok (), { w := s.w.moved i j, data := fun k => if k = j then none else if k = i then s.data j else s.data k }) := by
    simp only [CollIter.move, St.run]
    have : Colls.move i j s.w = (.ok (), s.w.moved i j) := hm
    rw [this]
  rw [hrun]
  refine ⟨rfl, ⟨?_, ?_⟩, ?_, ?_, ?_⟩
  · intro k l a hk hl
    simp only at hk hl
    by_cases h1 : k = j
    · simp [h1] at hk
    · by_cases h2 : l = j
      · simp [h2] at hl
      · rw [if_neg h1] at hk
        rw [if_neg h2] at hl
        by_cases h3 : k = i <;> by_cases h4 : l = i
        · rw [h3, h4]
        · rw [if_pos h3] at hk; rw [if_neg h4] at hl; exact absurd (hd.1 j l a hk hl).symm h2
        · rw [if_neg h3] at hk; rw [if_pos h4] at hl; exact absurd (hd.1 k j a hk hl) h1
        · rw [if_neg h3] at hk; rw [if_neg h4] at hl; exact hd.1 k l a hk hl
  · intro k hk
    simp only [Colls.moved] at hk ⊢
    by_cases h1 : k = j
    · simp [h1]
    · rw [if_neg h1] at hk ⊢
      by_cases h3 : k = i
      · rw [if_pos h3] at hk ⊢; exact hd.2 j hk
      · rw [if_neg h3] at hk ⊢; exact hd.2 k hk
  · have hst : Colls.step b plenty idOf (.move i j) s.w = (.ok .unit, s.w.moved i j) := by
      have : (Colls.step b plenty idOf (.move i j)).run s.w = (.ok .unit, s.w.moved i j) := by
        rw [Colls.step, St.run_bind_ok hm, St.run_pure]
      exact this
    show St.history _ _ _ = _
    rw [history_append, show St.history _ ops _ = some s.w from hs]
    simp [St.history, hst]
  · intro it hit
    simpa [Into, Colls.moved, hij] using hit
  · intro k it h1 h2 hit
    simpa [Into, Colls.moved, h1, h2] using hit

/-- C131: an iterator into a collection, wherever it was obtained, shows the item at its position. -/
theorem c131_shows (b : Build) (idOf : α → ι) (ops : List (Colls.Op n ι α)) (h : KeepsIds idOf ops) (s : Arrays n ι α)
    (hs : after b idOf ops = some s.w) (hd : Distinct s) (k : Fin n) (it : CollIter n) (hi : Into s k it)
    (hp : it.pos < (s.w.view k).size) : CollIter.deref s it = (s.w.view k).atIndex it.pos := by
  obtain ⟨es, hinv⟩ := inv_after h hs
  have hlen : (s.w.view k).size = (s.w.colls k).ordered.length := by
    rw [← hinv.snds k, List.length_map]; rfl
  rw [hlen] at hp
  rw [CollIter.deref, elements_into hd hi hp]
  have hg : (s.w.colls k).ordered[it.pos]? = some (s.w.colls k).ordered[it.pos] := List.getElem?_eq_getElem hp
  simp only [hg, ItemCollection.atIndex, Colls.view, ItemCollection.deref]
  cases s.w.heap (s.w.colls k).ordered[it.pos] <;> rfl

/-- C131: a loop from such an iterator to the end of the collection visits the remaining items in order, in both builds. -/
theorem c131_loop (b c : Build) (idOf : α → ι) (ops : List (Colls.Op n ι α)) (h : KeepsIds idOf ops) (s : Arrays n ι α)
    (hs : after b idOf ops = some s.w) (hd : Distinct s) (k : Fin n) (it : CollIter n) (hi : Into s k it) :
    ∃ l, (s.w.view k).iterate = .ok l ∧ CollIter.loop c s (CollIter.end' s k) l.length it = .ok (l.drop it.pos) := by
  obtain ⟨es, hinv⟩ := inv_after h hs
  refine ⟨(es k).map Prod.snd, (hinv.shows k).2.2.1, ?_⟩
  have hlen : (s.w.colls k).ordered.length = ((es k).map Prod.snd).length := by rw [hinv.ordered]; simp
  suffices H : ∀ (fuel : Nat) (it : CollIter n), Into s k it → ((es k).map Prod.snd).length - it.pos ≤ fuel →
      CollIter.loop c s (CollIter.end' s k) fuel it = .ok (((es k).map Prod.snd).drop it.pos) from
    H _ it hi (by omega)
  intro fuel
  induction fuel with
  | zero =>
    intro it hi hf
    have hp := hi.2.1
    have : it.pos = (s.w.colls k).ordered.length := by omega
    have he : CollIter.eq it (CollIter.end' s k) = true := by simp [CollIter.eq, CollIter.end', hi.1, this]
    rw [CollIter.loop, if_pos he, List.drop_eq_nil_of_le (by omega)]
  | succ fuel ih =>
    intro it hi hf
    by_cases hp : it.pos = (s.w.colls k).ordered.length
    · have he : CollIter.eq it (CollIter.end' s k) = true := by simp [CollIter.eq, CollIter.end', hi.1, hp]
      rw [CollIter.loop, if_pos he, List.drop_eq_nil_of_le (by omega)]
    · have hlt : it.pos < (s.w.colls k).ordered.length := Nat.lt_of_le_of_ne hi.2.1 hp
      have he : CollIter.eq it (CollIter.end' s k) = false := by simp [CollIter.eq, CollIter.end', hi.1, hp]
      have hlt' : it.pos < ((es k).map Prod.snd).length := by omega
      have hde : CollIter.deref s it = .ok ((es k).map Prod.snd)[it.pos] := by
        rw [CollIter.deref, elements_into hd hi hlt]
        have hlt2 : it.pos < (es k).length := by simpa using hlt'
        have hg : (s.w.colls k).ordered[it.pos]? = some (es k)[it.pos].1 := by
          rw [hinv.ordered]; simp [hlt2]
        simp only [hg, hinv.heap k _ (List.getElem_mem hlt2), List.getElem_map]
      have hin : CollIter.incr c s it = .ok { it with pos := it.pos + 1 } := by
        have hne : it.pos ≠ it.parentEnd := by rw [hi.2.2]; exact hp
        rw [CollIter.incr, elements_into hd hi hlt]
        cases c <;> simp [debugAssert, hne, hlt, Bind.bind, Outcome.bind, pure]
      rw [CollIter.loop, he, hde, hin]
      simp only [Bool.false_eq_true, if_false, Outcome.bind_ok]
      rw [ih { it with pos := it.pos + 1 } ⟨hi.1, by simp only; omega, hi.2.2⟩ (by simp only; omega)]
      simp only [Outcome.bind_ok]
      rw [List.drop_eq_getElem_cons hlt']
      rfl

/-- C131: two iterators into one collection are equal exactly if they are at the same position. -/
theorem c131_equal (s : Arrays n ι α) (k : Fin n) (x y : CollIter n) (hx : Into s k x) (hy : Into s k y) :
    CollIter.eq x y = decide (x.pos = y.pos) := by
  simp [CollIter.eq, hx.1, hy.1, beq_eq_decide]

/-- C131, as far as it holds: release builds, and debug builds for iterators obtained from the same collection, give the
distance and the order of the positions. -/
theorem c131_partial (b : Build) (u : CollIter n → CollIter n → Ordering) (s : Arrays n ι α) (k : Fin n) (x y : CollIter n)
    (hx : Into s k x) (hy : Into s k y) (hb : b = .release ∨ x.parent = y.parent) :
    CollIter.distance b x y = .ok ((x.pos : Int) - y.pos) ∧ CollIter.cmp b u x y = .ok (compare x.pos y.pos) := by
  have ha : x.array = y.array := hx.1.trans hy.1.symm
  rcases hb with rfl | hp
  · simp [CollIter.distance, CollIter.cmp, debugAssert, ha, Bind.bind, Outcome.bind, pure]
  · cases b <;> simp [CollIter.distance, CollIter.cmp, debugAssert, ha, hp, Bind.bind, Outcome.bind, pure]

/-- C131 is false in debug builds: after a move, subtracting from or ordering against an iterator of the new owner an iterator
obtained before the move fails an assertion, always. -/
theorem c131_refuted (u : CollIter n → CollIter n → Ordering) (s : Arrays n ι α) (i j : Fin n) (hij : i ≠ j) :
    let s' := ((CollIter.move i j).run s).2
    CollIter.distance .debug (CollIter.end' s' i) (CollIter.begin' s j) =
      .throw (.assertion "static_vector::operator-: distance comparison between two iterators with different parent containers") ∧
    CollIter.cmp .debug u (CollIter.begin' s j) (CollIter.end' s' i) =
      .throw (.assertion "static_vector::operator<=>: comparison between two iterators with different parent containers") := by
  have hji : j ≠ i := Ne.symm hij
  constructor
  · simp [CollIter.distance, CollIter.begin', CollIter.end', debugAssert, hij, Bind.bind, Outcome.bind]
  · simp [CollIter.cmp, CollIter.begin', CollIter.end', debugAssert, hji, Bind.bind, Outcome.bind]

private def sample : Option (Arrays 2 Nat (Nat × Char)) :=
  (after .release Prod.fst [.call 1 (.insert (2, 'b')), .call 1 (.insert (1, 'a')), .call 0 (.insert (9, 'x'))]).map
    fun w => ⟨w, fun k => some k.val⟩

example : sample.map (fun s =>
      let s' := ((CollIter.move 0 1).run s).2
      (CollIter.loop .debug s' (CollIter.end' s' 0) 2 (CollIter.begin' s 1),
        CollIter.distance .release (CollIter.end' s' 0) (CollIter.begin' s 1),
        CollIter.distance .debug (CollIter.end' s 1) (CollIter.begin' s 1))) =
    some (.ok [(2, 'b'), (1, 'a')], .ok 2, .ok 2) := by decide +kernel

example : sample.map (fun s => CollIter.deref ((CollIter.move 0 1).run s).2 (CollIter.begin' s 0)) = some .ub := by decide +kernel

end Wite.Props
