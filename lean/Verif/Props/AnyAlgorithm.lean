import Verif.Lemmas.IterProg
import Verif.Lemmas.StaticVector
import Verif.Lemmas.FragmentString
import Verif.Lemmas.ItemCollection

/-!
# C179: any algorithm over the iterators of the library

A `Prog` is an algorithm written for random-access iterators of any type.  The theorems compare its run over pointers into
an array with its run over the iterators of the library.
-/

namespace Wite.Props

open Wite Wite.Alg Wite.Collections

variable {α β : Type}

/-! ## The operations -/

private theorem move_inv {len p q : Nat} {n : Int} (h : arrayMove len p n = .ok q) :
    0 ≤ (p : Int) + n ∧ (p : Int) + n ≤ len ∧ q = ((p : Int) + n).toNat := by
  unfold arrayMove at h
  split at h
  · rename_i hc
    injection h with h
    exact ⟨hc.1, hc.2, h.symm⟩
  · cases h

private theorem get_inv {l : List α} {p : Nat} {x : α} (h : arrayGet l p = .ok x) : ∃ hp : p < l.length, l[p] = x := by
  unfold arrayGet at h
  cases hx : l[p]? with
  | none => rw [hx] at h; cases h
  | some y =>
    rw [hx] at h
    injection h with h; subst h
    exact List.getElem?_eq_some_iff.mp hx

private theorem ptr_ok {slots len p q : Nat} {n : Int} (h : arrayMove len p n = .ok q) (hs : len ≤ slots) :
    DerefIter.ptrAdd slots p n = .ok q ∧ q ≤ len := by
  obtain ⟨h1, h2, rfl⟩ := move_inv h
  refine ⟨?_, by omega⟩
  unfold DerefIter.ptrAdd
  rw [if_pos ⟨h1, by omega⟩]

private theorem incr_sim (b : Build) {slots len p q : Nat} (par : Nat) (h : arrayMove len p 1 = .ok q) (hs : len ≤ slots) :
    q = p + 1 ∧ DerefIter.incr b slots ⟨p, par, len⟩ = .ok ⟨q, par, len⟩ ∧ q ≤ len := by
  obtain ⟨h1, h2⟩ := ptr_ok h hs
  obtain ⟨h3, h4, h5⟩ := move_inv h
  refine ⟨by omega, ?_, h2⟩
  have : p ≠ len := by omega
  unfold DerefIter.incr
  simp only [h1]
  cases b <;> simp [debugAssert, this]

private theorem decr_sim (b : Build) {slots len p q : Nat} (par : Nat) (h : arrayMove len p (-1) = .ok q) (hs : len ≤ slots) :
    q = p - 1 ∧ DerefIter.decr b slots ⟨p, par, len⟩ = .ok ⟨q, par, len⟩ ∧ q ≤ len := by
  obtain ⟨h1, h2⟩ := ptr_ok h hs
  obtain ⟨h3, h4, h5⟩ := move_inv h
  refine ⟨by omega, ?_, h2⟩
  have : p ≠ 0 := by omega
  unfold DerefIter.decr
  simp only [h1]
  cases b <;> simp [debugAssert, this]

private theorem add_sim (b : Build) {slots len p q : Nat} {n : Int} (par : Nat) (h : arrayMove len p n = .ok q) (hs : len ≤ slots) :
    (b = .release ∨ q ≠ len → DerefIter.addAssign b slots n ⟨p, par, len⟩ = .ok ⟨q, par, len⟩) ∧
    (q = len → b ≠ .release → DerefIter.addAssign b slots n ⟨p, par, len⟩ =
      badAssert b "static_vector::operator+=: incrementing past end") := by
  obtain ⟨h1, h2⟩ := ptr_ok h hs
  unfold DerefIter.addAssign
  simp only [h1]
  constructor
  · rintro (rfl | hq)
    · rfl
    · have : q < len := by omega
      cases b <;> simp [DerefIter.assertPtr, debugAssert, this]
  · rintro rfl hb
    cases b
    · simp [DerefIter.assertPtr, debugAssert, badAssert]
    · simp [DerefIter.assertPtr, debugAssert, badAssert]
    · exact absurd rfl hb

private theorem sub_sim (b : Build) {slots len p q : Nat} {n : Int} (par : Nat) (h : arrayMove len p (-n) = .ok q) (hs : len ≤ slots) :
    (b = .release ∨ q ≠ len → DerefIter.subAssign b slots n ⟨p, par, len⟩ = .ok ⟨q, par, len⟩) ∧
    (q = len → b ≠ .release → DerefIter.subAssign b slots n ⟨p, par, len⟩ =
      badAssert b "static_vector::operator-=: incrementing past end") := by
  obtain ⟨h1, h2⟩ := ptr_ok h hs
  unfold DerefIter.subAssign
  simp only [h1]
  constructor
  · rintro (rfl | hq)
    · rfl
    · have : q < len := by omega
      cases b <;> simp [DerefIter.assertPtr, debugAssert, this]
  · rintro rfl hb
    cases b
    · simp [DerefIter.assertPtr, debugAssert, badAssert]
    · simp [DerefIter.assertPtr, debugAssert, badAssert]
    · exact absurd rfl hb

private theorem plus_sim (b : Build) {slots len p q : Nat} {n : Int} (par : Nat) (h : arrayMove len p n = .ok q) (hs : len ≤ slots) :
    (b = .release ∨ q ≠ len → DerefIter.plus b slots ⟨p, par, len⟩ n = .ok ⟨q, par, len⟩) ∧
    (q = len → b ≠ .release → DerefIter.plus b slots ⟨p, par, len⟩ n =
      badAssert b "static_vector::operator+: incrementing past end") := by
  obtain ⟨h1, h2⟩ := ptr_ok h hs
  obtain ⟨a1, _⟩ := add_sim b par h hs
  unfold DerefIter.plus
  simp only [h1]
  constructor
  · intro hq
    rw [a1 hq]
    rcases hq with rfl | hq
    · rfl
    · have : q < len := by omega
      cases b <;> simp [DerefIter.assertPtr, debugAssert, this]
  · rintro rfl hb
    cases b
    · simp [DerefIter.assertPtr, debugAssert, badAssert]
    · simp [DerefIter.assertPtr, debugAssert, badAssert]
    · exact absurd rfl hb

private theorem minus_sim (b : Build) {slots len p q : Nat} {n : Int} (par : Nat) (h : arrayMove len p (-n) = .ok q) (hs : len ≤ slots) :
    (b = .release ∨ q ≠ len → DerefIter.minus b slots ⟨p, par, len⟩ n = .ok ⟨q, par, len⟩) ∧
    (q = len → b ≠ .release → DerefIter.minus b slots ⟨p, par, len⟩ n =
      badAssert b "static_vector::operator-: incrementing past end") := by
  obtain ⟨h1, h2⟩ := ptr_ok h hs
  obtain ⟨a1, _⟩ := sub_sim b par h hs
  unfold DerefIter.minus
  simp only [h1]
  constructor
  · intro hq
    rw [a1 hq]
    rcases hq with rfl | hq
    · rfl
    · have : q < len := by omega
      cases b <;> simp [DerefIter.assertPtr, debugAssert, this]
  · rintro rfl hb
    cases b
    · simp [DerefIter.assertPtr, debugAssert, badAssert]
    · simp [DerefIter.assertPtr, debugAssert, badAssert]
    · exact absurd rfl hb

private theorem distance_sim (b : Build) (p q par len : Nat) :
    DerefIter.distance b ⟨p, par, len⟩ ⟨q, par, len⟩ = .ok ((p : Int) - q) := by
  unfold DerefIter.distance
  cases b <;> simp [debugAssert]

private theorem cmp_sim (b : Build) (u : DerefIter → DerefIter → Ordering) (p q par len : Nat) :
    DerefIter.cmp b u ⟨p, par, len⟩ ⟨q, par, len⟩ = .ok (compare p q) := by
  unfold DerefIter.cmp
  cases b <;> simp [debugAssert]

private theorem eq_sim (p q par len : Nat) : DerefIter.eq ⟨p, par, len⟩ ⟨q, par, len⟩ = decide (p = q) := by
  unfold DerefIter.eq
  by_cases h : p = q <;> simp [h]

private theorem extra_if {c : Prop} [Decidable c] {m m' : String} (h : (if c then some m else none) = some m') : c ∧ m = m' := by
  split at h
  · rename_i hc; exact ⟨hc, by injection h⟩
  · cases h

private theorem extra_none {c : Prop} [Decidable c] {m : String} (h : (if c then some m else none) = none) : ¬c := by
  split at h
  · cases h
  · assumption

private theorem holds_set {cap : Nat} {v : StaticVector α} {l : List α} (h : StaticVector.Holds cap v l) {p : Nat} (hp : p < l.length)
    (x : α) : StaticVector.Holds cap { v with data := v.data.set p (some x) } (l.set p x) := by
  obtain ⟨rest, hd, hc, hl⟩ := h
  refine ⟨rest, ?_, by simpa using hc, by simpa using hl⟩
  simp only [hd]
  rw [List.set_append_left _ _ (by simpa using hp), List.map_set]

private theorem holds_len {cap : Nat} {v : StaticVector α} {l : List α} (h : StaticVector.Holds cap v l) :
    l.length ≤ v.data.length := by
  obtain ⟨rest, hd, _, _⟩ := h
  rw [hd]; simp

private theorem vector_sim (cap : Nat) (b : Build) (u : DerefIter → DerefIter → Ordering) (par : Nat) :
    Sim (vectorIters b u α) (arrayIters α) vectorExtra b (fun v l => StaticVector.Holds cap v l)
      (fun n i p => i = ⟨p, par, n⟩ ∧ p ≤ n) where
  load {v l i p x} hR hr h := by
    obtain ⟨rfl, _⟩ := hr
    refine ⟨h, ?_⟩
    obtain ⟨hp, rfl⟩ := get_inv h
    obtain ⟨rest, hd, _, _⟩ := hR
    exact StaticVector.index_eq hd hp
  store {v l i p x l'} hR hr h := by
    obtain ⟨rfl, _⟩ := hr
    have h' : (if p < l.length then .ok (l.set p x) else .ub : Outcome (List α)) = .ok l' := h
    split at h'
    · rename_i hp
      injection h' with h'
      subst h'
      refine ⟨rfl, { v with data := v.data.set p (some x) }, ?_, holds_set hR hp x⟩
      obtain ⟨rest, hd, _, _⟩ := hR
      have e : DerefIter.deref v ⟨p, par, l.length⟩ = .ok l[p] := StaticVector.index_eq hd hp
      simp only [vectorIters, e]
    · cases h'
  incr {v l i p q} hR hr h := by
    obtain ⟨rfl, _⟩ := hr
    obtain ⟨e1, e2, e3⟩ := incr_sim b par h (holds_len hR)
    exact ⟨e1, _, e2, rfl, e3⟩
  decr {v l i p q} hR hr h := by
    obtain ⟨rfl, _⟩ := hr
    obtain ⟨e1, e2, e3⟩ := decr_sim b par h (holds_len hR)
    exact ⟨e1, _, e2, rfl, e3⟩
  addAssign {v l i p q n} hR hr h := by
    obtain ⟨rfl, _⟩ := hr
    obtain ⟨e1, e2⟩ := add_sim b par h (holds_len hR)
    obtain ⟨h1, h2, h3⟩ := move_inv h
    refine ⟨h3, fun hb => ⟨_, e1 (hb.imp id fun hx => ?_), rfl, by omega⟩, fun msg hm hb => ?_⟩
    · have := extra_none hx; omega
    · obtain ⟨hc, rfl⟩ := extra_if hm
      exact e2 (by omega) hb
  subAssign {v l i p q n} hR hr h := by
    obtain ⟨rfl, _⟩ := hr
    obtain ⟨e1, e2⟩ := sub_sim b par h (holds_len hR)
    obtain ⟨h1, h2, h3⟩ := move_inv h
    refine ⟨by omega, fun hb => ⟨_, e1 (hb.imp id fun hx => ?_), rfl, by omega⟩, fun msg hm hb => ?_⟩
    · have := extra_none hx; omega
    · obtain ⟨hc, rfl⟩ := extra_if hm
      exact e2 (by omega) hb
  plus {v l i p q n} hR hr h := by
    obtain ⟨rfl, _⟩ := hr
    obtain ⟨e1, e2⟩ := plus_sim b par h (holds_len hR)
    obtain ⟨h1, h2, h3⟩ := move_inv h
    refine ⟨h3, fun hb => ⟨_, e1 (hb.imp id fun hx => ?_), rfl, by omega⟩, fun msg hm hb => ?_⟩
    · have := extra_none hx; omega
    · obtain ⟨hc, rfl⟩ := extra_if hm
      exact e2 (by omega) hb
  minus {v l i p q n} hR hr h := by
    obtain ⟨rfl, _⟩ := hr
    obtain ⟨e1, e2⟩ := minus_sim b par h (holds_len hR)
    obtain ⟨h1, h2, h3⟩ := move_inv h
    refine ⟨by omega, fun hb => ⟨_, e1 (hb.imp id fun hx => ?_), rfl, by omega⟩, fun msg hm hb => ?_⟩
    · have := extra_none hx; omega
    · obtain ⟨hc, rfl⟩ := extra_if hm
      exact e2 (by omega) hb
  distance {v l i j p q d} hR hr hr' h := by
    obtain ⟨rfl, _⟩ := hr
    obtain ⟨rfl, _⟩ := hr'
    injection h with h
    subst h
    exact ⟨rfl, distance_sim b p q par l.length⟩
  equal {n i j p q} hr hr' := by
    obtain ⟨rfl, _⟩ := hr
    obtain ⟨rfl, _⟩ := hr'
    exact ⟨rfl, eq_sim p q par n⟩
  compare {n i j p q o} hr hr' h := by
    obtain ⟨rfl, _⟩ := hr
    obtain ⟨rfl, _⟩ := hr'
    injection h with h
    subst h
    exact ⟨rfl, cmp_sim b u p q par n⟩
  subscript {v l i p n x} hR hr h := by
    obtain ⟨rfl, _⟩ := hr
    have h' : (arrayMove l.length p n >>= arrayGet l) = .ok x := h
    cases hm : arrayMove l.length p n with
    | ok q =>
      rw [hm, Outcome.bind_ok] at h'
      obtain ⟨h1, h2, h3⟩ := move_inv hm
      obtain ⟨hq, hx⟩ := get_inv h'
      obtain ⟨e1, _⟩ := ptr_ok hm (holds_len hR)
      obtain ⟨rest, hd, _, _⟩ := hR
      have hv : v.data[q]? = some (some x) := by
        rw [hd, List.getElem?_append_left (by simpa using hq), List.getElem?_map, List.getElem?_eq_getElem hq, hx]; rfl
      refine ⟨h3 ▸ h', fun hb => ?_, fun msg hmsg hb => ?_⟩
      · show DerefIter.subscript b v ⟨p, par, l.length⟩ n = _
        unfold DerefIter.subscript
        simp only [e1]
        rcases hb with rfl | hb
        · simp [debugAssert, DerefIter.assertPtr, hv]
        · have := extra_none hb
          have hn : 0 ≤ n := by omega
          cases b <;> simp [debugAssert, DerefIter.assertPtr, hv, hn, hq]
      · obtain ⟨hc, rfl⟩ := extra_if hmsg
        show DerefIter.subscript b v ⟨p, par, l.length⟩ n = _
        unfold DerefIter.subscript
        have hn : ¬0 ≤ n := by omega
        cases b
        · simp [debugAssert, hn, badAssert]
        · simp [debugAssert, hn, badAssert]
        · exact absurd rfl hb
    | throw e => rw [hm] at h'; cases h'
    | ub => rw [hm] at h'; cases h'
    | terminate => rw [hm] at h'; cases h'
    | diverge => rw [hm] at h'; cases h'

private theorem start_regs {ι : Type} {rel : ι → Nat → Prop} {i j : ι} {p q : Nat} (hi : rel i p) (hj : rel j q) :
    Regs rel [i, j] [p, q] := by
  refine ⟨rfl, fun r x y hx hy => ?_⟩
  match r with
  | 0 => cases hx; cases hy; exact hi
  | 1 => cases hx; cases hy; exact hj
  | r + 2 => simp at hx

/-! ## static_vector -/

/-- C179, `static_vector`: an algorithm that takes `begin()` and `end()` and is defined over pointers to an array of the
same elements gives the same result and leaves the same elements, in release builds always, and in the other builds if it
never jumps to `end()` and never uses `[]` with a negative number. If it does, the assertion fails that belongs to the
operation, and the elements are those the array has at that moment. -/
theorem c179_vector_partial (cap : Nat) (b : Build) (u : DerefIter → DerefIter → Ordering) (parent : Nat) (v : StaticVector α)
    (l : List α) (hv : StaticVector.Holds cap v l) (prog : Prog α β) (y : β) (l' : List α)
    (h : Alg.run (arrayIters α) prog [0, l.length] l = (.ok y, l')) :
    (b = .release ∨ firstCheck vectorExtra prog [0, l.length] l = none →
      ∃ v', Alg.run (vectorIters b u α) prog [DerefIter.begin' parent l.length, DerefIter.end' parent l.length] v = (.ok y, v') ∧
        StaticVector.Holds cap v' l') ∧
    (∀ zs msg, firstCheck vectorExtra prog [0, l.length] l = some (zs, msg) →
      (b = .debug → ∃ v', Alg.run (vectorIters b u α) prog [DerefIter.begin' parent l.length, DerefIter.end' parent l.length] v =
        (.throw (.assertion msg), v') ∧ StaticVector.Holds cap v' zs) ∧
      (b = .aborting → ∃ v', Alg.run (vectorIters b u α) prog [DerefIter.begin' parent l.length, DerefIter.end' parent l.length] v =
        (.terminate, v'))) := by
  obtain ⟨h1, h2⟩ := (vector_sim cap b u parent).run prog [DerefIter.begin' parent l.length, DerefIter.end' parent l.length]
    [0, l.length] v l y l' hv (start_regs ⟨rfl, Nat.zero_le _⟩ ⟨rfl, Nat.le_refl _⟩) h
  refine ⟨h1, fun zs msg hf => ⟨?_, ?_⟩⟩
  · rintro rfl
    exact h2 zs msg hf (by simp)
  · rintro rfl
    obtain ⟨v', e, _⟩ := h2 zs msg hf (by simp)
    exact ⟨v', e⟩

/-- C179 is false in the builds with assertions: over every vector there is an algorithm that is defined for pointers and
fails. `first + (last - first)` is enough. -/
theorem c179_refuted (cap : Nat) (u : DerefIter → DerefIter → Ordering) (parent : Nat) (v : StaticVector α)
    (l : List α) (hv : StaticVector.Holds cap v l) :
    ∃ prog : Prog α Unit, Alg.run (arrayIters α) prog [0, l.length] l = (.ok (), l) ∧
      (Alg.run (vectorIters .debug u α) prog [DerefIter.begin' parent l.length, DerefIter.end' parent l.length] v).1 =
        .throw (.assertion "static_vector::operator+: incrementing past end") ∧
      (Alg.run (vectorIters .aborting u α) prog [DerefIter.begin' parent l.length, DerefIter.end' parent l.length] v).1 =
        .terminate := by
  refine ⟨.distance 1 0 fun d => .plus 0 d (.ret ()), ?_, ?_, ?_⟩
  · simp [Alg.run, reg, arrayIters, arrayMove, lift_ok, get_bind]
    rfl
  · have h : Alg.run (arrayIters α) (.distance 1 0 fun d => .plus 0 d (.ret ())) [0, l.length] l = (.ok (), l) := by
      simp [Alg.run, reg, arrayIters, arrayMove, lift_ok, get_bind]
      rfl
    have hf : firstCheck vectorExtra (.distance 1 0 fun d => .plus 0 d (.ret ()) : Prog α Unit) [0, l.length] l =
        some (l, "static_vector::operator+: incrementing past end") := by
      simp [firstCheck, reg, vectorExtra]
    obtain ⟨v', e, _⟩ := ((c179_vector_partial cap .debug u parent v l hv _ () l h).2 _ _ hf).1 rfl
    rw [e]
  · have h : Alg.run (arrayIters α) (.distance 1 0 fun d => .plus 0 d (.ret ())) [0, l.length] l = (.ok (), l) := by
      simp [Alg.run, reg, arrayIters, arrayMove, lift_ok, get_bind]
      rfl
    have hf : firstCheck vectorExtra (.distance 1 0 fun d => .plus 0 d (.ret ()) : Prog α Unit) [0, l.length] l =
        some (l, "static_vector::operator+: incrementing past end") := by
      simp [firstCheck, reg, vectorExtra]
    obtain ⟨v', e⟩ := ((c179_vector_partial cap .aborting u parent v l hv _ () l h).2 _ _ hf).2 rfl
    rw [e]

private theorem steps_check (X : Extra) (prog : Prog α β) : StepsOnly prog → ∀ regs l, firstCheck X prog regs l = none := by
  induction prog with
  | ret => intros; rfl
  | load r k ih => intro h regs l; rw [firstCheck]; split <;> first | exact ih _ (h _) _ _ | rfl
  | store r x k ih => intro h regs l; rw [firstCheck]; split <;> first | exact ih h _ _ | rfl
  | copy r k ih => intro h regs l; rw [firstCheck]; split <;> first | exact ih h _ _ | rfl
  | incr r k ih => intro h regs l; rw [firstCheck]; split <;> first | exact ih h _ _ | rfl
  | decr r k ih => intro h regs l; rw [firstCheck]; split <;> first | exact ih h _ _ | rfl
  | addAssign => intro h; exact h.elim
  | subAssign => intro h; exact h.elim
  | plus => intro h; exact h.elim
  | minus => intro h; exact h.elim
  | distance r s k ih => intro h regs l; rw [firstCheck]; split <;> first | exact ih _ (h _) _ _ | rfl
  | equal r s k ih => intro h regs l; rw [firstCheck]; split <;> first | exact ih _ (h _) _ _ | rfl
  | compare r s k ih => intro h regs l; rw [firstCheck]; split <;> first | exact ih _ (h _) _ _ | rfl
  | subscript => intro h; exact h.elim

/-- C179, algorithms for bidirectional iterators: over a `static_vector` they do in every build what they do over an
array. -/
theorem c179_steps (cap : Nat) (b : Build) (u : DerefIter → DerefIter → Ordering) (parent : Nat) (v : StaticVector α)
    (l : List α) (hv : StaticVector.Holds cap v l) (prog : Prog α β) (hp : StepsOnly prog) (y : β) (l' : List α)
    (h : Alg.run (arrayIters α) prog [0, l.length] l = (.ok y, l')) :
    ∃ v', Alg.run (vectorIters b u α) prog [DerefIter.begin' parent l.length, DerefIter.end' parent l.length] v = (.ok y, v') ∧
      StaticVector.Holds cap v' l' :=
  (c179_vector_partial cap b u parent v l hv prog y l' h).1 (.inr (steps_check _ _ hp _ _))

/-! ### std::reverse -/

/-- `std::reverse(first, last)` as libstdc++ has it for random-access iterators, with a bound on the rounds. -/
def reverseLoop : Nat → Prog α Unit
  | 0 => .ret ()
  | n + 1 => .compare 0 1 fun o =>
    if o = .lt then
      .load 0 fun x => .load 1 fun y => .store 0 y (.store 1 x (.incr 0 (.decr 1 (reverseLoop n))))
    else .ret ()

/-- The whole of it: nothing for an empty range, else from the last element on. -/
def reverseProg (n : Nat) : Prog α Unit := .equal 0 1 fun e => if e then .ret () else .decr 1 (reverseLoop n)

private theorem reverse_steps (n : Nat) : StepsOnly (reverseProg n : Prog α Unit) := by
  have : ∀ n, StepsOnly (reverseLoop n : Prog α Unit) := by
    intro n
    induction n with
    | zero => exact trivial
    | succ n ih =>
      intro o
      by_cases ho : o = .lt
      · simp only [if_pos ho]; intro x y; exact ih
      · simp only [if_neg ho]; exact trivial
  intro e
  cases e
  · exact this n
  · exact trivial

private theorem reg0 (a b : Nat) : reg [a, b] 0 = .ok a := rfl
private theorem reg1 (a b : Nat) : reg [a, b] 1 = .ok b := rfl
private theorem cmp_array (i j : Nat) : (arrayIters α).compare i j = .ok (compare i j) := rfl

private theorem reverse_array : ∀ (n : Nat) (pre mid post : List α), mid.length ≤ 2 * n → mid ≠ [] →
    Alg.run (arrayIters α) (reverseLoop n) [pre.length, pre.length + mid.length - 1] (pre ++ mid ++ post) =
      (.ok (), pre ++ mid.reverse ++ post) := by
  intro n
  induction n with
  | zero =>
    intro pre mid post hl hne
    exact absurd (List.length_eq_zero_iff.1 (by omega)) hne
  | succ n ih =>
    intro pre mid post hl hne
    have hpos := List.length_pos_iff.2 hne
    rw [reverseLoop, Alg.run, lift_ok (reg0 _ _), lift_ok (reg1 _ _),
      lift_ok (cmp_array _ _)]
    by_cases h1 : mid.length = 1
    · have e : compare pre.length (pre.length + mid.length - 1) = .eq := by
        rw [h1]; exact Nat.compare_eq_eq.2 rfl
      rw [e, if_neg (by decide)]
      obtain ⟨a, rfl⟩ := List.length_eq_one_iff.1 h1
      rfl
    · have e : compare pre.length (pre.length + mid.length - 1) = .lt := Nat.compare_eq_lt.2 (by omega)
      rw [e, if_pos rfl]
      obtain ⟨a, m, rfl⟩ := List.exists_cons_of_ne_nil hne
      have hm : m ≠ [] := by rintro rfl; exact h1 rfl
      obtain ⟨m', z, rfl⟩ : ∃ m' z, m = m' ++ [z] := ⟨m.dropLast, m.getLast hm, (List.dropLast_append_getLast hm).symm⟩
      have hlen : (a :: (m' ++ [z])).length = m'.length + 2 := by simp
      have hl' : m'.length + 2 ≤ 2 * (n + 1) := by rw [← hlen]; exact hl
      rw [hlen]
      have hlist : pre ++ (a :: (m' ++ [z])) ++ post = pre ++ a :: (m' ++ z :: post) := by simp
      have g0 : (arrayIters α).load (pre ++ (a :: (m' ++ [z])) ++ post) pre.length = .ok a := by
        rw [hlist]; simp [arrayIters, arrayGet]
      have g1 : (arrayIters α).load (pre ++ (a :: (m' ++ [z])) ++ post) (pre.length + (m'.length + 2) - 1) = .ok z := by
        rw [hlist]
        have : pre.length + (m'.length + 2) - 1 = pre.length + (m'.length + 1) := by omega
        rw [this]
        simp [arrayIters, arrayGet]
      have s0 : (arrayIters α).store (pre ++ (a :: (m' ++ [z])) ++ post) pre.length z = .ok (pre ++ z :: (m' ++ z :: post)) := by
        show (if _ then _ else _) = _
        rw [if_pos (by simp), hlist]
        simp
      have s1 : (arrayIters α).store (pre ++ z :: (m' ++ z :: post)) (pre.length + (m'.length + 2) - 1) a =
          .ok (pre ++ [z] ++ m' ++ (a :: post)) := by
        show (if _ then _ else _) = _
        rw [if_pos (by simp)]
        have : pre.length + (m'.length + 2) - 1 = (pre ++ z :: m').length := by simp
        rw [this]
        have : pre ++ z :: (m' ++ z :: post) = (pre ++ z :: m') ++ z :: post := by simp
        rw [this, List.set_append_right _ _ (by simp)]
        simp
      rw [Alg.run, lift_ok (reg0 _ _), get_bind, lift_ok g0, Alg.run, lift_ok (reg1 _ _), get_bind,
        lift_ok g1, Alg.run, lift_ok (reg0 _ _), get_bind, lift_ok s0, set_bind, Alg.run,
        lift_ok (reg1 _ _), get_bind, lift_ok s1, set_bind]
      have hl2 : (pre ++ [z] ++ m' ++ (a :: post)).length = pre.length + m'.length + post.length + 2 := by simp; omega
      have i0 : (arrayIters α).incr (pre ++ [z] ++ m' ++ (a :: post)) pre.length = .ok (pre.length + 1) := by
        show arrayMove _ _ _ = _
        unfold arrayMove
        rw [hl2, if_pos (by omega)]; rfl
      have i1 : (arrayIters α).decr (pre ++ [z] ++ m' ++ (a :: post)) (pre.length + (m'.length + 2) - 1) = .ok (pre.length + m'.length) := by
        show arrayMove _ _ _ = _
        unfold arrayMove
        rw [hl2, if_pos (by omega)]
        congr 1; omega
      rw [Alg.run, lift_ok (reg0 _ _), get_bind, lift_ok i0, List.set_cons_zero, Alg.run, lift_ok (reg1 _ _), get_bind,
        lift_ok i1, List.set_cons_succ, List.set_cons_zero]
      have hres : pre ++ (a :: (m' ++ [z])).reverse ++ post = (pre ++ [z]) ++ m'.reverse ++ (a :: post) := by simp
      rw [hres]
      by_cases hm' : m' = []
      · subst hm'
        cases n with
        | zero => simp [reverseLoop, Alg.run]; rfl
        | succ n =>
          rw [reverseLoop, Alg.run, lift_ok (reg0 _ _), lift_ok (reg1 _ _),
            lift_ok (cmp_array _ _)]
          have e : compare (pre.length + 1) (pre.length + ([] : List α).length) = .gt := Nat.compare_eq_gt.2 (by simp)
          rw [e, if_neg (by decide)]
          simp [Alg.run]; rfl
      · have := ih (pre ++ [z]) m' (a :: post) (by omega) hm'
        have e2 : (pre ++ [z]).length + m'.length - 1 = pre.length + m'.length := by simp only [List.length_append, List.length_singleton]; omega
        have e3 : (pre ++ [z]).length = pre.length + 1 := by simp
        rw [e2, e3] at this
        exact this

/-- C179: `std::reverse` turns the elements of a `static_vector` around, in every build. -/
theorem c179_reverse (cap : Nat) (b : Build) (u : DerefIter → DerefIter → Ordering) (parent : Nat) (v : StaticVector α)
    (l : List α) (hv : StaticVector.Holds cap v l) (n : Nat) (hn : l.length ≤ n) :
    ∃ v', Alg.run (vectorIters b u α) (reverseProg n) [DerefIter.begin' parent l.length, DerefIter.end' parent l.length] v =
      (.ok (), v') ∧ StaticVector.Holds cap v' l.reverse := by
  refine c179_steps cap b u parent v l hv _ (reverse_steps n) () l.reverse ?_
  rw [reverseProg, Alg.run, lift_ok (reg0 _ _), lift_ok (reg1 _ _)]
  by_cases h0 : l = []
  · subst h0; rfl
  · have hpos := List.length_pos_iff.2 h0
    have e : (arrayIters α).equal 0 l.length = false := by
      show decide (0 = l.length) = false
      simp; omega
    rw [e, if_neg (by simp), Alg.run, lift_ok (reg1 _ _), get_bind]
    have d : (arrayIters α).decr l l.length = .ok (l.length - 1) := by
      show arrayMove _ _ _ = _
      unfold arrayMove
      rw [if_pos (by omega)]
      congr 1; omega
    rw [lift_ok d]
    have := reverse_array n [] l [] (by omega) h0
    simpa using this

/-- C179, sorting: whatever steps a library's `std::sort` takes, if it sorts an array then it sorts a `static_vector` with
the same elements in release builds. -/
theorem c179_sort_release (cap : Nat) (u : DerefIter → DerefIter → Ordering) (parent : Nat) (lt : α → α → Bool) (prog : Prog α Unit)
    (v : StaticVector α) (l : List α) (hv : StaticVector.Holds cap v l)
    (hsort : ∃ l', Alg.run (arrayIters α) prog [0, l.length] l = (.ok (), l') ∧ l'.Perm l ∧
      l'.Pairwise (fun x y => lt y x = false)) :
    ∃ v' l', Alg.run (vectorIters .release u α) prog [DerefIter.begin' parent l.length, DerefIter.end' parent l.length] v =
      (.ok (), v') ∧ StaticVector.Holds cap v' l' ∧ l'.Perm l ∧ l'.Pairwise (fun x y => lt y x = false) := by
  obtain ⟨l', h1, h2, h3⟩ := hsort
  obtain ⟨v', e, hv'⟩ := (c179_vector_partial cap .release u parent v l hv prog () l' h1).1 (.inl rfl)
  exact ⟨v', l', e, hv', h2, h3⟩

example : ∃ v : StaticVector Nat, Alg.run (vectorIters .debug (fun _ _ => .eq) Nat) (reverseProg 3)
    [DerefIter.begin' 0 3, DerefIter.end' 0 3] ⟨[some 1, some 2, some 3, none], 3⟩ = (.ok (), v) ∧
    StaticVector.Holds 4 v [3, 2, 1] :=
  ⟨⟨[some 3, some 2, some 1, none], 3⟩, by decide +kernel, [none], rfl, rfl, rfl⟩

/-- The middle element by `first[(last - first) / 2]`, added up with the last one by `*(last - 1)`. -/
private def middleAndLast : Prog Nat Nat :=
  .distance 1 0 fun d => .subscript 0 (d / 2) fun x => .minus 1 1 (.load 2 fun y => .ret (x + y))

example : Alg.run (arrayIters Nat) middleAndLast [0, 3] [5, 6, 7] = (.ok 13, [5, 6, 7]) ∧
    firstCheck vectorExtra middleAndLast [0, 3] [5, 6, 7] = none ∧
    Alg.run (vectorIters .debug (fun _ _ => .eq) Nat) middleAndLast [DerefIter.begin' 0 3, DerefIter.end' 0 3]
      ⟨[some 5, some 6, some 7, none], 3⟩ = (.ok 13, ⟨[some 5, some 6, some 7, none], 3⟩) ∧
    Alg.run (reverseIters .debug (fun _ _ => .eq) Nat) middleAndLast [RevIter.rbegin 0 3, RevIter.rend 0 3]
      ⟨[some 5, some 6, some 7, none], 3⟩ = (.ok 11, ⟨[some 5, some 6, some 7, none], 3⟩) := by decide +kernel

/-- `last[-1]` -/
private def lastBySubscript : Prog Nat Nat := .subscript 1 (-1) .ret

example : firstCheck vectorExtra lastBySubscript [0, 3] [5, 6, 7] =
      some ([5, 6, 7], "static_vector::operator[]: negative indices are invalid") ∧
    Alg.run (arrayIters Nat) lastBySubscript [0, 3] [5, 6, 7] = (.ok 7, [5, 6, 7]) ∧
    (Alg.run (vectorIters .debug (fun _ _ => .eq) Nat) lastBySubscript [DerefIter.begin' 0 3, DerefIter.end' 0 3]
      ⟨[some 5, some 6, some 7, none], 3⟩).1 = .throw (.assertion "static_vector::operator[]: negative indices are invalid") := by
  decide +kernel

/-! ## Reverse iterators of static_vector -/

private theorem flip_move {len p q : Nat} {n : Int} (hp : p ≤ len) (h : arrayMove len p n = .ok q) :
    arrayMove len (len - p) (-n) = .ok (len - q) ∧ q ≤ len := by
  obtain ⟨h1, h2, rfl⟩ := move_inv h
  refine ⟨?_, by omega⟩
  unfold arrayMove
  rw [if_pos (by omega)]
  congr 1
  omega

private theorem reverse_sim (cap : Nat) (b : Build) (u : DerefIter → DerefIter → Ordering) (par : Nat) :
    Sim (reverseIters b u α) (arrayIters α) reverseExtra b (fun v l => StaticVector.Holds cap v l.reverse)
      (fun n r p => r = ⟨⟨n - p, par, n⟩⟩ ∧ p ≤ n) where
  load {v l r p x} hR hr h := by
    obtain ⟨rfl, hle⟩ := hr
    refine ⟨h, ?_⟩
    obtain ⟨hp, rfl⟩ := get_inv h
    have hlen := holds_len hR
    rw [List.length_reverse] at hlen
    have hm : arrayMove l.length (l.length - p) (-1) = .ok (l.length - p - 1) := by
      unfold arrayMove
      rw [if_pos (by omega)]
      congr 1; omega
    obtain ⟨_, e, _⟩ := decr_sim b par hm hlen
    show (DerefIter.decr b v.data.length ⟨l.length - p, par, l.length⟩ >>= fun t => v.index t.pos) = _
    rw [e, Outcome.bind_ok]
    obtain ⟨rest, hd, _, _⟩ := hR
    have := StaticVector.index_eq hd (i := l.length - p - 1) (by rw [List.length_reverse]; omega)
    show v.index (l.length - p - 1) = _
    rw [this, List.getElem_reverse]
    congr 2; omega
  store {v l r p x l'} hR hr h := by
    obtain ⟨rfl, _⟩ := hr
    have h' : (if p < l.length then .ok (l.set p x) else .ub : Outcome (List α)) = .ok l' := h
    split at h'
    · rename_i hp
      injection h' with h'
      subst h'
      have hlen := holds_len hR
      rw [List.length_reverse] at hlen
      have hm : arrayMove l.length (l.length - p) (-1) = .ok (l.length - p - 1) := by
        unfold arrayMove
        rw [if_pos (by omega)]
        congr 1; omega
      obtain ⟨_, e, _⟩ := decr_sim b par hm hlen
      refine ⟨rfl, { v with data := v.data.set (l.length - p - 1) (some x) }, ?_, ?_⟩
      · obtain ⟨rest, hd, _, _⟩ := hR
        have e' : DerefIter.deref v ⟨l.length - p - 1, par, l.length⟩ = .ok _ :=
          StaticVector.index_eq hd (i := l.length - p - 1) (by rw [List.length_reverse]; omega)
        simp only [reverseIters, e, Outcome.bind_ok, e']
      · have := holds_set hR (p := l.length - p - 1) (by rw [List.length_reverse]; omega) x
        have e3 : l.reverse.set (l.length - p - 1) x = (l.set p x).reverse := by
          apply List.ext_getElem
          · simp
          · intro i h1 h2
            simp only [List.length_set, List.length_reverse] at h1
            rw [List.getElem_set, List.getElem_reverse, List.getElem_reverse, List.getElem_set]
            simp only [List.length_set]
            by_cases hi : l.length - p - 1 = i
            · rw [if_pos hi, if_pos (by omega)]
            · rw [if_neg hi, if_neg (by omega)]
        rwa [e3] at this
    · cases h'
  incr {v l r p q} hR hr h := by
    obtain ⟨rfl, hle⟩ := hr
    have hlen := holds_len hR
    rw [List.length_reverse] at hlen
    obtain ⟨hf, hq⟩ := flip_move hle h
    obtain ⟨_, e2, e3⟩ := decr_sim b par hf hlen
    obtain ⟨h1, h2, h3⟩ := move_inv h
    refine ⟨by omega, ⟨⟨l.length - q, par, l.length⟩⟩, ?_, rfl, hq⟩
    show (DerefIter.decr b v.data.length ⟨l.length - p, par, l.length⟩ >>= fun t => pure (RevIter.mk t)) = _
    rw [e2]; rfl
  decr {v l r p q} hR hr h := by
    obtain ⟨rfl, hle⟩ := hr
    have hlen := holds_len hR
    rw [List.length_reverse] at hlen
    obtain ⟨hf, hq⟩ := flip_move hle h
    obtain ⟨_, e2, e3⟩ := incr_sim b par hf hlen
    obtain ⟨h1, h2, h3⟩ := move_inv h
    refine ⟨by omega, ⟨⟨l.length - q, par, l.length⟩⟩, ?_, rfl, hq⟩
    show (DerefIter.incr b v.data.length ⟨l.length - p, par, l.length⟩ >>= fun t => pure (RevIter.mk t)) = _
    rw [e2]; rfl
  addAssign {v l r p q n} hR hr h := by
    obtain ⟨rfl, hle⟩ := hr
    have hlen := holds_len hR
    rw [List.length_reverse] at hlen
    obtain ⟨hf, hq⟩ := flip_move hle h
    obtain ⟨e1, e2⟩ := sub_sim b par hf hlen
    obtain ⟨h1, h2, h3⟩ := move_inv h
    have he : (reverseIters b u α).addAssign v ⟨⟨l.length - p, par, l.length⟩⟩ n =
      (DerefIter.subAssign b v.data.length n ⟨l.length - p, par, l.length⟩ >>= fun t => pure (RevIter.mk t)) := rfl
    rw [he]
    refine ⟨h3, fun hb => ⟨⟨⟨l.length - q, par, l.length⟩⟩, ?_, rfl, hq⟩, fun msg hm hb => ?_⟩
    · rw [e1 (hb.imp id fun hx => by have := extra_none hx; omega)]; rfl
    · obtain ⟨hc, rfl⟩ := extra_if hm
      rw [e2 (by omega) hb]
      cases b <;> rfl
  subAssign {v l r p q n} hR hr h := by
    obtain ⟨rfl, hle⟩ := hr
    have hlen := holds_len hR
    rw [List.length_reverse] at hlen
    obtain ⟨hf, hq⟩ := flip_move hle h
    rw [Int.neg_neg] at hf
    obtain ⟨e1, e2⟩ := add_sim b par hf hlen
    obtain ⟨h1, h2, h3⟩ := move_inv h
    have he : (reverseIters b u α).subAssign v ⟨⟨l.length - p, par, l.length⟩⟩ n =
      (DerefIter.addAssign b v.data.length n ⟨l.length - p, par, l.length⟩ >>= fun t => pure (RevIter.mk t)) := rfl
    rw [he]
    refine ⟨by omega, fun hb => ⟨⟨⟨l.length - q, par, l.length⟩⟩, ?_, rfl, hq⟩, fun msg hm hb => ?_⟩
    · rw [e1 (hb.imp id fun hx => by have := extra_none hx; omega)]; rfl
    · obtain ⟨hc, rfl⟩ := extra_if hm
      rw [e2 (by omega) hb]
      cases b <;> rfl
  plus {v l r p q n} hR hr h := by
    obtain ⟨rfl, hle⟩ := hr
    have hlen := holds_len hR
    rw [List.length_reverse] at hlen
    obtain ⟨hf, hq⟩ := flip_move hle h
    obtain ⟨e1, e2⟩ := minus_sim b par hf hlen
    obtain ⟨h1, h2, h3⟩ := move_inv h
    have he : (reverseIters b u α).plus v ⟨⟨l.length - p, par, l.length⟩⟩ n =
      (DerefIter.minus b v.data.length ⟨l.length - p, par, l.length⟩ n >>= fun t => pure (RevIter.mk t)) := rfl
    rw [he]
    refine ⟨h3, fun hb => ⟨⟨⟨l.length - q, par, l.length⟩⟩, ?_, rfl, hq⟩, fun msg hm hb => ?_⟩
    · rw [e1 (hb.imp id fun hx => by have := extra_none hx; omega)]; rfl
    · obtain ⟨hc, rfl⟩ := extra_if hm
      rw [e2 (by omega) hb]
      cases b <;> rfl
  minus {v l r p q n} hR hr h := by
    obtain ⟨rfl, hle⟩ := hr
    have hlen := holds_len hR
    rw [List.length_reverse] at hlen
    obtain ⟨hf, hq⟩ := flip_move hle h
    rw [Int.neg_neg] at hf
    obtain ⟨e1, e2⟩ := plus_sim b par hf hlen
    obtain ⟨h1, h2, h3⟩ := move_inv h
    have he : (reverseIters b u α).minus v ⟨⟨l.length - p, par, l.length⟩⟩ n =
      (DerefIter.plus b v.data.length ⟨l.length - p, par, l.length⟩ n >>= fun t => pure (RevIter.mk t)) := rfl
    rw [he]
    refine ⟨by omega, fun hb => ⟨⟨⟨l.length - q, par, l.length⟩⟩, ?_, rfl, hq⟩, fun msg hm hb => ?_⟩
    · rw [e1 (hb.imp id fun hx => by have := extra_none hx; omega)]; rfl
    · obtain ⟨hc, rfl⟩ := extra_if hm
      rw [e2 (by omega) hb]
      cases b <;> rfl
  distance {v l i j p q d} hR hr hr' h := by
    obtain ⟨rfl, h1⟩ := hr
    obtain ⟨rfl, h2⟩ := hr'
    injection h with h
    subst h
    refine ⟨rfl, ?_⟩
    show DerefIter.distance b ⟨l.length - q, par, l.length⟩ ⟨l.length - p, par, l.length⟩ = _
    rw [distance_sim]
    congr 1; omega
  equal {n i j p q} hr hr' := by
    obtain ⟨rfl, h1⟩ := hr
    obtain ⟨rfl, h2⟩ := hr'
    refine ⟨rfl, ?_⟩
    show (!DerefIter.ne ⟨n - p, par, n⟩ ⟨n - q, par, n⟩) = _
    unfold DerefIter.ne
    rw [eq_sim, Bool.not_not]
    apply decide_eq_decide.2
    omega
  compare {n i j p q o} hr hr' h := by
    obtain ⟨rfl, h1⟩ := hr
    obtain ⟨rfl, h2⟩ := hr'
    injection h with h
    subst h
    refine ⟨rfl, ?_⟩
    show DerefIter.cmp b u ⟨n - q, par, n⟩ ⟨n - p, par, n⟩ = _
    rw [cmp_sim]
    congr 1
    rcases Nat.lt_trichotomy p q with h | h | h
    · rw [Nat.compare_eq_lt.2 h, Nat.compare_eq_lt.2 (by omega)]
    · rw [Nat.compare_eq_eq.2 h, Nat.compare_eq_eq.2 (by omega)]
    · rw [Nat.compare_eq_gt.2 h, Nat.compare_eq_gt.2 (by omega)]
  subscript {v l r p n x} hR hr h := by
    obtain ⟨rfl, hle⟩ := hr
    have h' : (arrayMove l.length p n >>= arrayGet l) = .ok x := h
    cases hm : arrayMove l.length p n with
    | ok q =>
      rw [hm, Outcome.bind_ok] at h'
      have hlen := holds_len hR
      rw [List.length_reverse] at hlen
      obtain ⟨hf, hq⟩ := flip_move hle hm
      obtain ⟨e1, e2⟩ := minus_sim b par hf hlen
      obtain ⟨h1, h2, h3⟩ := move_inv hm
      obtain ⟨hql, hx⟩ := get_inv h'
      have he : (reverseIters b u α).subscript v ⟨⟨l.length - p, par, l.length⟩⟩ n =
        ((DerefIter.minus b v.data.length ⟨l.length - p, par, l.length⟩ n >>= fun t => pure (RevIter.mk t)) >>= fun r =>
          RevIter.deref b v.data.length v.index r) := rfl
      rw [he]
      refine ⟨h3 ▸ h', fun hb => ?_, fun msg hmsg hb => ?_⟩
      · rw [e1 (hb.imp id fun hx => by have := extra_none hx; omega), Outcome.bind_ok]
        show RevIter.deref b v.data.length v.index ⟨⟨l.length - q, par, l.length⟩⟩ = _
        have hm : arrayMove l.length (l.length - q) (-1) = .ok (l.length - q - 1) := by
          unfold arrayMove
          rw [if_pos (by omega)]
          congr 1; omega
        obtain ⟨_, e, _⟩ := decr_sim b par hm hlen
        unfold RevIter.deref
        simp only [e, Outcome.bind_ok]
        obtain ⟨rest, hd, _, _⟩ := hR
        rw [StaticVector.index_eq hd (i := l.length - q - 1) (by rw [List.length_reverse]; omega), List.getElem_reverse, ← hx]
        congr 2; omega
      · obtain ⟨hc, rfl⟩ := extra_if hmsg
        rw [e2 (by omega) hb]
        cases b <;> rfl
    | throw e => rw [hm] at h'; cases h'
    | ub => rw [hm] at h'; cases h'
    | terminate => rw [hm] at h'; cases h'
    | diverge => rw [hm] at h'; cases h'

/-- C179, reverse iterators of a `static_vector`: an algorithm that takes `rbegin()` and `rend()` does what it does over an
array of the elements in the opposite order, in release builds always, in the others if it never jumps to `rbegin()`,
which `r[0]` and `r + 0` at `rbegin()` do already. -/
theorem c179_rvector_partial (cap : Nat) (b : Build) (u : DerefIter → DerefIter → Ordering) (parent : Nat) (v : StaticVector α)
    (l : List α) (hv : StaticVector.Holds cap v l.reverse) (prog : Prog α β) (y : β) (l' : List α)
    (h : Alg.run (arrayIters α) prog [0, l.length] l = (.ok y, l')) :
    (b = .release ∨ firstCheck reverseExtra prog [0, l.length] l = none →
      ∃ v', Alg.run (reverseIters b u α) prog [RevIter.rbegin parent l.length, RevIter.rend parent l.length] v = (.ok y, v') ∧
        StaticVector.Holds cap v' l'.reverse) ∧
    (∀ zs msg, firstCheck reverseExtra prog [0, l.length] l = some (zs, msg) →
      (b = .debug → ∃ v', Alg.run (reverseIters b u α) prog [RevIter.rbegin parent l.length, RevIter.rend parent l.length] v =
        (.throw (.assertion msg), v') ∧ StaticVector.Holds cap v' zs.reverse) ∧
      (b = .aborting → ∃ v', Alg.run (reverseIters b u α) prog [RevIter.rbegin parent l.length, RevIter.rend parent l.length] v =
        (.terminate, v'))) := by
  obtain ⟨h1, h2⟩ := (reverse_sim cap b u parent).run prog [RevIter.rbegin parent l.length, RevIter.rend parent l.length]
    [0, l.length] v l y l' hv (start_regs ⟨rfl, Nat.zero_le _⟩ ⟨by simp [RevIter.rend, DerefIter.begin'], Nat.le_refl _⟩) h
  refine ⟨h1, fun zs msg hf => ⟨?_, ?_⟩⟩
  · rintro rfl
    exact h2 zs msg hf (by simp)
  · rintro rfl
    obtain ⟨v', e, _⟩ := h2 zs msg hf (by simp)
    exact ⟨v', e⟩

/-! ## identifiable_item_collection -/

private theorem collection_sim {κ : Type} (b : Build) (u : DerefIter → DerefIter → Ordering) (par : Nat) (s : ItemCollection κ α)
    (l : List α) (hl : s.ordered.length = l.length) (hread : ∀ i (h : i < l.length), RevIter.readItem s i = .ok l[i]) :
    Sim (collectionIters b u α) (constIters α) vectorExtra b (fun s' l' => s' = s ∧ l' = l)
      (fun n i p => i = ⟨p, par, n⟩ ∧ p ≤ n) where
  load {v m i p x} hR hr h := by
    obtain ⟨rfl, rfl⟩ := hR
    obtain ⟨rfl, _⟩ := hr
    refine ⟨h, ?_⟩
    obtain ⟨hp, rfl⟩ := get_inv h
    exact hread p hp
  store _ _ h := by cases h
  incr {v m i p q} hR hr h := by
    obtain ⟨rfl, rfl⟩ := hR
    obtain ⟨rfl, _⟩ := hr
    obtain ⟨e1, e2, e3⟩ := incr_sim b par h (Nat.le_of_eq hl.symm : m.length ≤ v.ordered.length)
    exact ⟨e1, _, e2, rfl, e3⟩
  decr {v m i p q} hR hr h := by
    obtain ⟨rfl, rfl⟩ := hR
    obtain ⟨rfl, _⟩ := hr
    obtain ⟨e1, e2, e3⟩ := decr_sim b par h (Nat.le_of_eq hl.symm : m.length ≤ v.ordered.length)
    exact ⟨e1, _, e2, rfl, e3⟩
  addAssign {v m i p q n} hR hr h := by
    obtain ⟨rfl, rfl⟩ := hR
    obtain ⟨rfl, _⟩ := hr
    obtain ⟨e1, e2⟩ := add_sim b par h (Nat.le_of_eq hl.symm : m.length ≤ v.ordered.length)
    obtain ⟨h1, h2, h3⟩ := move_inv h
    refine ⟨h3, fun hb => ⟨_, e1 (hb.imp id fun hx => ?_), rfl, by omega⟩, fun msg hm hb => ?_⟩
    · have := extra_none hx; omega
    · obtain ⟨hc, rfl⟩ := extra_if hm
      exact e2 (by omega) hb
  subAssign {v m i p q n} hR hr h := by
    obtain ⟨rfl, rfl⟩ := hR
    obtain ⟨rfl, _⟩ := hr
    obtain ⟨e1, e2⟩ := sub_sim b par h (Nat.le_of_eq hl.symm : m.length ≤ v.ordered.length)
    obtain ⟨h1, h2, h3⟩ := move_inv h
    refine ⟨by omega, fun hb => ⟨_, e1 (hb.imp id fun hx => ?_), rfl, by omega⟩, fun msg hm hb => ?_⟩
    · have := extra_none hx; omega
    · obtain ⟨hc, rfl⟩ := extra_if hm
      exact e2 (by omega) hb
  plus {v m i p q n} hR hr h := by
    obtain ⟨rfl, rfl⟩ := hR
    obtain ⟨rfl, _⟩ := hr
    obtain ⟨e1, e2⟩ := plus_sim b par h (Nat.le_of_eq hl.symm : m.length ≤ v.ordered.length)
    obtain ⟨h1, h2, h3⟩ := move_inv h
    refine ⟨h3, fun hb => ⟨_, e1 (hb.imp id fun hx => ?_), rfl, by omega⟩, fun msg hm hb => ?_⟩
    · have := extra_none hx; omega
    · obtain ⟨hc, rfl⟩ := extra_if hm
      exact e2 (by omega) hb
  minus {v m i p q n} hR hr h := by
    obtain ⟨rfl, rfl⟩ := hR
    obtain ⟨rfl, _⟩ := hr
    obtain ⟨e1, e2⟩ := minus_sim b par h (Nat.le_of_eq hl.symm : m.length ≤ v.ordered.length)
    obtain ⟨h1, h2, h3⟩ := move_inv h
    refine ⟨by omega, fun hb => ⟨_, e1 (hb.imp id fun hx => ?_), rfl, by omega⟩, fun msg hm hb => ?_⟩
    · have := extra_none hx; omega
    · obtain ⟨hc, rfl⟩ := extra_if hm
      exact e2 (by omega) hb
  distance {v m i j p q d} hR hr hr' h := by
    obtain ⟨rfl, _⟩ := hr
    obtain ⟨rfl, _⟩ := hr'
    injection h with h
    subst h
    exact ⟨rfl, distance_sim b p q par m.length⟩
  equal {n i j p q} hr hr' := by
    obtain ⟨rfl, _⟩ := hr
    obtain ⟨rfl, _⟩ := hr'
    exact ⟨rfl, eq_sim p q par n⟩
  compare {n i j p q o} hr hr' h := by
    obtain ⟨rfl, _⟩ := hr
    obtain ⟨rfl, _⟩ := hr'
    injection h with h
    subst h
    exact ⟨rfl, cmp_sim b u p q par n⟩
  subscript _ _ h := by cases h

/-- C179, `identifiable_item_collection`: after every program that does not change ids through references, an algorithm
that takes `begin()` and `end()` and only reads does what it does over a constant array of the items in insertion order,
in release builds always, in the others if it never jumps to `end()`. -/
theorem c179_collection_partial {κ : Type} [DecidableEq κ] (b : Build) (u : DerefIter → DerefIter → Ordering) (idOf : α → κ)
    (parent : Nat) (ops : List (ItemCollection.Op κ α))
    (h : ∀ op ∈ ops, match op with
      | .modify _ f => ∀ x, idOf (f x) = idOf x
      | _ => True) :
    ∃ s l, St.history (ItemCollection.step b (fun _ _ => true) idOf) ops ItemCollection.empty = some s ∧ s.iterate = .ok l ∧
      ∀ (prog : Prog α β) (y : β) (l' : List α), Alg.run (constIters α) prog [0, l.length] l = (.ok y, l') →
        (b = .release ∨ firstCheck vectorExtra prog [0, l.length] l = none →
          Alg.run (collectionIters b u α) prog [DerefIter.begin' parent l.length, DerefIter.end' parent l.length] s = (.ok y, s)) ∧
        (∀ zs msg, firstCheck vectorExtra prog [0, l.length] l = some (zs, msg) →
          (b = .debug → Alg.run (collectionIters b u α) prog [DerefIter.begin' parent l.length, DerefIter.end' parent l.length] s =
            (.throw (.assertion msg), s)) ∧
          (b = .aborting → Alg.run (collectionIters b u α) prog [DerefIter.begin' parent l.length, DerefIter.end' parent l.length] s =
            (.terminate, s))) := by
  have hk : ∀ op ∈ ops, op.keepsIds idOf := by
    intro op hop
    have := h op hop
    cases op <;> simp_all [ItemCollection.Op.keepsIds]
  obtain ⟨s, es, h1, h2⟩ := ItemCollection.reachable_inv (fun _ _ => rfl) b ops (ItemCollection.inv_empty idOf) hk
  refine ⟨s, es.map Prod.snd, h1, h2.shows.2.2.1, fun prog y l' hrun => ?_⟩
  have hread : ∀ i (hi : i < (es.map Prod.snd).length), RevIter.readItem s i = .ok (es.map Prod.snd)[i] := by
    intro i hi
    have hi' : i < es.length := by simpa using hi
    have ho : s.ordered[i]? = some es[i].1 := by
      rw [h2.ordered, List.getElem?_map, List.getElem?_eq_getElem hi']; rfl
    have hh := h2.heap es[i] (List.getElem_mem hi')
    simp only [RevIter.readItem, ho, hh, List.getElem_map]
  obtain ⟨k1, k2⟩ := (collection_sim b u parent s _ (by rw [h2.ordered]; simp) hread).run prog
    [DerefIter.begin' parent (es.map Prod.snd).length, DerefIter.end' parent (es.map Prod.snd).length] [0, (es.map Prod.snd).length] s _ y l'
    ⟨rfl, rfl⟩ (start_regs ⟨rfl, Nat.zero_le _⟩ ⟨rfl, Nat.le_refl _⟩) hrun
  refine ⟨fun hb => ?_, fun zs msg hf => ⟨?_, ?_⟩⟩
  · obtain ⟨s', e, rfl, _⟩ := k1 hb
    exact e
  · rintro rfl
    obtain ⟨s', e, rfl, _⟩ := k2 zs msg hf (by simp)
    exact e
  · rintro rfl
    obtain ⟨s', e, rfl, _⟩ := k2 zs msg hf (by simp)
    exact e

/-! ## fragment_string -/

section
open Wite.Str
variable {C : Type}

private theorem fragment_sim (b : Build) (fs : FragStr C) (hr : Regular fs) (hsz : length fs < 2 ^ 63) :
    Sim (fragmentIters b) (constIters C) noExtra b (fun fs' l => fs' = fs ∧ l = text fs) (fun _ i p => At fs i p) where
  load {v m i p x} hR ha h := by
    obtain ⟨rfl, rfl⟩ := hR
    refine ⟨h, ?_⟩
    obtain ⟨hp, rfl⟩ := get_inv h
    exact ha.deref b hp
  store _ _ h := by cases h
  incr {v m i p q} hR ha h := by
    obtain ⟨rfl, rfl⟩ := hR
    obtain ⟨h1, h2, h3⟩ := move_inv h
    rw [← length_text] at h2
    obtain ⟨j, e, hj⟩ := ha.incr hr b (by omega)
    have : q = p + 1 := by omega
    subst this
    exact ⟨rfl, j, e, hj⟩
  decr {v m i p q} hR ha h := by
    obtain ⟨rfl, rfl⟩ := hR
    obtain ⟨h1, h2, h3⟩ := move_inv h
    obtain ⟨p', rfl⟩ : ∃ p', p = p' + 1 := ⟨p - 1, by omega⟩
    obtain ⟨j, e, hj⟩ := ha.decr hr b
    have : q = p' := by omega
    subst this
    exact ⟨rfl, j, e, hj⟩
  addAssign {v m i p q n} hR ha h := by
    obtain ⟨rfl, rfl⟩ := hR
    obtain ⟨h1, h2, h3⟩ := move_inv h
    rw [← length_text] at h2
    have := ha.le
    obtain ⟨j, e, hj⟩ := ha.plus hr b n (by omega) h1 h2
    exact ⟨h3, fun _ => ⟨j, e, h3 ▸ hj⟩, fun _ h => by cases h⟩
  subAssign {v m i p q n} hR ha h := by
    obtain ⟨rfl, rfl⟩ := hR
    obtain ⟨h1, h2, h3⟩ := move_inv h
    rw [← length_text] at h2
    have := ha.le
    obtain ⟨j, e, hj⟩ := ha.minus hr b n (by omega) (by omega) h1 h2
    exact ⟨h3, fun _ => ⟨j, e, h3 ▸ hj⟩, fun _ h => by cases h⟩
  plus {v m i p q n} hR ha h := by
    obtain ⟨rfl, rfl⟩ := hR
    obtain ⟨h1, h2, h3⟩ := move_inv h
    rw [← length_text] at h2
    have := ha.le
    obtain ⟨j, e, hj⟩ := ha.plus hr b n (by omega) h1 h2
    exact ⟨h3, fun _ => ⟨j, e, h3 ▸ hj⟩, fun _ h => by cases h⟩
  minus {v m i p q n} hR ha h := by
    obtain ⟨rfl, rfl⟩ := hR
    obtain ⟨h1, h2, h3⟩ := move_inv h
    rw [← length_text] at h2
    have := ha.le
    obtain ⟨j, e, hj⟩ := ha.minus hr b n (by omega) (by omega) h1 h2
    exact ⟨h3, fun _ => ⟨j, e, h3 ▸ hj⟩, fun _ h => by cases h⟩
  distance {v m i j p q d} hR ha ha' h := by
    obtain ⟨rfl, rfl⟩ := hR
    injection h with h
    subst h
    exact ⟨rfl, congrArg Outcome.ok (ha.diff ha')⟩
  equal {n i j p q} ha ha' := by
    refine ⟨rfl, ?_⟩
    have := ha.eq_iff ha'
    show It.eq i j = _
    by_cases h : p = q
    · rw [this.2 h, decide_eq_true h]
    · rw [decide_eq_false h]
      exact Bool.eq_false_iff.2 fun e => h (this.1 e)
  compare {n i j p q o} ha ha' h := by
    injection h with h
    subst h
    exact ⟨rfl, congrArg Outcome.ok (ha.threeWay ha')⟩
  subscript _ _ h := by cases h

private theorem fragment_rev_sim (b : Build) (fs : FragStr C) (hr : Regular fs) (hsz : length fs < 2 ^ 63) :
    Sim (fragmentRevIters b) (constIters C) noExtra b (fun fs' l => fs' = fs ∧ l = (text fs).reverse)
      (fun _ i p => p ≤ length fs ∧ At fs i (length fs - p)) where
  load {v m i p x} hR ha h := by
    obtain ⟨rfl, rfl⟩ := hR
    refine ⟨h, ?_⟩
    obtain ⟨hp, rfl⟩ := get_inv h
    exact (rev_tracks hr b).deref ha hp
  store _ _ h := by cases h
  incr {v m i p q} hR ha h := by
    obtain ⟨rfl, rfl⟩ := hR
    obtain ⟨h1, h2, h3⟩ := move_inv h
    have : q = p + 1 := by omega
    subst this
    obtain ⟨j, e, hj⟩ := (rev_tracks hr b).next ha (by omega)
    exact ⟨rfl, j, e, hj⟩
  decr {v m i p q} hR ha h := by
    obtain ⟨rfl, rfl⟩ := hR
    obtain ⟨h1, h2, h3⟩ := move_inv h
    rw [List.length_reverse, ← length_text] at h2
    obtain ⟨j, e, hj⟩ := ha.2.incr hr b (by omega)
    refine ⟨by omega, j, e, by omega, ?_⟩
    rwa [show length v - p + 1 = length v - q by omega] at hj
  addAssign {v m i p q n} hR ha h := by
    obtain ⟨rfl, rfl⟩ := hR
    obtain ⟨h1, h2, h3⟩ := move_inv h
    have hp := ha.1
    have h2' := h2
    rw [List.length_reverse, ← length_text] at h2'
    obtain ⟨j, e, hj⟩ := (rev_tracks hr b).plus ha n (by omega) (by omega) h1 h2
    exact ⟨h3, fun _ => ⟨j, e, h3 ▸ hj⟩, fun _ h => by cases h⟩
  subAssign {v m i p q n} hR ha h := by
    obtain ⟨rfl, rfl⟩ := hR
    obtain ⟨h1, h2, h3⟩ := move_inv h
    have hp := ha.1
    rw [List.length_reverse, ← length_text] at h2
    obtain ⟨j, e, hj⟩ := ha.2.plus hr b n (by omega) (by omega) (by omega)
    refine ⟨h3, fun _ => ⟨j, e, by omega, ?_⟩, fun _ h => by cases h⟩
    rwa [show (((length v - p : Nat) : Int) + n).toNat = length v - q by omega] at hj
  plus {v m i p q n} hR ha h := by
    obtain ⟨rfl, rfl⟩ := hR
    obtain ⟨h1, h2, h3⟩ := move_inv h
    have hp := ha.1
    have h2' := h2
    rw [List.length_reverse, ← length_text] at h2'
    obtain ⟨j, e, hj⟩ := (rev_tracks hr b).plus ha n (by omega) (by omega) h1 h2
    exact ⟨h3, fun _ => ⟨j, e, h3 ▸ hj⟩, fun _ h => by cases h⟩
  minus {v m i p q n} hR ha h := by
    obtain ⟨rfl, rfl⟩ := hR
    obtain ⟨h1, h2, h3⟩ := move_inv h
    have hp := ha.1
    rw [List.length_reverse, ← length_text] at h2
    obtain ⟨j, e, hj⟩ := ha.2.plus hr b n (by omega) (by omega) (by omega)
    refine ⟨h3, fun _ => ⟨j, e, by omega, ?_⟩, fun _ h => by cases h⟩
    rwa [show (((length v - p : Nat) : Int) + n).toNat = length v - q by omega] at hj
  distance {v m i j p q d} hR ha ha' h := by
    obtain ⟨rfl, rfl⟩ := hR
    injection h with h
    subst h
    exact ⟨rfl, congrArg Outcome.ok ((rev_tracks hr b).diff ha ha')⟩
  equal {n i j p q} ha ha' := by
    refine ⟨rfl, ?_⟩
    have := (rev_tracks hr b).eq ha ha'
    show It.eq i j = _
    by_cases h : p = q
    · rw [decide_eq_true h]; exact this.2 h
    · rw [decide_eq_false h]
      exact Bool.eq_false_iff.2 fun e => h (this.1 e)
  compare {n i j p q o} ha ha' h := by
    injection h with h
    subst h
    refine ⟨rfl, congrArg Outcome.ok ?_⟩
    rw [ha'.2.threeWay ha.2]
    have := ha.1
    have := ha'.1
    rcases Nat.lt_trichotomy p q with h | h | h
    · rw [Nat.compare_eq_lt.2 h, Nat.compare_eq_lt.2 (by omega)]
    · rw [Nat.compare_eq_eq.2 h, Nat.compare_eq_eq.2 (by omega)]
    · rw [Nat.compare_eq_gt.2 h, Nat.compare_eq_gt.2 (by omega)]
  subscript _ _ h := by cases h

private theorem no_check (prog : Prog α β) : ∀ regs l, firstCheck noExtra prog regs l = none := by
  induction prog with
  | ret => intros; rfl
  | load r k ih => intro regs l; rw [firstCheck]; split <;> first | exact ih _ _ _ | rfl
  | store r x k ih => intro regs l; rw [firstCheck]; split <;> first | exact ih _ _ | rfl
  | copy r k ih => intro regs l; rw [firstCheck]; split <;> first | exact ih _ _ | rfl
  | incr r k ih => intro regs l; rw [firstCheck]; split <;> first | exact ih _ _ | rfl
  | decr r k ih => intro regs l; rw [firstCheck]; split <;> first | exact ih _ _ | rfl
  | addAssign r n k ih => intro regs l; rw [firstCheck]; split <;> first | exact ih _ _ | rfl
  | subAssign r n k ih => intro regs l; rw [firstCheck]; split <;> first | exact ih _ _ | rfl
  | plus r n k ih => intro regs l; rw [firstCheck]; split <;> first | exact ih _ _ | rfl
  | minus r n k ih => intro regs l; rw [firstCheck]; split <;> first | exact ih _ _ | rfl
  | distance r s k ih => intro regs l; rw [firstCheck]; split <;> first | exact ih _ _ _ | rfl
  | equal r s k ih => intro regs l; rw [firstCheck]; split <;> first | exact ih _ _ _ | rfl
  | compare r s k ih => intro regs l; rw [firstCheck]; split <;> first | exact ih _ _ _ | rfl
  | subscript r n k ih =>
    intro regs l
    rw [firstCheck]
    split
    · show (match arrayGet l _ with | .ok x => firstCheck noExtra (k x) regs l | _ => none) = none
      split
      · exact ih _ _ _
      · rfl
    · rfl

private theorem flat_text' (fs : FragStr C) : fs.flatMap Frag.chars = text fs := by
  induction fs with
  | nil => rfl
  | cons f fs ih => rw [List.flatMap_cons, ih]; rfl

/-- C179, `fragment_string` without empty fragments before the last: in every build, an algorithm that takes `begin()` and
`end()` does what it does over the characters of the text in one constant array, and with `rbegin()` and `rend()` what it
does over the characters in the opposite order. -/
theorem c179_fragments (b : Build) (fs : FragStr C) (hne : fs ≠ []) (hfull : ∀ f ∈ fs.dropLast, f.chars ≠ [])
    (hsz : (fs.flatMap Frag.chars).length < 2 ^ 63) :
    ∃ first last, begin' fs = .ok first ∧ end' fs = .ok last ∧
      ∀ {β : Type} (prog : Prog C β) (y : β),
        (∀ l', Alg.run (constIters C) prog [0, (fs.flatMap Frag.chars).length] (fs.flatMap Frag.chars) = (.ok y, l') →
          Alg.run (fragmentIters b) prog [first, last] fs = (.ok y, fs)) ∧
        (∀ l', Alg.run (constIters C) prog [0, (fs.flatMap Frag.chars).length] (fs.flatMap Frag.chars).reverse = (.ok y, l') →
          Alg.run (fragmentRevIters b) prog [last, first] fs = (.ok y, fs)) := by
  have hr : Regular fs := ⟨hne, hfull⟩
  rw [flat_text'] at hsz ⊢
  rw [← length_text] at hsz
  obtain ⟨last, el, hl⟩ := end_at hne
  have hb : begin' fs = .ok ⟨0, 0⟩ ∧ At fs ⟨0, 0⟩ 0 := begin_at hr
  refine ⟨⟨0, 0⟩, last, hb.1, el, fun prog y => ⟨fun l' h => ?_, fun l' h => ?_⟩⟩
  · rw [← length_text] at h
    obtain ⟨k1, _⟩ := (fragment_sim b fs hr hsz).run prog [⟨0, 0⟩, last] [0, length fs] fs (text fs) y l' ⟨rfl, rfl⟩
      (start_regs hb.2 hl) h
    obtain ⟨s', e, rfl, _⟩ := k1 (.inr (no_check _ _ _))
    exact e
  · rw [← length_text] at h
    obtain ⟨k1, _⟩ := (fragment_rev_sim b fs hr hsz).run prog [last, ⟨0, 0⟩] [0, length fs] fs (text fs).reverse y l' ⟨rfl, rfl⟩
      (start_regs ⟨Nat.zero_le _, hl⟩ ⟨Nat.le_refl _, by rw [Nat.sub_self]; exact hb.2⟩) h
    obtain ⟨s', e, rfl, _⟩ := k1 (.inr (no_check _ _ _))
    exact e

/-- The second character, then the one before the last. -/
private def secondAndLast : Prog Char (Char × Char) :=
  .plus 0 1 (.load 2 fun x => .minus 1 1 (.load 3 fun y => .ret (x, y)))

example : Alg.run (constIters Char) secondAndLast [0, 5] "abcde".toList = (.ok ('b', 'e'), "abcde".toList) ∧
    Alg.run (fragmentIters .debug) secondAndLast [⟨0, 0⟩, ⟨1, 3⟩] [some "ab".toList, some "cde".toList] =
      (.ok ('b', 'e'), [some "ab".toList, some "cde".toList]) ∧
    Alg.run (fragmentRevIters .debug) secondAndLast [⟨1, 3⟩, ⟨0, 0⟩] [some "ab".toList, some "cde".toList] =
      (.ok ('d', 'a'), [some "ab".toList, some "cde".toList]) := by decide +kernel

end

/-! ## Two containers -/

section
open Wite.Str

/-- A container `s` and two of its iterators `first` and `last`, between which the elements are `l`: `begin()` and `end()` or
`rbegin()` and `rend()` of a `static_vector`, `begin()` and `end()` of a collection, `begin()` and `end()` or `rbegin()` and
`rend()` of a `fragment_string` without empty fragments before the last.  `A` says whether the elements can be assigned. -/
inductive Shows (b : Build) (u : DerefIter → DerefIter → Ordering) :
    {α σ ι : Type} → Iters σ ι α → Iters (List α) Nat α → σ → ι → ι → List α → Prop
  | vector {α : Type} (cap parent : Nat) (v : StaticVector α) (l : List α) (h : StaticVector.Holds cap v l) :
    Shows b u (vectorIters b u α) (arrayIters α) v (DerefIter.begin' parent l.length) (DerefIter.end' parent l.length) l
  | reverse {α : Type} (cap parent : Nat) (v : StaticVector α) (l : List α) (h : StaticVector.Holds cap v l.reverse) :
    Shows b u (reverseIters b u α) (arrayIters α) v (RevIter.rbegin parent l.length) (RevIter.rend parent l.length) l
  | collection {κ α : Type} (parent : Nat) (s : ItemCollection κ α) (l : List α) (h : s.iterate = .ok l) :
    Shows b u (collectionIters b u α) (constIters α) s (DerefIter.begin' parent l.length) (DerefIter.end' parent l.length) l
  | fragments {C : Type} (fs : FragStr C) (first last : It) (hfirst : begin' fs = .ok first) (hlast : end' fs = .ok last)
    (hne : fs ≠ []) (hfull : ∀ f ∈ fs.dropLast, f.chars ≠ []) (hsz : (fs.flatMap Frag.chars).length < 2 ^ 63) :
    Shows b u (fragmentIters b) (constIters C) fs first last (fs.flatMap Frag.chars)
  | reverseFragments {C : Type} (fs : FragStr C) (first last : It) (hfirst : begin' fs = .ok first) (hlast : end' fs = .ok last)
    (hne : fs ≠ []) (hfull : ∀ f ∈ fs.dropLast, f.chars ≠ []) (hsz : (fs.flatMap Frag.chars).length < 2 ^ 63) :
    Shows b u (fragmentRevIters b) (constIters C) fs last first (fs.flatMap Frag.chars).reverse

private theorem each_inv {κ : Type} (s : ItemCollection κ α) : ∀ (as : List Nat) (l : List α),
    (ItemCollection.each ItemCollection.deref as s).1 = .ok l →
      as.length = l.length ∧ ∀ i (h : i < l.length), ∃ a, as[i]? = some a ∧ s.heap a = some l[i] := by
  intro as
  induction as with
  | nil => intro l h; injection h with h; subst h; exact ⟨rfl, fun i h => absurd h (Nat.not_lt_zero _)⟩
  | cons a as ih =>
    intro l h
    cases ha : s.heap a with
    | none =>
      have : ItemCollection.each ItemCollection.deref (a :: as) s = (.ub, s) := by
        show St.bind _ _ s = _
        unfold St.bind ItemCollection.deref
        rw [ha]
      rw [this] at h; cases h
    | some x =>
      have e : ItemCollection.each ItemCollection.deref (a :: as) s =
          (ItemCollection.each ItemCollection.deref as >>= fun ys => pure (x :: ys) : St (ItemCollection κ α) (List α)) s := by
        show St.bind _ _ s = _
        conv_lhs => unfold St.bind ItemCollection.deref
        rw [ha]
        rfl
      rw [e] at h
      cases hr : ItemCollection.each ItemCollection.deref as s with
      | mk o s1 =>
        have h' : (St.bind (ItemCollection.each ItemCollection.deref as) (fun ys => pure (x :: ys)) s).1 = .ok l := h
        unfold St.bind at h'
        rw [hr] at h'
        cases o with
        | ok ys =>
          injection h' with h'
          subst h'
          obtain ⟨h1, h2⟩ := ih ys (by rw [hr])
          refine ⟨by simp [h1], fun i hi => ?_⟩
          cases i with
          | zero => exact ⟨a, rfl, ha⟩
          | succ i => exact h2 i (by simpa using hi)
        | throw e => cases h'
        | ub => cases h'
        | terminate => cases h'
        | diverge => cases h'

private theorem shows_weak {b : Build} {u : DerefIter → DerefIter → Ordering} {σ ι : Type} {I : Iters σ ι α}
    {A : Iters (List α) Nat α} {s : σ} {first last : ι} {l : List α} (h : Shows b u I A s first last l) :
    ∃ (R : σ → List α → Prop) (rel : ι → Nat → Prop), Weak I A b R rel ∧ R s l ∧ rel first 0 ∧ rel last l.length ∧
      ∀ s' l', R s' l' → Shows b u I A s' first last l' := by
  cases h with
  | vector cap parent s l h =>
    refine ⟨_, _, (vector_sim cap b u parent).weak l.length, ⟨h, rfl⟩, ⟨rfl, Nat.zero_le _⟩, ⟨rfl, Nat.le_refl _⟩, ?_⟩
    rintro s' l' ⟨h', e⟩
    rw [← e]
    exact .vector cap parent s' l' h'
  | reverse cap parent s l h =>
    refine ⟨_, _, (reverse_sim cap b u parent).weak l.length, ⟨h, rfl⟩, ⟨rfl, Nat.zero_le _⟩, ⟨?_, Nat.le_refl _⟩, ?_⟩
    · rw [Nat.sub_self]; rfl
    rintro s' l' ⟨h', e⟩
    rw [← e]
    exact .reverse cap parent s' l' h'
  | collection parent s l h =>
    obtain ⟨h1, h2⟩ := each_inv s s.ordered l h
    have hread : ∀ i (hi : i < l.length), RevIter.readItem s i = .ok l[i] := by
      intro i hi
      obtain ⟨a, ha, hx⟩ := h2 i hi
      simp only [RevIter.readItem, ha, hx]
    refine ⟨_, _, (collection_sim b u parent s l h1 hread).weak l.length, ⟨⟨rfl, rfl⟩, rfl⟩, ⟨rfl, Nat.zero_le _⟩,
      ⟨rfl, Nat.le_refl _⟩, ?_⟩
    rintro s' l' ⟨⟨rfl, rfl⟩, _⟩
    exact .collection parent s' l' h
  | fragments s first last hfirst hlast hne hfull hsz =>
    have hr : Regular s := ⟨hne, hfull⟩
    have hsz' := hsz
    rw [flat_text', ← length_text] at hsz'
    obtain ⟨last', el, hl⟩ := end_at hne
    have hb : begin' s = .ok ⟨0, 0⟩ ∧ At s ⟨0, 0⟩ 0 := begin_at hr
    have e1 : first = ⟨0, 0⟩ := by rw [hb.1] at hfirst; injection hfirst with hfirst; exact hfirst.symm
    have e2 : last = last' := by rw [el] at hlast; injection hlast with hlast; exact hlast.symm
    refine ⟨_, _, (fragment_sim b s hr hsz').weak (text s).length, ⟨⟨rfl, flat_text' s⟩, by rw [flat_text']⟩, by rw [e1]; exact hb.2, ?_, ?_⟩
    · rw [flat_text', ← length_text, e2]; exact hl
    · rintro s' l' ⟨⟨rfl, rfl⟩, _⟩
      rw [← flat_text']
      exact .fragments s' _ _ hfirst hlast hne hfull hsz
  | reverseFragments s first last hfirst hlast hne hfull hsz =>
    have hr : Regular s := ⟨hne, hfull⟩
    have hsz' := hsz
    rw [flat_text', ← length_text] at hsz'
    obtain ⟨last', el, hl⟩ := end_at hne
    have hb : begin' s = .ok ⟨0, 0⟩ ∧ At s ⟨0, 0⟩ 0 := begin_at hr
    have e1 : first = ⟨0, 0⟩ := by rw [hb.1] at hfirst; injection hfirst with hfirst; exact hfirst.symm
    have e2 : last = last' := by rw [el] at hlast; injection hlast with hlast; exact hlast.symm
    refine ⟨_, _, (fragment_rev_sim b s hr hsz').weak (text s).length, ⟨⟨rfl, by rw [flat_text']⟩, by rw [flat_text', List.length_reverse]⟩,
      ⟨Nat.zero_le _, by rw [e2]; exact hl⟩, ?_, ?_⟩
    · rw [flat_text', List.length_reverse, ← length_text, e1]
      exact ⟨Nat.le_refl _, by rw [Nat.sub_self]; exact hb.2⟩
    · rintro s' l' ⟨⟨rfl, rfl⟩, _⟩
      rw [← flat_text']
      exact .reverseFragments s' _ _ hfirst hlast hne hfull hsz

private theorem regs4 {ι κ : Type} {rel : ι → κ → Prop} {i j i' j' : ι} {p q p' q' : κ} (h1 : rel i p) (h2 : rel j q)
    (h3 : rel i' p') (h4 : rel j' q') : Regs rel [i, j, i', j'] [p, q, p', q'] := by
  refine ⟨rfl, fun r x y hx hy => ?_⟩
  match r with
  | 0 => cases hx; cases hy; exact h1
  | 1 => cases hx; cases hy; exact h2
  | 2 => cases hx; cases hy; exact h3
  | 3 => cases hx; cases hy; exact h4
  | r + 4 => simp at hx

/-- C179, algorithms over two containers, of any two kinds: if an algorithm that takes two pairs of iterators is defined for
two arrays of the same elements, then it gives the same result and leaves the same elements in both, in release builds
always, in the others if it only steps.  If it jumps, it may fail an assertion in those builds; nothing else can happen. -/
theorem c179_two_partial {b : Build} {u : DerefIter → DerefIter → Ordering} {σ ι τ κ : Type} {I : Iters σ ι α}
    {J : Iters τ κ α} {A B : Iters (List α) Nat α} {s : σ} {t : τ} {first last : ι} {first' last' : κ} {l m : List α}
    (hs : Shows b u I A s first last l) (ht : Shows b u J B t first' last' m) (prog : Prog α β) (y : β) (l' m' : List α)
    (h : Alg.run (bothIters A B) prog [.inl 0, .inl l.length, .inr 0, .inr m.length] (l, m) = (.ok y, (l', m'))) :
    (∃ s' t', Alg.run (bothIters I J) prog [.inl first, .inl last, .inr first', .inr last'] (s, t) = (.ok y, (s', t')) ∧
      Shows b u I A s' first last l' ∧ Shows b u J B t' first' last' m') ∨
    (b ≠ .release ∧ ¬ StepsOnly prog ∧ ∃ msg s' t',
      Alg.run (bothIters I J) prog [.inl first, .inl last, .inr first', .inr last'] (s, t) =
        (if b = .debug then .throw (.assertion msg) else .terminate, (s', t'))) := by
  obtain ⟨R, rel, w, hR, hf, hl, back⟩ := shows_weak hs
  obtain ⟨R', rel', w', hR', hf', hl', back'⟩ := shows_weak ht
  rcases (w.both w').run prog [.inl first, .inl last, .inr first', .inr last'] [.inl 0, .inl l.length, .inr 0, .inr m.length] (s, t)
    (l, m) y (l', m') ⟨hR, hR'⟩ (regs4 hf hl hf' hl') h with ⟨s', e, h1, h2⟩ | ⟨hb, hp, msg, s', _, e, _⟩
  · exact .inl ⟨s'.1, s'.2, e, back _ _ h1, back' _ _ h2⟩
  · refine .inr ⟨hb, hp, msg, s'.1, s'.2, ?_⟩
    rw [e]
    cases b
    · rfl
    · rfl
    · exact absurd rfl hb

/-! ### std::copy and std::equal -/

/-- `std::copy(first, last, out)` with `first`, `last` and `out` in variables 0, 1 and 2, for at most `n` elements. -/
def copyProg : Nat → Prog α Unit
  | 0 => .ret ()
  | n + 1 => .equal 0 1 fun e => if e then .ret () else .load 0 fun x => .store 2 x (.incr 2 (.incr 0 (copyProg n)))

/-- `std::equal(first, last, first2)` with the iterators in variables 0, 1 and 2, for at most `n` elements. -/
def equalProg [DecidableEq α] : Nat → Prog α Bool
  | 0 => .ret true
  | n + 1 => .equal 0 1 fun e => if e then .ret true else .load 0 fun x => .load 2 fun y =>
    if x = y then .incr 0 (.incr 2 (equalProg n)) else .ret false

private theorem copy_steps (n : Nat) : StepsOnly (copyProg n : Prog α Unit) := by
  induction n with
  | zero => exact trivial
  | succ n ih =>
    intro e
    cases e
    · intro x; exact ih
    · exact trivial

private theorem equal_steps [DecidableEq α] (n : Nat) : StepsOnly (equalProg n : Prog α Bool) := by
  induction n with
  | zero => exact trivial
  | succ n ih =>
    intro e
    cases e
    · intro x y
      by_cases h : x = y
      · simp only [if_pos h]; exact ih
      · simp only [if_neg h]; exact trivial
    · exact trivial

private theorem shows_ref {b : Build} {u : DerefIter → DerefIter → Ordering} {σ ι : Type} {I : Iters σ ι α}
    {A : Iters (List α) Nat α} {s : σ} {first last : ι} {l : List α} (h : Shows b u I A s first last l) :
    A = arrayIters α ∨ A = constIters α := by
  cases h
  · exact .inl rfl
  · exact .inl rfl
  · exact .inr rfl
  · exact .inr rfl
  · exact .inr rfl

private theorem get_at (l : List α) {i : Nat} (h : i < l.length) : arrayGet l i = .ok l[i] := by
  unfold arrayGet; rw [List.getElem?_eq_getElem h]

private theorem move_one {len i : Nat} (h : i < len) : arrayMove len i 1 = .ok (i + 1) := by
  unfold arrayMove
  rw [if_pos ⟨by omega, by omega⟩]
  exact congrArg Outcome.ok (by omega)

private theorem copy_arrays {A : Iters (List α) Nat α} (hA : A = arrayIters α ∨ A = constIters α) (l : List α) : ∀ (n i j : Nat) (m : List α),
    i ≤ l.length → l.length - i ≤ n → j + (l.length - i) ≤ m.length →
    Alg.run (bothIters A (arrayIters α)) (copyProg n) [.inl i, .inl l.length, .inr j, .inr m.length] (l, m) =
      (.ok (), (l, m.take j ++ l.drop i ++ m.drop (j + (l.length - i)))) := by
  intro n
  induction n with
  | zero =>
    intro i j m hi hn hj
    have : i = l.length := by omega
    subst this
    rw [copyProg, Alg.run]
    simp [pure, St.pure]
  | succ n ih =>
    intro i j m hi hn hj
    have eq : (bothIters A (arrayIters α)).equal (.inl i) (.inl l.length) = decide (i = l.length) := by
      rcases hA with rfl | rfl <;> rfl
    rw [copyProg, Alg.run, lift_ok (show reg _ 0 = .ok (.inl i) from rfl), lift_ok (show reg _ 1 = .ok (.inl l.length) from rfl), eq]
    by_cases h : i = l.length
    · rw [decide_eq_true h]
      subst h
      rw [if_pos rfl, Alg.run]
      simp [pure, St.pure]
    · have hi' : i < l.length := by omega
      have hj' : j < m.length := by omega
      have e1 : (bothIters A (arrayIters α)).load (l, m) (.inl i) = .ok l[i] := by
        rcases hA with rfl | rfl <;> exact get_at l hi'
      have e2 : (bothIters A (arrayIters α)).store (l, m) (.inr j) l[i] = .ok (l, m.set j l[i]) := by
        show (do let t' ← (if j < m.length then .ok (m.set j l[i]) else .ub : Outcome (List α)); pure (l, t')) = _
        rw [if_pos hj']; rfl
      have e3 : (bothIters A (arrayIters α)).incr (l, m.set j l[i]) (.inr j) = .ok (.inr (j + 1)) :=
        map_ok (move_one (by rw [List.length_set]; exact hj'))
      have e4 : (bothIters A (arrayIters α)).incr (l, m.set j l[i]) (.inl i) = .ok (.inl (i + 1)) := by
        rcases hA with rfl | rfl <;> exact map_ok (move_one hi')
      rw [decide_eq_false h, if_neg Bool.false_ne_true, Alg.run, lift_ok (show reg _ 0 = .ok (.inl i) from rfl), get_bind, lift_ok e1,
        Alg.run, lift_ok (show reg _ 2 = .ok (.inr j) from rfl), get_bind, lift_ok e2, set_bind,
        Alg.run, lift_ok (show reg _ 2 = .ok (.inr j) from rfl), get_bind, lift_ok e3,
        Alg.run, lift_ok (show reg _ 0 = .ok (.inl i) from rfl), get_bind, lift_ok e4]
      have := ih (i + 1) (j + 1) (m.set j l[i]) (by omega) (by omega) (by rw [List.length_set]; omega)
      rw [List.length_set] at this
      refine this.trans ?_
      have t1 : (m.set j l[i]).take (j + 1) = m.take j ++ [l[i]] := by
        rw [List.take_succ_eq_append_getElem (by rw [List.length_set]; exact hj'), List.take_set_of_le (Nat.le_refl _),
          List.getElem_set_self]
      have t2 : l.drop i = l[i] :: l.drop (i + 1) := List.drop_eq_getElem_cons hi'
      have t3 : (m.set j l[i]).drop (j + 1 + (l.length - (i + 1))) = m.drop (j + (l.length - i)) := by
        rw [List.drop_set_of_lt (by omega)]
        congr 1; omega
      rw [t1, t2, t3]
      simp

/-- C179, `std::copy` from any of these containers into a `static_vector` that is at least as long, forwards or backwards: in
every build the first elements of the destination become those of the source and the others stay. -/
theorem c179_copy {b : Build} {u : DerefIter → DerefIter → Ordering} {σ ι τ κ : Type} {I : Iters σ ι α}
    {J : Iters τ κ α} {A : Iters (List α) Nat α} {s : σ} {t : τ} {first last : ι} {first' last' : κ} {l m : List α}
    (hs : Shows b u I A s first last l) (ht : Shows b u J (arrayIters α) t first' last' m) (hlen : l.length ≤ m.length)
    (n : Nat) (hn : l.length ≤ n) :
    ∃ s' t', Alg.run (bothIters I J) (copyProg n) [.inl first, .inl last, .inr first', .inr last'] (s, t) = (.ok (), (s', t')) ∧
      Shows b u I A s' first last l ∧ Shows b u J (arrayIters α) t' first' last' (l ++ m.drop l.length) := by
  have h := copy_arrays (shows_ref hs) l n 0 0 m (Nat.zero_le _) (by omega) (by omega)
  rcases c179_two_partial hs ht (copyProg n) () l _ h with ⟨s', t', e, h1, h2⟩ | ⟨_, hp, _⟩
  · refine ⟨s', t', e, h1, ?_⟩
    simpa using h2
  · exact absurd (copy_steps n) hp

private theorem equal_arrays [DecidableEq α] {A B : Iters (List α) Nat α} (hA : A = arrayIters α ∨ A = constIters α)
    (hB : B = arrayIters α ∨ B = constIters α) (l m : List α) (hlen : l.length ≤ m.length) : ∀ (n i : Nat),
    i ≤ l.length → l.length - i ≤ n →
    Alg.run (bothIters A B) (equalProg n) [.inl i, .inl l.length, .inr i, .inr m.length] (l, m) =
      (.ok (decide (l.drop i = (m.take l.length).drop i)), (l, m)) := by
  intro n
  induction n with
  | zero =>
    intro i hi hn
    have : i = l.length := by omega
    subst this
    rw [equalProg, Alg.run]
    simp [pure, St.pure]
  | succ n ih =>
    intro i hi hn
    have eq : (bothIters A B).equal (.inl i) (.inl l.length) = decide (i = l.length) := by
      rcases hA with rfl | rfl <;> rfl
    rw [equalProg, Alg.run, lift_ok (show reg _ 0 = .ok (.inl i) from rfl), lift_ok (show reg _ 1 = .ok (.inl l.length) from rfl), eq]
    by_cases h : i = l.length
    · rw [decide_eq_true h]
      subst h
      rw [if_pos rfl, Alg.run]
      simp [pure, St.pure]
    · have hi' : i < l.length := by omega
      have hj' : i < m.length := by omega
      have e1 : (bothIters A B).load (l, m) (.inl i) = .ok l[i] := by
        rcases hA with rfl | rfl <;> exact get_at l hi'
      have e2 : (bothIters A B).load (l, m) (.inr i) = .ok m[i] := by
        rcases hB with rfl | rfl <;> exact get_at m hj'
      have e3 : (bothIters A B).incr (l, m) (.inl i) = .ok (.inl (i + 1)) := by
        rcases hA with rfl | rfl <;> exact map_ok (move_one hi')
      have e4 : (bothIters A B).incr (l, m) (.inr i) = .ok (.inr (i + 1)) := by
        rcases hB with rfl | rfl <;> exact map_ok (move_one hj')
      have hk : i < (m.take l.length).length := by rw [List.length_take]; omega
      have d1 : l.drop i = l[i] :: l.drop (i + 1) := List.drop_eq_getElem_cons hi'
      have d2 : (m.take l.length).drop i = m[i] :: (m.take l.length).drop (i + 1) := by
        rw [List.drop_eq_getElem_cons hk, List.getElem_take]
      rw [decide_eq_false h, if_neg Bool.false_ne_true, Alg.run, lift_ok (show reg _ 0 = .ok (.inl i) from rfl), get_bind, lift_ok e1,
        Alg.run, lift_ok (show reg _ 2 = .ok (.inr i) from rfl), get_bind, lift_ok e2]
      by_cases hx : l[i] = m[i]
      · rw [if_pos hx, Alg.run, lift_ok (show reg _ 0 = .ok (.inl i) from rfl), get_bind, lift_ok e3,
          Alg.run, lift_ok (show reg _ 2 = .ok (.inr i) from rfl), get_bind, lift_ok e4]
        refine (ih (i + 1) (by omega) (by omega)).trans ?_
        rw [d1, d2, hx]
        simp
      · have hd : ¬ l.drop i = (m.take l.length).drop i := by
          rw [d1, d2]
          exact fun e => hx (List.cons.inj e).1
        rw [if_neg hx, Alg.run, decide_eq_false hd]
        rfl

/-- C179, `std::equal` of any two of these containers, the second at least as long: in every build it says whether the
elements of the first are the first ones of the second. -/
theorem c179_equal [DecidableEq α] {b : Build} {u : DerefIter → DerefIter → Ordering} {σ ι τ κ : Type} {I : Iters σ ι α}
    {J : Iters τ κ α} {A B : Iters (List α) Nat α} {s : σ} {t : τ} {first last : ι} {first' last' : κ} {l m : List α}
    (hs : Shows b u I A s first last l) (ht : Shows b u J B t first' last' m) (hlen : l.length ≤ m.length)
    (n : Nat) (hn : l.length ≤ n) :
    ∃ s' t', Alg.run (bothIters I J) (equalProg n) [.inl first, .inl last, .inr first', .inr last'] (s, t) =
        (.ok (decide (l = m.take l.length)), (s', t')) ∧
      Shows b u I A s' first last l ∧ Shows b u J B t' first' last' m := by
  have h := equal_arrays (shows_ref hs) (shows_ref ht) l m hlen n 0 (Nat.zero_le _) (by omega)
  rcases c179_two_partial hs ht (equalProg n) _ l m h with ⟨s', t', e, h1, h2⟩ | ⟨_, hp, _⟩
  · exact ⟨s', t', e, h1, h2⟩
  · exact absurd (equal_steps n) hp

/-- From a text in two fragments into a vector, from the end of the vector on. -/
example : Alg.run (bothIters (fragmentIters .debug) (reverseIters .debug (fun _ _ => .eq) Char)) (copyProg 3)
    [.inl ⟨0, 0⟩, .inl ⟨1, 1⟩, .inr (RevIter.rbegin 7 3), .inr (RevIter.rend 7 3)]
    ([some "ab".toList, some "c".toList], ⟨[some 'x', some 'y', some 'z', none], 3⟩) =
      (.ok (), ([some "ab".toList, some "c".toList], ⟨[some 'c', some 'b', some 'a', none], 3⟩)) := by decide +kernel

end

end Wite.Props
