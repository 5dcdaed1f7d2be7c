import Mathlib.Data.List.Basic
import Mathlib.Data.List.Forall2
import Mathlib.Algebra.BigOperators.Group.List.Basic
import Verif.Model.StaticVectorHandOver
import Verif.Props.StaticVectorObjs

/-!
# Property C205: what copying, moving and swapping vectors does to their elements
-/

namespace Wite.Props

open Wite Wite.Collections Wite.Spec.StaticVector

variable {α : Type}

/-- The objects alive in all vectors of a program. -/
def worldAlive (w : VecWorld α) : Nat := (w.vecs.map objectsAlive).sum

/-- The vector shows the list and holds no objects besides. -/
def HoldsOnly (cap : Nat) (v : StaticVector α) (l : List α) : Prop := Shows cap v l ∧ objectsAlive v = l.length

private theorem countP_none {rest : List (Option α)} (h : rest.countP Option.isSome = 0) : rest = List.replicate rest.length none := by
  induction rest with
  | nil => rfl
  | cons o rest ih =>
    cases o with
    | none => rw [List.length_cons, List.replicate_succ, ← ih (by simpa using h)]
    | some x => simp at h

private def tidy (cap : Nat) (l : List α) : List (Option α) := l.map some ++ List.replicate (cap - l.length) none

private theorem holdsOnly_tidy {cap : Nat} {v : StaticVector α} {l : List α} (h : HoldsOnly cap v l) :
    v.data = tidy cap l ∧ v.count = l.length ∧ l.length ≤ cap := by
  obtain ⟨hs, ha⟩ := h
  obtain ⟨rest, h1, h2, h3⟩ := shows_holds hs
  have hr : rest.countP Option.isSome = 0 := by
    rw [objectsAlive, h1, List.countP_append] at ha
    have : (l.map some).countP Option.isSome = l.length := by simp [List.countP_map, Function.comp_def]
    omega
  have hl : l.length + rest.length = cap := by rw [← h3, h1]; simp
  refine ⟨?_, h2, by omega⟩
  rw [h1, tidy, countP_none hr, show cap - l.length = rest.length by omega]

private theorem alive_tidy (cap : Nat) (l : List α) (n : Nat) : objectsAlive ⟨tidy cap l, n⟩ = l.length := by
  simp [objectsAlive, tidy, List.countP_append, List.countP_map, Function.comp_def, List.countP_replicate]

private theorem tidy_holdsOnly {cap : Nat} (hcap : cap < 2 ^ 64) {v : StaticVector α} {l : List α} (h : v.data = tidy cap l) (h' : v.count = l.length)
    (hl : l.length ≤ cap) : HoldsOnly cap v l := by
  obtain ⟨data, cnt⟩ := v
  simp only at h h'
  subst h
  refine ⟨StaticVector.holds_shows hcap ⟨_, rfl, h', ?_⟩, alive_tidy _ _ _⟩
  simp [tidy]; omega

private theorem slots_replicate (f : Option α → List ObjEv) (e : ObjEv) (h0 : f none = []) (h1 : ∀ x, f (some x) = [e]) (data : List (Option α)) :
    data.flatMap f = List.replicate (data.countP Option.isSome) e := by
  induction data with
  | nil => rfl
  | cons o data ih => cases o <;> simp [ih, h0, h1, List.replicate_succ]

/-! ## Copies and moves -/

/-- C205, copies: the new vector shows what the old one shows and all vectors are as before; what is copied is every object that the old one
holds. -/
theorem c205_copy (d : α) (mv self : α → α) (cap i : Nat) (w : VecWorld α) (v : StaticVector α) (l : List α) (hi : w.vecs[i]? = some v)
    (hv : Shows cap v l) :
    let r := VecWorld.step d mv self (.copyMake i) w
    r.1 = .ok () ∧ (∃ u, r.2.vecs = w.vecs ++ [u] ∧ Shows cap u l ∧ objectsAlive u = objectsAlive v) ∧
      r.2.events = w.events ++ List.replicate (objectsAlive v) .copy := by
  simp only [VecWorld.step, hi]
  refine ⟨trivial, ⟨v, rfl, hv, rfl⟩, ?_⟩
  simp only [VecWorld.copyMake, VecWorld.log]
  rw [slots_replicate _ .copy rfl (fun _ => rfl)]
  rfl

/-- C205, what holds: if the vector holds nothing but its elements, copying makes one copy of each. -/
theorem c205_copy_partial (d : α) (mv self : α → α) (cap i : Nat) (w : VecWorld α) (v : StaticVector α) (l : List α) (hi : w.vecs[i]? = some v)
    (hv : HoldsOnly cap v l) :
    let r := VecWorld.step d mv self (.copyMake i) w
    (∃ u, r.2.vecs = w.vecs ++ [u] ∧ HoldsOnly cap u l) ∧ r.2.events = w.events ++ List.replicate l.length .copy := by
  obtain ⟨-, ⟨u, h1, h2, h3⟩, h4⟩ := c205_copy d mv self cap i w v l hi hv.1
  exact ⟨⟨u, h1, h2, h3.trans hv.2⟩, by rw [h4, hv.2]⟩

/-- C205 is false: a vector that was cleared still hands on its old elements.  A copy of it shows nothing, but all the objects were copied and
live on in the copy. -/
theorem c205_refuted_cleared (d : α) (mv self : α → α) (cap i : Nat) (hcap : cap < 2 ^ 64) (w : VecWorld α) (v : StaticVector α) (l : List α)
    (hi : w.vecs[i]? = some v) (hv : Shows cap v l) :
    let r := VecWorld.step d mv self (.copyMake i) (VecWorld.step d mv self (.call i .clear) w).2
    (∃ u, r.2.vecs.getLast? = some u ∧ Shows cap u [] ∧ l.length ≤ objectsAlive u) ∧
      ∃ n, l.length ≤ n ∧ r.2.events = w.events ++ List.replicate n .copy := by
  obtain ⟨rest, h1, h2, h3⟩ := shows_holds hv
  have hlt : i < w.vecs.length := by
    by_contra h
    rw [List.getElem?_eq_none (by omega)] at hi; cases hi
  have hclear : (VecWorld.step d mv self (.call i .clear) w).2 = ⟨w.vecs.set i v.clear, w.vars, w.events⟩ := by
    simp only [VecWorld.step, hi]; rfl
  have hget : (w.vecs.set i v.clear)[i]? = some v.clear := by
    rw [List.getElem?_set_self hlt]
  have hs : Shows cap v.clear ([] : List α) :=
    StaticVector.holds_shows hcap ⟨v.data, by simp [StaticVector.clear], rfl, h3⟩
  have hal : l.length ≤ objectsAlive v.clear := by
    have : objectsAlive v.clear = v.data.countP Option.isSome := rfl
    rw [this, h1, List.countP_append]
    have : (l.map some).countP Option.isSome = l.length := by simp [List.countP_map, Function.comp_def]
    omega
  simp only [hclear]
  obtain ⟨-, ⟨u, g1, g2, g3⟩, g4⟩ := c205_copy d mv self cap i ⟨w.vecs.set i v.clear, w.vars, w.events⟩ v.clear [] hget hs
  exact ⟨⟨u, by rw [g1]; simp, g2, by omega⟩, _, hal, g4⟩

private theorem moved_shows {cap : Nat} (hcap : cap < 2 ^ 64) (mv : α → α) {v : StaticVector α} {l : List α} (hv : Shows cap v l) :
    Shows cap (v.movedFrom mv) (l.map mv) := by
  obtain ⟨rest, h1, h2, h3⟩ := shows_holds hv
  refine StaticVector.holds_shows hcap ⟨rest.map (·.map mv), ?_, by simpa [StaticVector.movedFrom] using h2, by simpa [StaticVector.movedFrom] using h3⟩
  simp [StaticVector.movedFrom, h1, Function.comp_def]

/-- C205, moves: the new vector shows what the old one showed, and every object that the old one held was moved from. -/
theorem c205_move (d : α) (mv self : α → α) (cap i : Nat) (hcap : cap < 2 ^ 64) (w : VecWorld α) (v : StaticVector α) (l : List α)
    (hi : w.vecs[i]? = some v) (hv : Shows cap v l) :
    let r := VecWorld.step d mv self (.moveMake i) w
    r.1 = .ok () ∧ (∃ u v', r.2.vecs = w.vecs.set i v' ++ [u] ∧ Shows cap u l ∧ Shows cap v' (l.map mv)) ∧
      r.2.events = w.events ++ List.replicate (objectsAlive v) .move := by
  simp only [VecWorld.step, hi]
  refine ⟨trivial, ⟨v, v.movedFrom mv, rfl, hv, moved_shows hcap mv hv⟩, ?_⟩
  simp only [VecWorld.moveMake, VecWorld.log]
  rw [slots_replicate _ .move rfl (fun _ => rfl)]
  rfl

/-- C205 is false: a vector that was moved from is not without elements; it has as many as before, each one moved from.  This holds of every
vector. -/
theorem c205_refuted_moved (d : α) (mv self : α → α) (cap i j : Nat) (hcap : cap < 2 ^ 64) (w : VecWorld α) (u v : StaticVector α) (l : List α)
    (hi : w.vecs[i]? = some v) (hj : w.vecs[j]? = some u) (hij : j ≠ i) (hv : Shows cap v l) :
    (∃ v', (VecWorld.step d mv self (.moveMake i) w).2.vecs[i]? = some v' ∧ v'.size = v.size ∧ Shows cap v' (l.map mv)) ∧
    (∃ v', (VecWorld.step d mv self (.moveAssign j i) w).2.vecs[i]? = some v' ∧ v'.size = v.size ∧ Shows cap v' (l.map mv)) := by
  have hlt : i < w.vecs.length := by
    by_contra h
    rw [List.getElem?_eq_none (by omega)] at hi; cases hi
  refine ⟨⟨v.movedFrom mv, ?_, rfl, moved_shows hcap mv hv⟩, ⟨v.movedFrom mv, ?_, rfl, moved_shows hcap mv hv⟩⟩
  · simp only [VecWorld.step, hi, VecWorld.moveMake, VecWorld.log]
    rw [List.getElem?_append_left (by simpa using hlt), List.getElem?_set_self hlt]
  · simp only [VecWorld.step, hi, hj, VecWorld.moveAssign, VecWorld.log, if_neg hij]
    rw [List.getElem?_set_self (by simpa using hlt)]

/-! ## Assignments and swaps -/

private theorem pairwise_tidy (f : Option α → Option α → List ObjEv) (cap : Nat) (la lb : List α) (ha : la.length ≤ cap) (hb : lb.length ≤ cap)
    (h0 : f none none = []) :
    VecWorld.pairwise f (tidy cap la) (tidy cap lb) =
      (List.zipWith (fun x y => f (some x) (some y)) la lb).flatten ++ (la.drop lb.length).flatMap (fun x => f (some x) none) ++
        (lb.drop la.length).flatMap (fun y => f none (some y)) := by
  induction cap generalizing la lb with
  | zero =>
    cases la <;> cases lb <;> simp_all [tidy, VecWorld.pairwise]
  | succ cap ih =>
    cases la with
    | nil =>
      cases lb with
      | nil =>
        have := ih [] [] (by simp) (by simp)
        simp only [tidy, VecWorld.pairwise, List.length_nil, Nat.sub_zero, List.map_nil, List.nil_append, List.replicate_succ,
          List.zipWith_cons_cons, List.flatten_cons, h0] at this ⊢
        exact this
      | cons y lb =>
        have := ih [] lb (by simp) (by simpa using hb)
        simp only [tidy, VecWorld.pairwise, List.length_nil, Nat.sub_zero, List.map_nil, List.nil_append, List.replicate_succ,
          List.zipWith_cons_cons, List.flatten_cons, List.map_cons, List.cons_append, List.length_cons, Nat.add_sub_add_right, List.drop_zero,
          List.flatMap_cons, List.zipWith_nil_left, List.flatten_nil, List.drop_nil, List.flatMap_nil] at this ⊢
        rw [this]
    | cons x la =>
      cases lb with
      | nil =>
        have := ih la [] (by simpa using ha) (by simp)
        simp only [tidy, VecWorld.pairwise, List.length_nil, Nat.sub_zero, List.map_nil, List.nil_append, List.replicate_succ,
          List.zipWith_cons_cons, List.flatten_cons, List.map_cons, List.cons_append, List.length_cons, Nat.add_sub_add_right, List.drop_zero,
          List.flatMap_cons, List.zipWith_nil_right, List.flatten_nil, List.drop_nil, List.flatMap_nil, List.append_nil] at this ⊢
        rw [this]
      | cons y lb =>
        have := ih la lb (by simpa using ha) (by simpa using hb)
        simp only [tidy, VecWorld.pairwise, List.map_cons, List.cons_append, List.length_cons, Nat.add_sub_add_right,
          List.zipWith_cons_cons, List.flatten_cons, List.drop_succ_cons, List.append_assoc] at this ⊢
        rw [this]

private theorem flatten_single (la lb : List α) (e : ObjEv) :
    (List.zipWith (fun _ _ => [e]) la lb).flatten = List.replicate (min la.length lb.length) e := by
  induction la generalizing lb with
  | nil => simp
  | cons x la ih =>
    cases lb with
    | nil => simp
    | cons y lb => simp [ih, Nat.add_min_add_right, List.replicate_succ]

private theorem flatMap_single (l : List α) (e : ObjEv) : l.flatMap (fun _ => [e]) = List.replicate l.length e := by
  induction l with
  | nil => rfl
  | cons x l ih => simp [ih, List.replicate_succ]

/-- C205, what holds of assignments: the target shows what the source shows, and the other vectors are as before.  If both hold nothing but their
elements, as many elements are assigned to as the target has places for, and the rest is made or destroyed; nothing else happens. -/
theorem c205_assign_partial (d : α) (mv self : α → α) (cap i j : Nat) (w : VecWorld α) (u v : StaticVector α) (l m : List α)
    (hi : w.vecs[i]? = some v) (hj : w.vecs[j]? = some u) (hv : HoldsOnly cap v l) (hu : HoldsOnly cap u m) :
    ((VecWorld.step d mv self (.copyAssign i j) w).2.vecs = w.vecs.set i u ∧
      (VecWorld.step d mv self (.copyAssign i j) w).2.events = w.events ++ (List.replicate (min l.length m.length) .copyAssign ++
        List.replicate (l.length - m.length) .destroy ++ List.replicate (m.length - l.length) .copy)) ∧
    (i ≠ j → (VecWorld.step d mv self (.moveAssign i j) w).2.vecs = (w.vecs.set i u).set j (u.movedFrom mv) ∧
      (VecWorld.step d mv self (.moveAssign i j) w).2.events = w.events ++ (List.replicate (min l.length m.length) .moveAssign ++
        List.replicate (l.length - m.length) .destroy ++ List.replicate (m.length - l.length) .move)) := by
  obtain ⟨a1, -, a3⟩ := holdsOnly_tidy hv
  obtain ⟨b1, -, b3⟩ := holdsOnly_tidy hu
  refine ⟨⟨by simp only [VecWorld.step, hi, hj]; rfl, ?_⟩, fun hij => ⟨?_, ?_⟩⟩
  · simp only [VecWorld.step, hi, hj, VecWorld.copyAssign, VecWorld.log, a1, b1]
    rw [pairwise_tidy _ cap l m a3 b3 rfl]
    simp only [VecWorld.copyAssignSlot, flatten_single, flatMap_single, List.length_drop]
  · simp only [VecWorld.step, hi, hj, VecWorld.moveAssign, VecWorld.log, if_neg hij]
  · simp only [VecWorld.step, hi, hj, VecWorld.moveAssign, VecWorld.log, if_neg hij, a1, b1]
    rw [pairwise_tidy _ cap l m a3 b3 rfl]
    simp only [VecWorld.moveAssignSlot, flatten_single, flatMap_single, List.length_drop]

/-- C205, swaps: the vectors exchange what they show; if both hold nothing but their elements, the common elements are swapped one by one and
those one of them has in excess are moved across. -/
theorem c205_swap_partial (d : α) (mv self : α → α) (cap i j : Nat) (w : VecWorld α) (u v : StaticVector α) (l m : List α)
    (hi : w.vecs[i]? = some v) (hj : w.vecs[j]? = some u) (hv : HoldsOnly cap v l) (hu : HoldsOnly cap u m) :
    (VecWorld.step d mv self (.swap i j) w).2.vecs = (w.vecs.set i u).set j v ∧
    ∃ es, (VecWorld.step d mv self (.swap i j) w).2.events = w.events ++ es ∧ es.count .swap = min l.length m.length ∧
      es.count .move = max l.length m.length - min l.length m.length ∧ es.count .destroy = max l.length m.length - min l.length m.length ∧
      es.count .copy = 0 ∧ es.count .copyAssign = 0 ∧ es.count .moveAssign = 0 ∧ es.count .default = 0 := by
  obtain ⟨a1, -, a3⟩ := holdsOnly_tidy hv
  obtain ⟨b1, -, b3⟩ := holdsOnly_tidy hu
  refine ⟨by simp only [VecWorld.step, hi, hj]; rfl, _, by simp only [VecWorld.step, hi, hj, VecWorld.swap, VecWorld.log]; rfl, ?_⟩
  rw [a1, b1, pairwise_tidy _ cap l m a3 b3 rfl]
  simp only [VecWorld.swapSlot, flatten_single]
  have hc : ∀ (e : ObjEv) (k : List α), (k.flatMap fun _ => [ObjEv.move, .destroy]).count e = k.length * [ObjEv.move, .destroy].count e := by
    intro e k
    induction k with
    | nil => simp
    | cons x k ih => rw [List.flatMap_cons, List.count_append, ih, List.length_cons, Nat.add_mul]; omega
  simp only [List.count_append, hc, List.length_drop, List.count_replicate]
  simp
  omega

/-- C205: a vector assigned to itself or swapped with itself stays as it is; moved onto itself it keeps its size, and its elements are what
moving them onto themselves makes of them. -/
theorem c205_self (d : α) (mv self : α → α) (cap i : Nat) (hcap : cap < 2 ^ 64) (w : VecWorld α) (v : StaticVector α) (l : List α)
    (hi : w.vecs[i]? = some v) (hv : Shows cap v l) :
    (VecWorld.step d mv self (.copyAssign i i) w).2.vecs = w.vecs ∧ (VecWorld.step d mv self (.swap i i) w).2.vecs = w.vecs ∧
    ∃ v', (VecWorld.step d mv self (.moveAssign i i) w).2.vecs = w.vecs.set i v' ∧ Shows cap v' (l.map self) := by
  have hset : w.vecs.set i v = w.vecs := by
    obtain ⟨hlt, h⟩ := List.getElem?_eq_some_iff.1 hi
    rw [← h]; exact List.set_getElem_self hlt
  refine ⟨?_, ?_, v.movedFrom self, ?_, moved_shows hcap self hv⟩
  · simp only [VecWorld.step, hi, VecWorld.copyAssign, VecWorld.log, hset]
  · simp only [VecWorld.step, hi, VecWorld.swap, VecWorld.log, StaticVector.swap]
    have e : (⟨v.data, v.count⟩ : StaticVector α) = v := rfl
    rw [e, hset, hset]
  · simp only [VecWorld.step, hi, VecWorld.moveAssign, VecWorld.log, if_true]

/-! ## Programs -/

private theorem sum_set (f : StaticVector α → Nat) (vs : List (StaticVector α)) (i : Nat) (v u : StaticVector α) (h : vs[i]? = some v) :
    ((vs.set i u).map f).sum + f v = (vs.map f).sum + f u := by
  induction vs generalizing i with
  | nil => simp at h
  | cons x vs ih =>
    cases i with
    | zero =>
      simp only [List.getElem?_cons_zero, Option.some.injEq] at h
      subst h
      simp only [List.set_cons_zero, List.map_cons, List.sum_cons]; omega
    | succ i =>
      have := ih i (by simpa using h)
      simp only [List.set_cons_succ, List.map_cons, List.sum_cons]; omega

private theorem length_fill (x : α) : ∀ (n pos : Nat) (s t : ObjVec α), ObjVec.fill x pos n s = .ok t → t.vec.data.length = s.vec.data.length := by
  intro n
  induction n with
  | zero => intro pos s t h; cases h; rfl
  | succ n ih =>
    intro pos s t h
    rw [ObjVec.fill] at h
    split at h
    · cases h
    · rw [ih _ _ _ h]; simp [ObjVec.log]

private theorem length_reset : ∀ (n pos : Nat) (s t : ObjVec α), ObjVec.reset pos n s = .ok t → t.vec.data.length = s.vec.data.length := by
  intro n
  induction n with
  | zero => intro pos s t h; cases pos <;> (cases h; rfl)
  | succ n ih =>
    intro pos s t h
    cases pos with
    | zero => cases h
    | succ pos =>
      rw [ObjVec.reset] at h
      split at h
      · cases h
      · rw [ih _ _ _ h]; simp [ObjVec.log]

private theorem length_unsafeResize (n : Nat) (x : α) (s t : ObjVec α) (h : ObjVec.unsafeResize n x s = .ok t) :
    t.vec.data.length = s.vec.data.length := by
  rw [ObjVec.unsafeResize] at h
  split at h
  · cases hf : ObjVec.fill x s.vec.count (n - s.vec.size) (s.log [.move]) with
    | ok u =>
      simp only [ObjVec.alloc, hf, Outcome.bind_ok, Outcome.pure_eq] at h
      cases h
      simpa [ObjVec.log] using length_fill _ _ _ _ _ hf
    | _ => simp only [ObjVec.alloc, hf] at h; cases h
  · split at h
    · cases hf : ObjVec.reset s.vec.count (s.vec.size - n) s with
      | ok u =>
        simp only [hf, Outcome.bind_ok, Outcome.pure_eq] at h
        cases h
        exact (length_reset _ _ s u hf :)
      | _ => simp only [hf] at h; cases h
    · cases h; rfl

private theorem length_param (mv : α → α) (a : ObjArg) (s t : ObjVec α) (x : α) (h : ObjVec.param mv a s = .ok (x, t)) :
    t.vec.data.length = s.vec.data.length := by
  obtain ⟨moved, ref⟩ := a
  rw [ObjVec.param] at h
  cases hr : s.read ref with
  | ok y =>
    simp only [hr, Outcome.bind_ok, Outcome.pure_eq] at h
    cases moved <;> cases ref <;> cases h <;> simp [ObjVec.log, ObjVec.write]
  | _ => simp only [hr] at h; cases h

private theorem length_resize (mv : α → α) (n : Nat) (a : ObjArg) (s : ObjVec α) :
    (ObjVec.resize mv n a s).2.vec.data.length = s.vec.data.length := by
  rw [ObjVec.resize]
  split
  · rename_i x t hp
    have h1 := length_param mv a s t x hp
    split
    · exact h1
    · cases hu : ObjVec.unsafeResize n x (t.log [.move]) with
      | ok u =>
        simp only [Outcome.bind_ok, Outcome.pure_eq, ObjVec.finish]
        exact (length_unsafeResize _ _ _ _ hu).trans h1
      | _ => exact h1
  all_goals rfl

private theorem length_step (d : α) (mv : α → α) (op : ObjVec.Op) (s : ObjVec α) :
    (ObjVec.step d mv op s).2.vec.data.length = s.vec.data.length := by
  cases op with
  | pushBack a => exact length_resize _ _ _ _
  | resize n a => exact length_resize _ _ _ _
  | resizeDefault n =>
    simp only [ObjVec.step, ObjVec.resizeDefault]
    split
    · rfl
    · cases hu : ObjVec.unsafeResize n d (s.log [.default]) with
      | ok u =>
        simp only [Outcome.bind_ok, Outcome.pure_eq, ObjVec.finish]
        exact (length_unsafeResize _ _ _ u hu :)
      | _ => rfl
  | clear => rfl

private theorem caps_step (d : α) (mv self : α → α) (cap : Nat) (op : VecWorld.Op) (w : VecWorld α) (h : ∀ v ∈ w.vecs, v.data.length = cap) :
    ∀ v ∈ (VecWorld.step d mv self op w).2.vecs, v.data.length = cap := by
  have hset : ∀ (vs : List (StaticVector α)) i u, (∀ v ∈ vs, v.data.length = cap) → u.data.length = cap → ∀ v ∈ vs.set i u, v.data.length = cap := by
    intro vs i u hvs hu v hv
    rcases List.mem_or_eq_of_mem_set hv with hv | rfl
    · exact hvs v hv
    · exact hu
  have hget : ∀ {i : Nat} {v : StaticVector α}, w.vecs[i]? = some v → v.data.length = cap := fun hi => h _ (List.mem_of_getElem? hi)
  cases op with
  | copyMake i =>
    simp only [VecWorld.step]
    split
    · rename_i v hi
      intro u hu
      simp only [VecWorld.copyMake, VecWorld.log, List.mem_append, List.mem_singleton] at hu
      rcases hu with hu | rfl
      · exact h u hu
      · exact hget hi
    · exact h
  | moveMake i =>
    simp only [VecWorld.step]
    split
    · rename_i v hi
      intro u hu
      simp only [VecWorld.moveMake, VecWorld.log, List.mem_append, List.mem_singleton] at hu
      rcases hu with hu | rfl
      · exact hset _ _ _ h (by simpa [StaticVector.movedFrom] using hget hi) u hu
      · exact hget hi
    · exact h
  | copyAssign i j =>
    simp only [VecWorld.step]
    split
    · rename_i v u hi hj
      exact hset _ _ _ h (hget hj)
    · exact h
  | moveAssign i j =>
    simp only [VecWorld.step]
    split
    · rename_i v u hi hj
      simp only [VecWorld.moveAssign, VecWorld.log]
      split
      · exact hset _ _ _ h (by simpa [StaticVector.movedFrom] using hget hj)
      · exact hset _ _ _ (hset _ _ _ h (hget hj)) (by simpa [StaticVector.movedFrom] using hget hj)
    · exact h
  | swap i j =>
    simp only [VecWorld.step]
    split
    · rename_i v u hi hj
      exact hset _ _ _ (hset _ _ _ h (hget hj)) (hget hi)
    · exact h
  | call i op =>
    simp only [VecWorld.step]
    split
    · rename_i v hi
      exact hset _ _ _ h ((length_step d mv op _).trans (hget hi))
    · exact h
  | leave =>
    simp only [VecWorld.step, VecWorld.leave]
    split
    · exact h
    · exact fun v hv => h v (List.dropLast_subset _ hv)

private def balW (w : VecWorld α) : Int := (objectsMade w.events : Int) - w.events.count .destroy - worldAlive w

private theorem made_pairwise (f : Option α → Option α → List ObjEv) (g : Option α → Option α → Int)
    (h : ∀ a b, (objectsMade (f a b) : Int) - (f a b).count .destroy = g a b) (a b : List (Option α)) :
    (objectsMade (VecWorld.pairwise f a b) : Int) - (VecWorld.pairwise f a b).count .destroy = (List.zipWith g a b).sum := by
  induction a generalizing b with
  | nil => simp [VecWorld.pairwise, objectsMade]
  | cons x a ih =>
    cases b with
    | nil => simp [VecWorld.pairwise, objectsMade]
    | cons y b =>
      have h1 := ih b
      have h2 := h x y
      simp only [VecWorld.pairwise, objectsMade, List.zipWith_cons_cons, List.flatten_cons, List.count_append, List.sum_cons] at h1 h2 ⊢
      omega

private theorem sum_diff (a b : List (Option α)) (h : a.length = b.length) :
    (List.zipWith (fun x y => ((if Option.isSome y then 1 else 0 : Int) - if Option.isSome x then 1 else 0)) a b).sum =
      (b.countP Option.isSome : Int) - a.countP Option.isSome := by
  induction a generalizing b with
  | nil => cases b with
    | nil => rfl
    | cons y b => simp at h
  | cons x a ih =>
    cases b with
    | nil => simp at h
    | cons y b =>
      have := ih b (by simpa using h)
      cases x <;> cases y <;> simp at this ⊢ <;> omega

private theorem sum_zero (a b : List (Option α)) : (List.zipWith (fun (_ _ : Option α) => (0 : Int)) a b).sum = 0 := by
  induction a generalizing b with
  | nil => simp
  | cons x a ih => cases b <;> simp [ih]

private theorem balW_step (d : α) (mv self : α → α) (cap : Nat) (op : VecWorld.Op) (w : VecWorld α) (h : ∀ v ∈ w.vecs, v.data.length = cap)
    (hok : (VecWorld.step d mv self op w).1 = .ok () ∨ ∃ e, (VecWorld.step d mv self op w).1 = .throw e) :
    balW (VecWorld.step d mv self op w).2 = balW w := by
  have hget : ∀ {i : Nat} {v : StaticVector α}, w.vecs[i]? = some v → v.data.length = cap := fun hi => h _ (List.mem_of_getElem? hi)
  have hmoved : ∀ (f : α → α) (v : StaticVector α), objectsAlive (v.movedFrom f) = objectsAlive v := by
    intro f v
    simp [objectsAlive, StaticVector.movedFrom, List.countP_map, Function.comp_def]
  have hlog : ∀ (es : List ObjEv) (u : VecWorld α), balW (u.log es) = balW u + objectsMade es - es.count .destroy := by
    intro es u
    simp only [balW, VecWorld.log, objectsMade, List.count_append, worldAlive]; omega
  have hassign : ∀ a b : List (Option α), a.length = b.length →
      (objectsMade (VecWorld.pairwise VecWorld.copyAssignSlot a b) : Int) - (VecWorld.pairwise VecWorld.copyAssignSlot a b).count .destroy =
        (b.countP Option.isSome : Int) - a.countP Option.isSome := by
    intro a b hab
    rw [← sum_diff a b hab]
    exact made_pairwise _ _ (fun a b => by cases a <;> cases b <;> rfl) a b
  have hmassign : ∀ a b : List (Option α), a.length = b.length →
      (objectsMade (VecWorld.pairwise VecWorld.moveAssignSlot a b) : Int) - (VecWorld.pairwise VecWorld.moveAssignSlot a b).count .destroy =
        (b.countP Option.isSome : Int) - a.countP Option.isSome := by
    intro a b hab
    rw [← sum_diff a b hab]
    exact made_pairwise _ _ (fun a b => by cases a <;> cases b <;> rfl) a b
  have hswap : ∀ a b : List (Option α),
      (objectsMade (VecWorld.pairwise VecWorld.swapSlot a b) : Int) - (VecWorld.pairwise VecWorld.swapSlot a b).count .destroy = 0 := by
    intro a b
    rw [← sum_zero a b]
    exact made_pairwise _ _ (fun a b => by cases a <;> cases b <;> rfl) a b
  cases op with
  | copyMake i =>
    simp only [VecWorld.step]
    split
    · rename_i v hi
      rw [VecWorld.copyMake, hlog, slots_replicate _ .copy rfl (fun _ => rfl)]
      simp [balW, worldAlive, objectsMade, objectsAlive, List.count_replicate]
      omega
    · rfl
  | moveMake i =>
    simp only [VecWorld.step]
    split
    · rename_i v hi
      rw [VecWorld.moveMake, hlog, slots_replicate _ .move rfl (fun _ => rfl)]
      have := sum_set objectsAlive w.vecs i v (v.movedFrom mv) hi
      rw [hmoved] at this
      simp only [balW, worldAlive, objectsMade, List.map_append, List.sum_append, List.map_cons, List.map_nil, List.sum_cons, List.sum_nil,
        List.count_replicate]
      simp [objectsAlive] at this ⊢
      omega
    · rfl
  | copyAssign i j =>
    simp only [VecWorld.step]
    split
    · rename_i v u hi hj
      rw [VecWorld.copyAssign, hlog]
      have h1 := sum_set objectsAlive w.vecs i v u hi
      have h2 := hassign v.data u.data ((hget hi).trans (hget hj).symm)
      simp only [balW, worldAlive]
      simp only [objectsAlive] at h1 h2 ⊢
      omega
    · rfl
  | moveAssign i j =>
    simp only [VecWorld.step]
    split
    · rename_i v u hi hj
      rw [VecWorld.moveAssign, hlog]
      have h2 := hmassign v.data u.data ((hget hi).trans (hget hj).symm)
      by_cases hij : i = j
      · have h1 := sum_set objectsAlive w.vecs i v (u.movedFrom self) hi
        rw [hmoved] at h1
        simp only [if_pos hij, balW, worldAlive]
        simp only [objectsAlive] at h1 h2 ⊢
        omega
      · have h1 := sum_set objectsAlive w.vecs i v u hi
        have h3 := sum_set objectsAlive (w.vecs.set i u) j u (u.movedFrom mv) (by rw [List.getElem?_set_ne hij]; exact hj)
        rw [hmoved] at h3
        simp only [if_neg hij, balW, worldAlive]
        simp only [objectsAlive] at h1 h2 h3 ⊢
        omega
    · rfl
  | swap i j =>
    simp only [VecWorld.step]
    split
    · rename_i v u hi hj
      rw [VecWorld.swap, hlog, show StaticVector.swap v u = (u, v) from rfl]
      have h2 := hswap v.data u.data
      have h1 := sum_set objectsAlive w.vecs i v u hi
      by_cases hij : i = j
      · subst hij
        rw [hi] at hj; cases hj
        have h3 := sum_set objectsAlive (w.vecs.set i v) i v v (by
          obtain ⟨hlt, -⟩ := List.getElem?_eq_some_iff.1 hi
          rw [List.getElem?_set_self hlt])
        simp only [balW, worldAlive]
        simp only [objectsAlive] at h1 h2 h3 ⊢
        omega
      · have h3 := sum_set objectsAlive (w.vecs.set i u) j u v (by rw [List.getElem?_set_ne hij]; exact hj)
        simp only [balW, worldAlive]
        simp only [objectsAlive] at h1 h2 h3 ⊢
        omega
    · rfl
  | call i op =>
    simp only [VecWorld.step] at hok ⊢
    split
    · rename_i v hi
      simp only [hi] at hok
      have h1 := bal_step d mv op ⟨v, w.vars, w.events⟩ hok
      have h2 := sum_set objectsAlive w.vecs i v (ObjVec.step d mv op ⟨v, w.vars, w.events⟩).2.vec hi
      simp only [bal] at h1
      simp only [VecWorld.call, balW, worldAlive]
      omega
    · rfl
  | leave =>
    simp only [VecWorld.step, VecWorld.leave]
    split
    · rfl
    · rename_i v hv
      rw [hlog, slots_replicate (fun o => if Option.isSome o then [ObjEv.destroy] else []) .destroy rfl (fun _ => rfl)]
      have hd : w.vecs = w.vecs.dropLast ++ [v] := (List.dropLast_append_getLast? v hv).symm
      have : worldAlive w = (w.vecs.dropLast.map objectsAlive).sum + objectsAlive v := by
        rw [worldAlive]; conv_lhs => rw [hd]
        simp
      simp only [balW, this, objectsMade, List.count_replicate]
      simp [worldAlive, objectsAlive] at this ⊢
      omega

/-- C205: whatever vectors are copied, moved, assigned, swapped, changed and destroyed in a program, every object made is destroyed exactly once:
what was alive at first or has been made is destroyed or alive in a vector.  This holds also if calls throw `std::length_error`. -/
theorem c205_destroyed (cap : Nat) (d : α) (mv self : α → α) (ops : List VecWorld.Op) (vecs : List (StaticVector α)) (vars : Nat → α)
    (hcap : ∀ v ∈ vecs, v.capacity = cap) :
    let r := St.outcomes (VecWorld.step d mv self) ops ⟨vecs, vars, []⟩
    (∀ o ∈ r.1, o = .ok () ∨ ∃ e, o = .throw e) →
    (vecs.map objectsAlive).sum + objectsMade r.2.events = r.2.events.count .destroy + worldAlive r.2 := by
  intro r hr
  have hgo : ∀ (ops : List VecWorld.Op) (w : VecWorld α), (∀ v ∈ w.vecs, v.data.length = cap) →
      (∀ o ∈ (St.outcomes (VecWorld.step d mv self) ops w).1, o = .ok () ∨ ∃ e, o = .throw e) →
      balW (St.outcomes (VecWorld.step d mv self) ops w).2 = balW w := by
    intro ops
    induction ops with
    | nil => intro w _ _; rfl
    | cons op ops ih =>
      intro w hw h
      rw [St.outcomes] at h ⊢
      simp only [List.mem_cons, forall_eq_or_imp] at h
      simp only
      rw [ih _ (caps_step d mv self cap op w hw) h.2, balW_step d mv self cap op w hw h.1]
  have := hgo ops ⟨vecs, vars, []⟩ hcap hr
  have h0 : balW (⟨vecs, vars, []⟩ : VecWorld α) = -((vecs.map objectsAlive).sum : Nat) := by simp [balW, worldAlive, objectsMade]
  rw [h0] at this
  simp only [balW] at this
  have e : r.2 = (St.outcomes (VecWorld.step d mv self) ops ⟨vecs, vars, []⟩).2 := rfl
  rw [e]
  omega

private theorem only_call (d : α) (mv : α → α) (cap : Nat) (hcap : cap < 2 ^ 64) (v : StaticVector α) (l : List α) (vars : Nat → α) (es : List ObjEv)
    (op : ObjVec.Op) (hop : op ≠ .clear) (hv : HoldsOnly cap v l) : ∃ l', HoldsOnly cap (ObjVec.step d mv op ⟨v, vars, es⟩).2.vec l' := by
  obtain ⟨h1, h2, h3⟩ := holdsOnly_tidy hv
  obtain ⟨data, cnt⟩ := v
  simp only at h1 h2
  subst h1 h2
  have hrest : ∀ n, n ≤ cap → restAfter l (List.replicate (cap - l.length) (none : Option α)) n = List.replicate (cap - n) none := by
    intro n hn
    rw [restAfter]
    split
    · rw [List.drop_replicate]; congr 1; omega
    · rw [List.replicate_append_replicate]; congr 1; omega
  have hresize : ∀ n a, ∃ l', HoldsOnly cap (ObjVec.resize mv n a ⟨⟨tidy cap l, l.length⟩, vars, es⟩).2.vec l' := by
    intro n a
    by_cases ha : ∃ x, NamesValue l vars a.ref x
    · obtain ⟨x, ha⟩ := ha
      rw [tidy, resize_run mv n a l _ vars es x ha]
      have hlen := contentsAfter_length mv l a x
      split
      · rename_i hn
        have hn' : n ≤ cap := by simp at hn; omega
        have hl : (resized (contentsAfter mv l a x) n x).length = n := by simp [resized, hlen]; omega
        exact ⟨resized (contentsAfter mv l a x) n x, tidy_holdsOnly hcap (by simp only [hrest n hn', tidy, hl]) hl.symm (by omega)⟩
      · exact ⟨contentsAfter mv l a x, tidy_holdsOnly hcap (by simp only [tidy, hlen]) hlen.symm (by omega)⟩
    · obtain ⟨moved, ref⟩ := a
      cases ref with
      | var i => exact absurd ⟨_, rfl⟩ ha
      | elem k =>
        have hk : l.length ≤ k := by
          by_contra hk
          exact ha ⟨l[k]'(by omega), by simp [NamesValue]⟩
        have hix : StaticVector.index ⟨tidy cap l, l.length⟩ k = .ub := by
          rw [StaticVector.index]
          simp only [tidy, List.getElem?_append_right (show (l.map some).length ≤ k by simpa using hk)]
          by_cases hb : k - (l.map some).length < cap - l.length
          · rw [List.getElem?_replicate, if_pos hb]
          · rw [List.getElem?_replicate, if_neg hb]
        have hp : ObjVec.param mv ⟨moved, .elem k⟩ ⟨⟨tidy cap l, l.length⟩, vars, es⟩ = .ub := by
          simp only [ObjVec.param, ObjVec.read, hix, Outcome.bind_ub]
        rw [ObjVec.resize, hp]
        exact ⟨l, hv⟩
  cases op with
  | pushBack a => exact hresize _ a
  | resize n a => exact hresize n a
  | clear => exact absurd rfl hop
  | resizeDefault n =>
    simp only [ObjVec.step, ObjVec.resizeDefault]
    split
    · exact ⟨l, hv⟩
    · rename_i hn
      have hn' : n ≤ cap := by simp [StaticVector.capacity, tidy] at hn; omega
      have hu := ObjVec.unsafeResize_run l (List.replicate (cap - l.length) none) n (by simp; omega) d vars (es ++ [.default])
      have hl : (resized l n d).length = n := by simp [resized]; omega
      have hr := hrest n hn'
      rw [restAfter] at hr
      rw [tidy, ObjVec.log, hu]
      exact ⟨resized l n d, tidy_holdsOnly hcap (by simp only [Outcome.bind_ok, Outcome.pure_eq, ObjVec.finish, ObjVec.log, hr, tidy, hl]) hl.symm (by omega)⟩

/-- C205, what holds: as long as `clear()` is not called, all vectors of a program hold nothing but the elements they show, whatever is copied,
moved, assigned, swapped, changed and destroyed. -/
theorem c205_only_partial (cap : Nat) (hcap : cap < 2 ^ 64) (d : α) (mv self : α → α) (ops : List VecWorld.Op) (w : VecWorld α)
    (hw : ∀ v ∈ w.vecs, ∃ l, HoldsOnly cap v l) (hops : ∀ op ∈ ops, ∀ i, op ≠ .call i .clear) :
    ∀ v ∈ (St.outcomes (VecWorld.step d mv self) ops w).2.vecs, ∃ l, HoldsOnly cap v l := by
  induction ops generalizing w with
  | nil => exact hw
  | cons op ops ih =>
    rw [St.outcomes]
    refine ih _ ?_ (fun o ho => hops o (List.mem_cons_of_mem _ ho))
    have hget : ∀ {i : Nat} {v : StaticVector α}, w.vecs[i]? = some v → ∃ l, HoldsOnly cap v l := fun hi => hw _ (List.mem_of_getElem? hi)
    have hmoved : ∀ (f : α → α) (v : StaticVector α), (∃ l, HoldsOnly cap v l) → ∃ l, HoldsOnly cap (v.movedFrom f) l := by
      rintro f v ⟨l, h1, h2⟩
      refine ⟨l.map f, moved_shows hcap f h1, ?_⟩
      rw [List.length_map, ← h2]
      simp [objectsAlive, StaticVector.movedFrom, List.countP_map, Function.comp_def]
    have hset : ∀ (vs : List (StaticVector α)) i u, (∀ v ∈ vs, ∃ l, HoldsOnly cap v l) → (∃ l, HoldsOnly cap u l) →
        ∀ v ∈ vs.set i u, ∃ l, HoldsOnly cap v l := by
      intro vs i u hvs hu v hv
      rcases List.mem_or_eq_of_mem_set hv with hv | rfl
      · exact hvs v hv
      · exact hu
    cases op with
    | copyMake i =>
      simp only [VecWorld.step]
      split
      · rename_i v hi
        intro u hu
        simp only [VecWorld.copyMake, VecWorld.log, List.mem_append, List.mem_singleton] at hu
        rcases hu with hu | rfl
        · exact hw u hu
        · exact hget hi
      · exact hw
    | moveMake i =>
      simp only [VecWorld.step]
      split
      · rename_i v hi
        intro u hu
        simp only [VecWorld.moveMake, VecWorld.log, List.mem_append, List.mem_singleton] at hu
        rcases hu with hu | rfl
        · exact hset _ _ _ hw (hmoved _ _ (hget hi)) u hu
        · exact hget hi
      · exact hw
    | copyAssign i j =>
      simp only [VecWorld.step]
      split
      · rename_i v u hi hj
        exact hset _ _ _ hw (hget hj)
      · exact hw
    | moveAssign i j =>
      simp only [VecWorld.step]
      split
      · rename_i v u hi hj
        simp only [VecWorld.moveAssign, VecWorld.log]
        split
        · exact hset _ _ _ hw (hmoved _ _ (hget hj))
        · exact hset _ _ _ (hset _ _ _ hw (hget hj)) (hmoved _ _ (hget hj))
      · exact hw
    | swap i j =>
      simp only [VecWorld.step]
      split
      · rename_i v u hi hj
        exact hset _ _ _ (hset _ _ _ hw (hget hj)) (hget hi)
      · exact hw
    | call i op =>
      simp only [VecWorld.step]
      split
      · rename_i v hi
        obtain ⟨l, hl⟩ := hget hi
        refine hset _ _ _ hw (only_call d mv cap hcap v l w.vars w.events op ?_ hl)
        rintro rfl
        exact hops _ List.mem_cons_self i rfl
      · exact hw
    | leave =>
      simp only [VecWorld.step, VecWorld.leave]
      split
      · exact hw
      · exact fun v hv => hw v (List.dropLast_subset _ hv)

/-! ## Programs of several vectors, against programs of lists -/

/-- Ordinary lists and variables. -/
structure Lists (α : Type) where
  lists : List (List α)
  vars : Nat → α

/-- The value an argument names; none if there is no such element. -/
def namedValue (l : List α) (vars : Nat → α) : ObjRef → Option α
  | .var i => some (vars i)
  | .elem k => l[k]?

/-- A call on an ordinary list that may have `cap` elements; none if the argument names no element. -/
def listCall (cap : Nat) (d : α) (mv : α → α) (l : List α) (vars : Nat → α) : ObjVec.Op → Option (Outcome Unit × List α × (Nat → α))
  | .pushBack a => (namedValue l vars a.ref).map fun x =>
      if l.length < cap then (.ok (), contentsAfter mv l a x ++ [x], varsAfter mv vars a x)
      else (tooLong, contentsAfter mv l a x, varsAfter mv vars a x)
  | .resize n a => (namedValue l vars a.ref).map fun x =>
      if n ≤ cap then (.ok (), resized (contentsAfter mv l a x) n x, varsAfter mv vars a x)
      else (tooLong, contentsAfter mv l a x, varsAfter mv vars a x)
  | .resizeDefault n => some (if n ≤ cap then (.ok (), resized l n d, vars) else (tooLong, l, vars))
  | .clear => some (.ok (), [], vars)

/-- One statement of a program of lists; none if it names a list or an element that there is not. -/
def listsStep (cap : Nat) (d : α) (mv self : α → α) (op : VecWorld.Op) (s : Lists α) : Option (Outcome Unit × Lists α) :=
  match op with
  | .copyMake i => s.lists[i]?.map fun l => (.ok (), ⟨s.lists ++ [l], s.vars⟩)
  | .moveMake i => s.lists[i]?.map fun l => (.ok (), ⟨s.lists.set i (l.map mv) ++ [l], s.vars⟩)
  | .copyAssign i j => s.lists[i]?.bind fun _ => s.lists[j]?.map fun m => (.ok (), ⟨s.lists.set i m, s.vars⟩)
  | .moveAssign i j => s.lists[i]?.bind fun _ => s.lists[j]?.map fun m =>
      (.ok (), ⟨if i = j then s.lists.set i (m.map self) else (s.lists.set i m).set j (m.map mv), s.vars⟩)
  | .swap i j => s.lists[i]?.bind fun l => s.lists[j]?.map fun m => (.ok (), ⟨(s.lists.set i m).set j l, s.vars⟩)
  | .call i op => s.lists[i]?.bind fun l => (listCall cap d mv l s.vars op).map fun r => (r.1, ⟨s.lists.set i r.2.1, r.2.2⟩)
  | .leave => some (.ok (), ⟨s.lists.dropLast, s.vars⟩)

/-- The outcomes of a program of lists and what it leaves. -/
def listsRun (cap : Nat) (d : α) (mv self : α → α) : List VecWorld.Op → Lists α → Option (List (Outcome Unit) × Lists α)
  | [], s => some ([], s)
  | op :: ops, s => (listsStep cap d mv self op s).bind fun r => (listsRun cap d mv self ops r.2).map fun q => (r.1 :: q.1, q.2)

private theorem namedValue_names {l : List α} {vars : Nat → α} {r : ObjRef} {x : α} (h : namedValue l vars r = some x) : NamesValue l vars r x := by
  cases r with
  | var i => exact Option.some.inj h
  | elem k => exact h

private theorem call_lists (cap : Nat) (hcap : cap < 2 ^ 64 - 1) (d : α) (mv : α → α) (v : StaticVector α) (l : List α) (hv : Shows cap v l)
    (vars : Nat → α) (es : List ObjEv) (op : ObjVec.Op) (r : Outcome Unit × List α × (Nat → α)) (hr : listCall cap d mv l vars op = some r) :
    (ObjVec.step d mv op ⟨v, vars, es⟩).1 = r.1 ∧ Shows cap (ObjVec.step d mv op ⟨v, vars, es⟩).2.vec r.2.1 ∧
      (ObjVec.step d mv op ⟨v, vars, es⟩).2.vars = r.2.2 := by
  have hle : l.length ≤ cap := by
    obtain ⟨rest, h1, h2, h3⟩ := shows_holds hv
    rw [← h3, h1]; simp
  cases op with
  | pushBack a =>
    simp only [listCall, Option.map_eq_some_iff] at hr
    obtain ⟨x, hx, rfl⟩ := hr
    have hsz : (v.size + 1) % 2 ^ 64 = l.length + 1 := by rw [hv.1]; omega
    have hk := c183_effect_partial cap (by omega) mv ⟨v, vars, es⟩ l hv (l.length + 1) a x (namedValue_names hx)
    simp only [ObjVec.step, ObjVec.pushBack, hsz]
    simp only at hk
    have hlen := contentsAfter_length mv l a x
    by_cases h : l.length < cap
    · rw [if_pos h]
      obtain ⟨k1, k2⟩ := hk.2.1 (by omega)
      have e : resized (contentsAfter mv l a x) (l.length + 1) x = contentsAfter mv l a x ++ [x] := by
        rw [resized, List.take_of_length_le (by omega), hlen, show l.length + 1 - l.length = 1 by omega]; rfl
      rw [e] at k2
      exact ⟨k1, k2, hk.1⟩
    · rw [if_neg h]
      obtain ⟨k1, k2⟩ := hk.2.2 (by omega)
      exact ⟨k1, k2, hk.1⟩
  | resize n a =>
    simp only [listCall, Option.map_eq_some_iff] at hr
    obtain ⟨x, hx, rfl⟩ := hr
    have hk := c183_effect_partial cap (by omega) mv ⟨v, vars, es⟩ l hv n a x (namedValue_names hx)
    simp only at hk
    by_cases h : n ≤ cap
    · rw [if_pos h]
      exact ⟨(hk.2.1 h).1, (hk.2.1 h).2, hk.1⟩
    · rw [if_neg h]
      exact ⟨(hk.2.2 (by omega)).1, (hk.2.2 (by omega)).2, hk.1⟩
  | resizeDefault n =>
    simp only [listCall, Option.some.injEq] at hr
    subst hr
    obtain ⟨rest, h1, h2, h3⟩ := shows_holds hv
    obtain ⟨data, cnt⟩ := v
    simp only at h1 h2 h3
    subst h1 h2
    have hc : l.length + rest.length = cap := by rw [← h3]; simp
    simp only [ObjVec.step, ObjVec.resizeDefault]
    rw [show StaticVector.capacity ⟨l.map some ++ rest, l.length⟩ = cap from h3]
    by_cases h : n ≤ cap
    · have hu := ObjVec.unsafeResize_run l rest n (by omega) d vars (es ++ [.default])
      have hl : (resized l n d).length = n := by simp [resized]; omega
      rw [if_pos h, if_neg (by omega), ObjVec.log, hu]
      refine ⟨rfl, ?_, rfl⟩
      refine StaticVector.holds_shows (by omega) ⟨restAfter l rest n, rfl, hl.symm, ?_⟩
      show ((resized l n d).map some ++ restAfter l rest n).length = cap
      simp only [List.length_append, List.length_map, hl, restAfter]
      split
      · simp; omega
      · simp; omega
    · rw [if_neg h, if_pos (by omega)]
      exact ⟨rfl, hv, rfl⟩
  | clear =>
    simp only [listCall, Option.some.injEq] at hr
    subst hr
    obtain ⟨rest, h1, h2, h3⟩ := shows_holds hv
    exact ⟨rfl, StaticVector.holds_shows (by omega) ⟨v.data, by simp [ObjVec.step, ObjVec.clear, StaticVector.clear], rfl, h3⟩, rfl⟩

private theorem forall₂_get {β γ : Type} {R : β → γ → Prop} {a : List β} {b : List γ} (h : List.Forall₂ R a b) {i : Nat} {y : γ}
    (hi : b[i]? = some y) : ∃ x, a[i]? = some x ∧ R x y := by
  induction h generalizing i with
  | nil => simp at hi
  | cons h1 _ ih =>
    cases i with
    | zero =>
      simp only [List.getElem?_cons_zero, Option.some.injEq] at hi
      subst hi
      exact ⟨_, rfl, h1⟩
    | succ i => exact ih (by simpa using hi)

private theorem forall₂_set {β γ : Type} {R : β → γ → Prop} {a : List β} {b : List γ} (h : List.Forall₂ R a b) (i : Nat) {x : β} {y : γ}
    (hxy : R x y) : List.Forall₂ R (a.set i x) (b.set i y) := by
  induction h generalizing i with
  | nil => exact .nil
  | cons h1 h2 ih =>
    cases i with
    | zero => exact .cons hxy h2
    | succ i => exact .cons h1 (ih i)

private theorem forall₂_snoc {β γ : Type} {R : β → γ → Prop} {a : List β} {b : List γ} (h : List.Forall₂ R a b) {x : β} {y : γ}
    (hxy : R x y) : List.Forall₂ R (a ++ [x]) (b ++ [y]) := by
  induction h with
  | nil => exact .cons hxy .nil
  | cons h1 _ ih => exact .cons h1 ih

private theorem forall₂_dropLast {β γ : Type} {R : β → γ → Prop} {a : List β} {b : List γ} (h : List.Forall₂ R a b) :
    List.Forall₂ R a.dropLast b.dropLast := by
  induction h with
  | nil => exact .nil
  | @cons x y a b h1 h2 ih =>
    cases h2 with
    | nil => exact .nil
    | cons h3 h4 => exact .cons h1 ih

/-- C205, values: a program on several vectors does what the same program does on ordinary lists of at most `cap` elements: its statements end in
the same ways, and the vectors show, and the variables hold, the same values; a list that is moved from keeps its length.  Vectors share
nothing. -/
theorem c205_values (cap : Nat) (hcap : cap < 2 ^ 64 - 1) (d : α) (mv self : α → α) (ops : List VecWorld.Op) (w : VecWorld α) (s : Lists α)
    (hw : List.Forall₂ (Shows cap) w.vecs s.lists) (hvars : w.vars = s.vars) (os : List (Outcome Unit)) (s' : Lists α)
    (hr : listsRun cap d mv self ops s = some (os, s')) :
    (St.outcomes (VecWorld.step d mv self) ops w).1 = os ∧
    List.Forall₂ (Shows cap) (St.outcomes (VecWorld.step d mv self) ops w).2.vecs s'.lists ∧
    (St.outcomes (VecWorld.step d mv self) ops w).2.vars = s'.vars := by
  induction ops generalizing w s os s' with
  | nil =>
    simp only [listsRun, Option.some.injEq, Prod.mk.injEq] at hr
    obtain ⟨rfl, rfl⟩ := hr
    exact ⟨rfl, hw, hvars⟩
  | cons op ops ih =>
    simp only [listsRun, Option.bind_eq_some_iff, Option.map_eq_some_iff] at hr
    obtain ⟨⟨o, t⟩, h1, ⟨os', t'⟩, h2, h3⟩ := hr
    simp only [Prod.mk.injEq] at h3
    obtain ⟨rfl, rfl⟩ := h3
    have key : (VecWorld.step d mv self op w).1 = o ∧ List.Forall₂ (Shows cap) (VecWorld.step d mv self op w).2.vecs t.lists ∧
        (VecWorld.step d mv self op w).2.vars = t.vars := by
      cases op with
      | copyMake i =>
        simp only [listsStep, Option.map_eq_some_iff, Prod.mk.injEq] at h1
        obtain ⟨l, hl, rfl, rfl⟩ := h1
        obtain ⟨v, hv, hs⟩ := forall₂_get hw hl
        simp only [VecWorld.step, hv]
        exact ⟨trivial, forall₂_snoc hw hs, hvars⟩
      | moveMake i =>
        simp only [listsStep, Option.map_eq_some_iff, Prod.mk.injEq] at h1
        obtain ⟨l, hl, rfl, rfl⟩ := h1
        obtain ⟨v, hv, hs⟩ := forall₂_get hw hl
        simp only [VecWorld.step, hv]
        exact ⟨trivial, forall₂_snoc (forall₂_set hw i (moved_shows (by omega) mv hs)) hs, hvars⟩
      | copyAssign i j =>
        simp only [listsStep, Option.bind_eq_some_iff, Option.map_eq_some_iff, Prod.mk.injEq] at h1
        obtain ⟨l, hl, m, hm, rfl, rfl⟩ := h1
        obtain ⟨v, hv, hs⟩ := forall₂_get hw hl
        obtain ⟨u, hu, hs'⟩ := forall₂_get hw hm
        simp only [VecWorld.step, hv, hu]
        exact ⟨trivial, forall₂_set hw i hs', hvars⟩
      | moveAssign i j =>
        simp only [listsStep, Option.bind_eq_some_iff, Option.map_eq_some_iff, Prod.mk.injEq] at h1
        obtain ⟨l, hl, m, hm, rfl, rfl⟩ := h1
        obtain ⟨v, hv, hs⟩ := forall₂_get hw hl
        obtain ⟨u, hu, hs'⟩ := forall₂_get hw hm
        simp only [VecWorld.step, hv, hu, VecWorld.moveAssign, VecWorld.log]
        by_cases hij : i = j
        · rw [if_pos hij, if_pos hij]
          exact ⟨trivial, forall₂_set hw i (moved_shows (by omega) self hs'), hvars⟩
        · rw [if_neg hij, if_neg hij]
          exact ⟨trivial, forall₂_set (forall₂_set hw i hs') j (moved_shows (by omega) mv hs'), hvars⟩
      | swap i j =>
        simp only [listsStep, Option.bind_eq_some_iff, Option.map_eq_some_iff, Prod.mk.injEq] at h1
        obtain ⟨l, hl, m, hm, rfl, rfl⟩ := h1
        obtain ⟨v, hv, hs⟩ := forall₂_get hw hl
        obtain ⟨u, hu, hs'⟩ := forall₂_get hw hm
        simp only [VecWorld.step, hv, hu]
        exact ⟨trivial, forall₂_set (forall₂_set hw i hs') j hs, hvars⟩
      | call i op =>
        simp only [listsStep, Option.bind_eq_some_iff, Option.map_eq_some_iff, Prod.mk.injEq] at h1
        obtain ⟨l, hl, r, hr, rfl, rfl⟩ := h1
        obtain ⟨v, hv, hs⟩ := forall₂_get hw hl
        simp only [VecWorld.step, hv]
        rw [← hvars] at hr
        obtain ⟨k1, k2, k3⟩ := call_lists cap hcap d mv v l hs w.vars w.events op r hr
        exact ⟨k1, forall₂_set hw i k2, k3⟩
      | leave =>
        simp only [listsStep, Option.some.injEq, Prod.mk.injEq] at h1
        obtain ⟨rfl, rfl⟩ := h1
        simp only [VecWorld.step, VecWorld.leave]
        cases hg : w.vecs.getLast? with
        | none =>
          have he : w.vecs = [] := List.getLast?_eq_none_iff.1 hg
          have := forall₂_dropLast hw
          rw [he] at this
          exact ⟨trivial, by simp only [he]; simpa using this, hvars⟩
        | some v => exact ⟨trivial, forall₂_dropLast hw, hvars⟩
    obtain ⟨k1, k2, k3⟩ := key
    obtain ⟨i1, i2, i3⟩ := ih _ t k2 k3 os' t' h2
    rw [St.outcomes]
    exact ⟨by rw [k1, i1], i2, i3⟩

/-! ## Examples -/

private def two : VecWorld Nat := ⟨[⟨[some 1, some 2, some 3], 3⟩, ⟨[some 4, none, none], 1⟩], fun _ => 9, []⟩

example : (VecWorld.step 0 (fun _ => 0) (fun _ => 7) (.copyAssign 1 0) two).2.events = [.copyAssign, .copy, .copy] := by decide
example : (VecWorld.step 0 (fun _ => 0) (fun _ => 7) (.moveAssign 0 1) two).2.vecs = [⟨[some 4, none, none], 1⟩, ⟨[some 0, none, none], 1⟩] := by decide
example : (VecWorld.step 0 (fun _ => 0) (fun _ => 7) (.moveAssign 0 1) two).2.events = [.moveAssign, .destroy, .destroy] := by decide
example : (VecWorld.step 0 (fun _ => 0) (fun _ => 7) (.moveAssign 1 1) two).2.vecs = [⟨[some 1, some 2, some 3], 3⟩, ⟨[some 7, none, none], 1⟩] := by decide
example : (VecWorld.step 0 (fun _ => 0) (fun _ => 7) (.swap 0 1) two).2.events = [.swap, .move, .destroy, .move, .destroy] := by decide
example : (VecWorld.step 0 (fun _ => 0) (fun _ => 7) (.moveMake 0) two).2.vecs =
    [⟨[some 0, some 0, some 0], 3⟩, ⟨[some 4, none, none], 1⟩, ⟨[some 1, some 2, some 3], 3⟩] := by decide
example : (St.outcomes (VecWorld.step 0 (fun _ => 0) id) [.call 0 .clear, .copyMake 0, .leave] two).2.events =
    [.copy, .copy, .copy, .destroy, .destroy, .destroy] := by decide
example : HoldsOnly 3 (⟨[some 4, none, none], 1⟩ : StaticVector Nat) [4] :=
  tidy_holdsOnly (by decide) rfl rfl (by decide)

example : (listsRun 3 0 (fun _ => 0) id [.call 1 (.pushBack ⟨true, .var 5⟩), .moveMake 1, .call 0 (.pushBack ⟨false, .elem 1⟩), .swap 0 2]
    ⟨[[1, 2, 3], [4]], fun _ => 9⟩).map (fun r => (r.1, r.2.lists, r.2.vars 5, r.2.vars 6)) =
    some ([.ok (), .ok (), tooLong, .ok ()], [[4, 9], [0, 0], [1, 2, 3]], 0, 9) := by decide

end Wite.Props
