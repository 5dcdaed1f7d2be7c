import Mathlib.Tactic.ByContra
import Verif.Lemmas.StaticVector
import Verif.Spec.ThrowVec

/-!
# Properties C126 and C127: static vectors of elements whose constructors throw
-/

namespace Wite.Props

open Wite Wite.Collections Wite.Spec.StaticVector

variable {α : Type}

private theorem make_run (ok : Making → Nat → Bool) (kind : Making) (s : ThrowVec α) :
    (ThrowVec.make ok kind).run s = (if ok kind s.made then .ok () else .throw (.user 0), { s with made := s.made + 1 }) := rfl

private theorem make_ok {ok : Making → Nat → Bool} {kind : Making} {s : ThrowVec α} (h : ok kind s.made = true) :
    (ThrowVec.make ok kind).run s = (.ok (), { s with made := s.made + 1 }) := by
  rw [make_run, h]; rfl

private theorem make_fail {ok : Making → Nat → Bool} {kind : Making} {s : ThrowVec α} (h : ok kind s.made = false) :
    (ThrowVec.make ok kind).run s = (.throw (.user 0), { s with made := s.made + 1 }) := by
  rw [make_run, h]; rfl

/-- The loop of `_alloc` makes `j` copies before one fails. -/
private theorem generate_run (ok : Making → Nat → Bool) (x : α) (cnt : Nat) (n : Nat) :
    ∀ (pre rest : List (Option α)) (m : Nat), n ≤ rest.length →
    ∃ j o m', (ThrowVec.generate ok x pre.length n).run ⟨⟨pre ++ rest, cnt⟩, m⟩ =
        (o, ⟨⟨pre ++ List.replicate j (some x) ++ rest.drop j, cnt⟩, m'⟩) ∧
      (∀ i < j, ok .copy (m + i) = true) ∧
      ((o = .ok () ∧ j = n) ∨ (o = .throw (.user 0) ∧ j < n ∧ ok .copy (m + j) = false)) := by
  induction n with
  | zero => intro pre rest m _; exact ⟨0, .ok (), m, by simp [ThrowVec.generate], by simp, Or.inl ⟨rfl, rfl⟩⟩
  | succ n ih =>
    intro pre rest m hn
    cases rest with
    | nil => simp at hn
    | cons r rest =>
      cases hok : ok .copy m with
      | false =>
        refine ⟨0, .throw (.user 0), m + 1, ?_, by simp, Or.inr ⟨rfl, by omega, hok⟩⟩
        rw [ThrowVec.generate, St.run_bind_throw (s' := ⟨⟨pre ++ r :: rest, cnt⟩, m + 1⟩) (e := .user 0)]
        · simp
        · rw [make_run]; simp [hok]
      | true =>
        obtain ⟨j, o, m', h1, h2, h3⟩ := ih (pre ++ [some x]) rest (m + 1) (by simpa using hn)
        refine ⟨j + 1, o, m', ?_, ?_, ?_⟩
        · rw [ThrowVec.generate, St.run_bind_ok (s' := ⟨⟨pre ++ r :: rest, cnt⟩, m + 1⟩) (a := ())]
          · rw [St.run_bind_ok (s' := ⟨⟨(pre ++ [some x]) ++ rest, cnt⟩, m + 1⟩) (a := ())]
            · rw [List.length_append, List.length_singleton] at h1
              rw [h1]
              simp [List.replicate_succ]
            · simp [St.run, ThrowVec.setSlot]
          · rw [make_run]; simp [hok]
        · intro i hi
          cases i with
          | zero => simpa using hok
          | succ i => have := h2 i (by omega); rwa [Nat.add_assoc, Nat.add_comm 1] at this
        · rcases h3 with ⟨a, b⟩ | ⟨a, b, c⟩
          · exact Or.inl ⟨a, by omega⟩
          · exact Or.inr ⟨a, by omega, by rwa [Nat.add_assoc, Nat.add_comm 1] at c⟩

/-- `_unsafe_resize` returns with the new contents, or a copy fails and the contents are the old ones. -/
private theorem unsafeResize_run (ok : Making → Nat → Bool) {cap : Nat} {s : ThrowVec α} {l : List α}
    (h : StaticVector.Holds cap s.vec l) {n : Nat} (hn : n ≤ cap) (x : α) :
    ∃ o s', (ThrowVec.unsafeResize ok n x).run s = (o, s') ∧
      ((o = .ok () ∧ StaticVector.Holds cap s'.vec (resized l n x)) ∨
       (o = .throw (.user 0) ∧ StaticVector.Holds cap s'.vec l ∧ ∃ m, ok .copy m = false)) := by
  obtain ⟨⟨data, count⟩, made⟩ := s
  obtain ⟨rest, h1, h2, h3⟩ := h
  simp only at h1 h2 h3
  subst h1 h2
  have hlen : l.length + rest.length = cap := by rw [← h3]; simp
  rw [ThrowVec.unsafeResize, St.run_bind_ok (St.run_get _)]
  by_cases hgt : n > l.length
  · obtain ⟨j, o, m', g1, g2, g3⟩ := generate_run ok x l.length (n - l.length) (l.map some) rest made (by omega)
    rw [List.length_map] at g1
    have ha : (ThrowVec.alloc ok (n - l.length) x).run ⟨⟨l.map some ++ rest, l.length⟩, made⟩ =
        (o, ⟨⟨l.map some ++ List.replicate j (some x) ++ rest.drop j, l.length⟩, m'⟩) := by
      rw [ThrowVec.alloc, St.run_bind_ok (St.run_get _)]; exact g1
    rcases g3 with ⟨rfl, rfl⟩ | ⟨rfl, hj, hf⟩
    · refine ⟨.ok (), ⟨⟨l.map some ++ List.replicate (n - l.length) (some x) ++ rest.drop (n - l.length), n⟩, m'⟩, ?_, Or.inl ⟨rfl, ?_⟩⟩
      · rw [if_pos (show n > StaticVector.size (ThrowVec.vec ⟨⟨l.map some ++ rest, l.length⟩, made⟩) from hgt)]
        rw [show StaticVector.size (ThrowVec.vec ⟨⟨l.map some ++ rest, l.length⟩, made⟩) = l.length from rfl, St.run_bind_ok ha]; rfl
      · refine ⟨rest.drop (n - l.length), ?_, ?_, ?_⟩
        · simp [resized, List.take_of_length_le (by omega : l.length ≤ n)]
        · simp [resized, List.take_of_length_le (by omega : l.length ≤ n)]; omega
        · simp; omega
    · refine ⟨.throw (.user 0), ⟨⟨l.map some ++ List.replicate j (some x) ++ rest.drop j, l.length⟩, m'⟩, ?_,
        Or.inr ⟨rfl, ?_, _, hf⟩⟩
      · rw [if_pos (show n > StaticVector.size (ThrowVec.vec ⟨⟨l.map some ++ rest, l.length⟩, made⟩) from hgt)]
        rw [show StaticVector.size (ThrowVec.vec ⟨⟨l.map some ++ rest, l.length⟩, made⟩) = l.length from rfl, St.run_bind_throw ha]
      · exact ⟨List.replicate j (some x) ++ rest.drop j, by simp, rfl, by simp; omega⟩
  · have hh : StaticVector.Holds cap (⟨l.map some ++ rest, l.length⟩ : StaticVector α) l := ⟨rest, rfl, rfl, h3⟩
    obtain ⟨v', e1, e2⟩ := StaticVector.unsafeResize_eq hh hn x
    refine ⟨.ok (), ⟨v', made⟩, ?_, Or.inl ⟨rfl, e2⟩⟩
    unfold StaticVector.unsafeResize at e1
    rw [if_neg (show ¬ n > StaticVector.size ⟨l.map some ++ rest, l.length⟩ from hgt)] at e1
    rw [if_neg (show ¬ n > StaticVector.size (ThrowVec.vec ⟨⟨l.map some ++ rest, l.length⟩, made⟩) from hgt)]
    by_cases hlt : n < l.length
    · rw [if_pos (show n < StaticVector.size ⟨l.map some ++ rest, l.length⟩ from hlt)] at e1
      rw [if_pos (show n < StaticVector.size (ThrowVec.vec ⟨⟨l.map some ++ rest, l.length⟩, made⟩) from hlt)]
      have hd : ∃ w, StaticVector.destroyLastN (l.length - n) (⟨l.map some ++ rest, l.length⟩ : StaticVector α) = .ok w := by
        cases hw : StaticVector.destroyLastN (l.length - n) (⟨l.map some ++ rest, l.length⟩ : StaticVector α) with
        | ok w => exact ⟨w, rfl⟩
        | _ =>
          rw [show StaticVector.size (⟨l.map some ++ rest, l.length⟩ : StaticVector α) = l.length from rfl, hw] at e1
          cases e1
      obtain ⟨w, hw⟩ := hd
      rw [show StaticVector.size (⟨l.map some ++ rest, l.length⟩ : StaticVector α) = l.length from rfl, hw] at e1
      rw [show StaticVector.size (ThrowVec.vec ⟨⟨l.map some ++ rest, l.length⟩, made⟩) = l.length from rfl, St.run_bind_ok (s' := ⟨w, made⟩) (a := ())]
      · cases e1; rfl
      · simp [St.run, ThrowVec.destroyLastN, hw]
    · rw [if_neg (show ¬ n < StaticVector.size ⟨l.map some ++ rest, l.length⟩ from hlt)] at e1
      rw [if_neg (show ¬ n < StaticVector.size (ThrowVec.vec ⟨⟨l.map some ++ rest, l.length⟩, made⟩) from hlt)]
      cases e1
      rfl

/-- Every call on a vector holding `l`. -/
private theorem step_run (ok : Making → Nat → Bool) {cap : Nat} (hcap : cap < 2 ^ 64 - 1) (d : α) {s : ThrowVec α} {l : List α}
    (h : StaticVector.Holds cap s.vec l) (op : ThrowVec.Op α) :
    ∃ o s', (ThrowVec.step ok d op).run s = (o, s') ∧
      ((o = .ok () ∧ StaticVector.Holds cap s'.vec (Spec.ThrowVec.apply d l op)) ∨
       (o = tooLong ∧ StaticVector.Holds cap s'.vec l ∧ cap < (Spec.ThrowVec.apply d l op).length) ∨
       (o = .throw (.user 0) ∧ StaticVector.Holds cap s'.vec l ∧ ∃ k m, ok k m = false)) := by
  have hlen : l.length ≤ cap := by
    obtain ⟨rest, h1, h2, h3⟩ := h
    rw [← h3, h1]; simp
  have hrl : ∀ n x, (resized l n x).length = n := by intro n x; simp [resized]; omega
  have hbody : ∀ (t : ThrowVec α) n x, StaticVector.Holds cap t.vec l →
      ∃ o s', (do
        let s ← (St.get : St (ThrowVec α) (ThrowVec α))
        if n > s.vec.capacity then
          (St.throw (.lengthError "static_vector: new size exceeds max size") : St (ThrowVec α) Unit)
        else
          ThrowVec.unsafeResize ok n x).run t = (o, s') ∧
      ((o = .ok () ∧ StaticVector.Holds cap s'.vec (resized l n x)) ∨
       (o = tooLong ∧ StaticVector.Holds cap s'.vec l ∧ cap < n) ∨
       (o = .throw (.user 0) ∧ StaticVector.Holds cap s'.vec l ∧ ∃ k m, ok k m = false)) := by
    intro t n x ht
    have hc : t.vec.capacity = cap := ht.choose_spec.2.2
    rw [St.run_bind_ok (St.run_get _), St.run_ite]
    by_cases hn : n > cap
    · rw [if_pos (by omega)]
      exact ⟨_, _, rfl, Or.inr (Or.inl ⟨rfl, ht, hn⟩)⟩
    · rw [if_neg (by omega)]
      obtain ⟨o, s', h1, h2⟩ := unsafeResize_run ok ht (by omega : n ≤ cap) x
      refine ⟨o, s', h1, ?_⟩
      rcases h2 with h2 | ⟨a, b, m, c⟩
      · exact Or.inl h2
      · exact Or.inr (Or.inr ⟨a, b, _, m, c⟩)
  have hresize : ∀ copied n x, ∃ o s', (ThrowVec.resize ok copied n x).run s = (o, s') ∧
      ((o = .ok () ∧ StaticVector.Holds cap s'.vec (resized l n x)) ∨
       (o = tooLong ∧ StaticVector.Holds cap s'.vec l ∧ cap < n) ∨
       (o = .throw (.user 0) ∧ StaticVector.Holds cap s'.vec l ∧ ∃ k m, ok k m = false)) := by
    intro copied n x
    rw [ThrowVec.resize]
    cases copied with
    | false =>
      obtain ⟨o, s', g⟩ := hbody s n x h
      exact ⟨o, s', g⟩
    | true =>
      cases hok : ok .copy s.made with
      | true =>
        obtain ⟨o, s', g⟩ := hbody { s with made := s.made + 1 } n x h
        refine ⟨o, s', ?_⟩
        simp only [if_true]
        rw [St.run_bind_ok (make_ok hok)]
        exact g
      | false =>
        refine ⟨.throw (.user 0), { s with made := s.made + 1 }, ?_, Or.inr (Or.inr ⟨rfl, h, _, _, hok⟩)⟩
        simp only [if_true]
        rw [St.run_bind_throw (make_fail hok)]
  cases op with
  | pushBack copied x =>
    have hs : s.vec.size = l.length := h.choose_spec.2.1
    have e : (s.vec.size + 1) % 2 ^ 64 = l.length + 1 := by rw [hs]; omega
    have he : resized l (l.length + 1) x = l ++ [x] := by
      simp [resized, List.take_of_length_le (by omega : l.length ≤ l.length + 1)]
    obtain ⟨o, s', g1, g2⟩ := hresize copied (l.length + 1) x
    refine ⟨o, s', ?_, ?_⟩
    · rw [ThrowVec.step, ThrowVec.pushBack, St.run_bind_ok (St.run_get _), e, g1]
    · rw [he] at g2
      simpa [Spec.ThrowVec.apply] using g2
  | resize copied n x =>
    obtain ⟨o, s', g1, g2⟩ := hresize copied n x
    refine ⟨o, s', g1, ?_⟩
    simpa only [Spec.ThrowVec.apply, hrl] using g2
  | resizeDefault n =>
    have hc : s.vec.capacity = cap := h.choose_spec.2.2
    rw [ThrowVec.step, ThrowVec.resizeDefault, St.run_bind_ok (St.run_get _), St.run_ite]
    simp only [Spec.ThrowVec.apply, hrl]
    by_cases hn : n > cap
    · rw [if_pos (by omega)]
      exact ⟨_, _, rfl, Or.inr (Or.inl ⟨rfl, h, hn⟩)⟩
    · rw [if_neg (by omega)]
      cases hok : ok .default s.made with
      | false =>
        exact ⟨.throw (.user 0), { s with made := s.made + 1 }, by rw [St.run_bind_throw (make_fail hok)],
          Or.inr (Or.inr ⟨rfl, h, _, _, hok⟩)⟩
      | true =>
        rw [St.run_bind_ok (make_ok hok)]
        obtain ⟨o, s', h1, h2⟩ := unsafeResize_run ok (s := { s with made := s.made + 1 }) h (by omega : n ≤ cap) d
        refine ⟨o, s', h1, ?_⟩
        rcases h2 with h2 | ⟨a, b, m, c⟩
        · exact Or.inl h2
        · exact Or.inr (Or.inr ⟨a, b, _, m, c⟩)
  | clear =>
    obtain ⟨rest, h1, h2, h3⟩ := h
    exact ⟨.ok (), _, rfl, Or.inl ⟨rfl, s.vec.data, by simp [Spec.ThrowVec.apply, StaticVector.clear], rfl, h3⟩⟩

/-! ## C126 -/

/-- C126: whatever constructions fail, in every program each call returns or throws, and the vector always shows the list that the
calls that returned make: a `resize` or `push_back` that throws, at whichever element, changes nothing that can be observed. -/
theorem c126_unchanged (ok : Making → Nat → Bool) (cap : Nat) (hcap : cap < 2 ^ 64 - 1) (d : α) (ops : List (ThrowVec.Op α)) :
    let r := St.outcomes (ThrowVec.step ok d) ops ⟨StaticVector.empty cap, 0⟩
    (∀ o ∈ r.1, o = .ok () ∨ ∃ e, o = .throw e) ∧
    Shows cap r.2.vec (Spec.ThrowVec.returned d ops r.1 []) := by
  have hgo : ∀ (ops : List (ThrowVec.Op α)) (s : ThrowVec α) (l : List α), StaticVector.Holds cap s.vec l →
      (∀ o ∈ (St.outcomes (ThrowVec.step ok d) ops s).1, o = .ok () ∨ ∃ e, o = .throw e) ∧
      StaticVector.Holds cap (St.outcomes (ThrowVec.step ok d) ops s).2.vec
        (Spec.ThrowVec.returned d ops (St.outcomes (ThrowVec.step ok d) ops s).1 l) := by
    intro ops
    induction ops with
    | nil => intro s l h; exact ⟨by simp [St.outcomes], h⟩
    | cons op ops ih =>
      intro s l h
      obtain ⟨o, s', h1, h2⟩ := step_run ok hcap d h op
      have h1' : ThrowVec.step ok d op s = (o, s') := h1
      simp only [St.outcomes, h1']
      rcases h2 with ⟨rfl, h2⟩ | ⟨rfl, h2, -⟩ | ⟨rfl, h2, -⟩
      · have := ih s' _ h2
        exact ⟨by simpa using this.1, this.2⟩
      · have := ih s' _ h2
        exact ⟨by simpa [tooLong] using this.1, this.2⟩
      · have := ih s' _ h2
        exact ⟨by simpa using this.1, this.2⟩
  have := hgo ops ⟨StaticVector.empty cap, 0⟩ [] (StaticVector.holds_empty cap)
  exact ⟨this.1, StaticVector.holds_shows (by omega) this.2⟩

/-- C126: without failing constructions, a call returns exactly if the result fits in the capacity. -/
theorem c126_returns (cap : Nat) (hcap : cap < 2 ^ 64 - 1) (d : α) (s : ThrowVec α) (l : List α)
    (h : StaticVector.Holds cap s.vec l) (op : ThrowVec.Op α) :
    (ThrowVec.step (fun _ _ => true) d op s).1 =
      if (Spec.ThrowVec.apply d l op).length ≤ cap then .ok () else
        .throw (.lengthError "static_vector: new size exceeds max size") := by
  obtain ⟨o, s', h1, h2⟩ := step_run (fun _ _ => true) hcap d h op
  have h1' : ThrowVec.step (fun _ _ => true) d op s = (o, s') := h1
  rw [h1']
  rcases h2 with ⟨rfl, rest, g1, g2, g3⟩ | ⟨rfl, -, h2⟩ | ⟨-, -, k, m, h2⟩
  · have hle : (Spec.ThrowVec.apply d l op).length ≤ cap := by rw [← g3, g1]; simp
    rw [if_pos hle]
  · rw [if_neg (by omega)]; rfl
  · cases h2

/-- C126 is false as to elements that cannot be reached: the copies made before one fails stay alive behind `size()`, for every
vector, size and failing copy. -/
theorem c126_refuted_live (cap : Nat) (v : StaticVector α) (l : List α) (h : StaticVector.Holds cap v l) (n : Nat) (x : α)
    (hn : n ≤ cap) (j : Nat) (hj : l.length + j < n) (ok : Making → Nat → Bool) (hok : ∀ i < j, ok .copy i = true)
    (hfail : ok .copy j = false) :
    let r := ThrowVec.resize ok false n x ⟨v, 0⟩
    r.1 = .throw (.user 0) ∧ r.2.vec.size = l.length ∧
    ∀ i < j, r.2.vec.data[l.length + i]? = some (some x) := by
  obtain ⟨data, count⟩ := v
  have hc := h
  obtain ⟨rest, h1, h2, h3⟩ := h
  simp only at h1 h2 h3
  subst h1 h2
  have hlen : l.length + rest.length = cap := by rw [← h3]; simp
  obtain ⟨j', o, m', g1, g2, g3⟩ := generate_run ok x l.length (n - l.length) (l.map some) rest 0 (by omega)
  rw [List.length_map] at g1
  have hj' : j' = j ∧ o = .throw (.user 0) := by
    rcases g3 with ⟨rfl, rfl⟩ | ⟨rfl, a, b⟩
    · have := g2 j (by omega); rw [Nat.zero_add, hfail] at this; cases this
    · refine ⟨?_, rfl⟩
      rcases Nat.lt_trichotomy j' j with hlt | rfl | hgt
      · have := hok j' hlt; rw [Nat.zero_add, this] at b; cases b
      · rfl
      · have := g2 j hgt; rw [Nat.zero_add, hfail] at this; cases this
  obtain ⟨rfl, rfl⟩ := hj'
  have hrun : (ThrowVec.resize ok false n x).run ⟨⟨l.map some ++ rest, l.length⟩, 0⟩ =
      (.throw (.user 0), ⟨⟨l.map some ++ List.replicate j' (some x) ++ rest.drop j', l.length⟩, m'⟩) := by
    rw [ThrowVec.resize]
    show (St.get >>= _ : St (ThrowVec α) Unit).run _ = _
    rw [St.run_bind_ok (St.run_get _), St.run_ite]
    simp only [StaticVector.capacity, h3]
    rw [if_neg (by omega), ThrowVec.unsafeResize, St.run_bind_ok (St.run_get _)]
    rw [if_pos (show n > StaticVector.size (ThrowVec.vec ⟨⟨l.map some ++ rest, l.length⟩, 0⟩) by
      show n > l.length; omega), St.run_bind_throw]
    rw [ThrowVec.alloc, St.run_bind_ok (St.run_get _)]; exact g1
  have hrun' : ThrowVec.resize ok false n x ⟨⟨l.map some ++ rest, l.length⟩, 0⟩ =
      (.throw (.user 0), ⟨⟨l.map some ++ List.replicate j' (some x) ++ rest.drop j', l.length⟩, m'⟩) := hrun
  intro r
  have hr : r = (.throw (.user 0), ⟨⟨l.map some ++ List.replicate j' (some x) ++ rest.drop j', l.length⟩, m'⟩) := hrun'
  rw [hr]
  refine ⟨rfl, rfl, fun i hi => ?_⟩
  simp only
  rw [List.append_assoc, List.getElem?_append_right (by simp), List.getElem?_append_left (by simp; omega)]
  simp [List.getElem?_replicate, hi]

/-- C126 is false as to shrinking: `resize(n)` constructs a fill value even if it only removes elements, so it throws if that
fails, for every vector and size. -/
theorem c126_refuted_shrink (s : ThrowVec α) (n : Nat) (hn : n ≤ s.vec.capacity) (d : α) (ok : Making → Nat → Bool)
    (hfail : ok .default s.made = false) :
    (ThrowVec.resizeDefault ok d n s).1 = .throw (.user 0) := by
  have : (ThrowVec.resizeDefault ok d n).run s = (.throw (.user 0), { s with made := s.made + 1 }) := by
    rw [ThrowVec.resizeDefault, St.run_bind_ok (St.run_get _), St.run_ite, if_neg (by omega)]
    rw [St.run_bind_throw (make_fail hfail)]
  exact congrArg Prod.fst this

example : ThrowVec.resize (fun _ n => n != 2) true 4 7 ⟨⟨[some 1, none, none, none], 1⟩, 0⟩ =
    (.throw (.user 0), ⟨⟨[some 1, some 7, none, none], 1⟩, 3⟩) := by decide
example : ThrowVec.resizeDefault (fun k _ => k != .default) 0 1 ⟨⟨[some 1, some 2], 2⟩, 0⟩ =
    (.throw (.user 0), ⟨⟨[some 1, some 2], 2⟩, 1⟩) := by decide

/-! ## C127 -/

/-- The defaulted assignment of the array: `j` slots are assigned before a copy fails. -/
private theorem assignSlots_run (ok : Making → Nat → Bool) (cnt : Nat) (src : List (Option α)) :
    ∀ (pre dst : List (Option α)) (m : Nat), dst.length = src.length →
    ∃ j o m', (ThrowVec.assignSlots ok pre.length src).run ⟨⟨pre ++ dst, cnt⟩, m⟩ =
        (o, ⟨⟨pre ++ (src.take j ++ dst.drop j), cnt⟩, m'⟩) ∧
      ((o = .ok () ∧ j = src.length) ∨
       (o = .throw (.user 0) ∧ (∃ x, src[j]? = some (some x)) ∧ ∃ k, ok .copy k = false)) := by
  induction src with
  | nil =>
    intro pre dst m hd
    exact ⟨0, .ok (), m, by simp [ThrowVec.assignSlots], Or.inl ⟨rfl, rfl⟩⟩
  | cons y src ih =>
    intro pre dst m hd
    cases dst with
    | nil => simp at hd
    | cons z dst =>
      have hset : ∀ m, (ThrowVec.setSlot pre.length y).run (⟨⟨pre ++ z :: dst, cnt⟩, m⟩ : ThrowVec α) =
          (.ok (), ⟨⟨(pre ++ [y]) ++ dst, cnt⟩, m⟩) := by
        intro m; simp [St.run, ThrowVec.setSlot]
      have hrest : ∀ m, ∃ j o m',
          (ThrowVec.assignSlots ok (pre.length + 1) src).run ⟨⟨(pre ++ [y]) ++ dst, cnt⟩, m⟩ =
            (o, ⟨⟨pre ++ ((y :: src).take j ++ (z :: dst).drop j), cnt⟩, m'⟩) ∧
          ((o = .ok () ∧ j = (y :: src).length) ∨
           (o = .throw (.user 0) ∧ (∃ x, (y :: src)[j]? = some (some x)) ∧ ∃ k, ok .copy k = false)) := by
        intro m
        obtain ⟨j, o, m', h1, h2⟩ := ih (pre ++ [y]) dst m (by simpa using hd)
        rw [List.length_append, List.length_singleton] at h1
        refine ⟨j + 1, o, m', by rw [h1]; simp, ?_⟩
        rcases h2 with ⟨a, b⟩ | ⟨a, b, c⟩
        · exact Or.inl ⟨a, by simp [b]⟩
        · exact Or.inr ⟨a, by simpa using b, c⟩
      cases y with
      | none =>
        obtain ⟨j, o, m', h1, h2⟩ := hrest m
        refine ⟨j, o, m', ?_, h2⟩
        rw [ThrowVec.assignSlots, St.run_bind_ok (hset m), h1]
      | some x =>
        cases hok : ok .copy m with
        | true =>
          obtain ⟨j, o, m', h1, h2⟩ := hrest (m + 1)
          refine ⟨j, o, m', ?_, h2⟩
          rw [ThrowVec.assignSlots, St.run_bind_ok (make_ok hok), St.run_bind_ok (hset (m + 1)), h1]
        | false =>
          refine ⟨0, .throw (.user 0), m + 1, ?_, Or.inr ⟨rfl, ⟨x, rfl⟩, m, hok⟩⟩
          rw [ThrowVec.assignSlots, St.run_bind_throw (make_fail hok)]
          simp

private theorem copyAssign_run (ok : Making → Nat → Bool) (src : StaticVector α) (s : ThrowVec α)
    (hlen : s.vec.data.length = src.data.length) :
    ∃ j o m', ((o = .ok () ∧ (ThrowVec.copyAssign ok src).run s = (.ok (), ⟨src, m'⟩)) ∨
       (o = .throw (.user 0) ∧
        (ThrowVec.copyAssign ok src).run s = (o, ⟨⟨src.data.take j ++ s.vec.data.drop j, s.vec.count⟩, m'⟩) ∧
        (∃ x, src.data[j]? = some (some x)) ∧ ∃ k, ok .copy k = false)) := by
  obtain ⟨⟨dst, cnt⟩, m⟩ := s
  obtain ⟨j, o, m', h1, h2⟩ := assignSlots_run ok cnt src.data [] dst m hlen
  simp only [List.length_nil, List.nil_append] at h1
  refine ⟨j, o, m', ?_⟩
  rcases h2 with ⟨rfl, rfl⟩ | ⟨rfl, h3, h4⟩
  · left
    refine ⟨rfl, ?_⟩
    rw [ThrowVec.copyAssign, St.run_bind_ok h1]
    have hd : dst.drop src.data.length = [] := List.drop_eq_nil_of_le (by simp only at hlen; omega)
    simp [St.run, ThrowVec.setCount, hd]
  · right
    refine ⟨rfl, ?_, h3, h4⟩
    rw [ThrowVec.copyAssign, St.run_bind_throw h1]

/-- C127: a copy assignment that returns leaves the target showing what the source shows; it returns if no copy fails. -/
theorem c127_assigned (ok : Making → Nat → Bool) (cap : Nat) (src : StaticVector α) (s : ThrowVec α) (ls : List α)
    (hs : Shows cap src ls) (hd : s.vec.capacity = cap) :
    let r := ThrowVec.copyAssign ok src s
    (r.1 = .ok () → Shows cap r.2.vec ls) ∧ ((∀ n, ok .copy n = true) → r.1 = .ok ()) := by
  intro r
  obtain ⟨j, o, m', h⟩ := copyAssign_run ok src s (hd.trans hs.2.1.symm)
  rcases h with ⟨-, h⟩ | ⟨rfl, h, -, k, hk⟩
  · have hr : r = (.ok (), ⟨src, m'⟩) := h
    rw [hr]
    exact ⟨fun _ => hs, fun _ => rfl⟩
  · have hr : r = (.throw (.user 0), ⟨⟨src.data.take j ++ s.vec.data.drop j, s.vec.count⟩, m'⟩) := h
    rw [hr]
    exact ⟨fun h => (by cases h), fun h => by rw [h k] at hk; cases hk⟩

/-- C127 is false: copy assignment also copies elements that `clear()` has removed from the source, and if such a copy fails the
target can have lost elements below its `size()`: reading them is undefined, also with `at`. -/
theorem c127_refuted : ∃ (ok : Making → Nat → Bool) (σ : Nat → StaticVector Nat),
    St.history (StaticVector.step 3 0 id)
      [.ofList 0 [1, 2, 3], .ofList 1 [4, 5, 6], .clear 1, .pushBack 1 7, .resize 1 2 8, .resize 1 1 0]
      (fun _ => StaticVector.empty 3) = some σ ∧
    (σ 1).iterate = .ok [7] ∧
    (let r := ThrowVec.copyAssign ok (σ 1) ⟨σ 0, 0⟩
     r.1 = .throw (.user 0) ∧ r.2.vec.size = 3 ∧ r.2.vec.at' 1 = .ub ∧ r.2.vec.iterate = .ub) := by
  refine ⟨fun _ n => n == 0, _, rfl, by decide, by decide⟩

/-- No element is alive behind `size()`. -/
private def Tidy (v : StaticVector α) : Prop := ∀ i, v.count ≤ i → i < v.data.length → v.data[i]? = some none

private theorem generate_outside (x : α) (n : Nat) : ∀ (data : List (Option α)) (pos : Nat) (d' : List (Option α)),
    StaticVector.generate data pos x n = .ok d' → d'.length = data.length ∧ ∀ i, pos + n ≤ i → d'[i]? = data[i]? := by
  induction n with
  | zero => intro data pos d' h; cases h; exact ⟨rfl, fun _ _ => rfl⟩
  | succ n ih =>
    intro data pos d' h
    rw [StaticVector.generate] at h
    split at h
    · obtain ⟨h1, h2⟩ := ih _ _ _ h
      refine ⟨by rw [h1, List.length_set], fun i hi => ?_⟩
      rw [h2 i (by omega), List.getElem?_set_ne (by omega)]
    · cases h

private theorem resetBefore_outside (n : Nat) : ∀ (data : List (Option α)) (pos : Nat) (d' : List (Option α)),
    StaticVector.resetBefore data pos n = .ok d' → d'.length = data.length ∧ (∀ i, pos ≤ i → d'[i]? = data[i]?) ∧
      ∀ i, pos ≤ i + n → i < pos → d'[i]? = some none := by
  induction n with
  | zero => intro data pos d' h; cases h; exact ⟨rfl, fun _ _ => rfl, fun i h1 h2 => absurd h1 (by omega)⟩
  | succ n ih =>
    intro data pos d' h
    rw [StaticVector.resetBefore] at h
    split at h
    · rename_i hp
      obtain ⟨h1, h2, h3⟩ := ih _ _ _ h
      refine ⟨by rw [h1, List.length_set], fun i hi => ?_, fun i hi1 hi2 => ?_⟩
      · rw [h2 i (by omega), List.getElem?_set_ne (by omega)]
      · by_cases he : i = pos - 1
        · rw [h2 i (by omega), he, List.getElem?_set_self (by omega)]
        · exact h3 i (by omega) (by omega)
    · cases h

private theorem tidy_resize {v : StaticVector α} (h : Tidy v) (n : Nat) (x : α) : Tidy (StaticVector.resize n x v).2 := by
  unfold StaticVector.resize
  split
  · exact h
  · cases hu : StaticVector.unsafeResize n x v with
    | ok v' =>
      simp only
      unfold StaticVector.unsafeResize at hu
      have hsz : v.size = v.count := rfl
      by_cases hgt : n > v.size
      · rw [if_pos hgt, StaticVector.alloc] at hu
        cases hg : StaticVector.generate v.data v.count x (n - v.size) with
        | ok d' =>
          rw [hg] at hu
          cases hu
          obtain ⟨g1, g2⟩ := generate_outside x _ _ _ _ hg
          intro i hi hl
          simp only at hi hl ⊢
          rw [g2 i (by omega)]
          exact h i (by omega) (by omega)
        | _ => rw [hg] at hu; cases hu
      · rw [if_neg hgt] at hu
        by_cases hlt : n < v.size
        · rw [if_pos hlt, StaticVector.destroyLastN] at hu
          cases hg : StaticVector.resetBefore v.data v.count (v.size - n) with
          | ok d' =>
            rw [hg] at hu
            cases hu
            obtain ⟨g1, g2, g3⟩ := resetBefore_outside _ _ _ _ hg
            intro i hi hl
            simp only at hi hl ⊢
            by_cases hc : v.count ≤ i
            · rw [g2 i hc]; exact h i hc (by omega)
            · exact g3 i (by omega) (by omega)
          | _ => rw [hg] at hu; cases hu
        · rw [if_neg hlt] at hu
          cases hu
          intro i hi hl
          exact h i (by simp only at hi; omega) hl
    | _ => exact h

private theorem tidy_step {cap : Nat} (d : α) (mv : α → α) (op : StaticVector.Op α) (hop : ∀ k, op ≠ .clear k)
    (σ : Nat → StaticVector α) (h : ∀ k, Tidy (σ k)) (k : Nat) : Tidy ((StaticVector.step cap d mv op σ).2 k) := by
  have hput : ∀ (i : Nat) (v : StaticVector α), Tidy v → Tidy (StaticVector.assign σ i v k) := by
    intro i v hv
    simp only [StaticVector.assign]
    split
    · exact hv
    · exact h k
  cases op with
  | make i =>
    refine hput i _ fun j _ hj => ?_
    simp only [StaticVector.empty, List.length_replicate] at hj ⊢
    rw [List.getElem?_replicate, if_pos hj]
  | ofList i init =>
    simp only [StaticVector.step, StaticVector.ofList]
    by_cases hi : init.length > cap
    · rw [if_pos hi]; exact h k
    · rw [if_neg hi]
      refine hput i _ fun j hj1 hj2 => ?_
      simp only [List.length_append, List.length_map, List.length_replicate] at hj1 hj2 ⊢
      rw [List.getElem?_append_right (by simpa using hj1), List.getElem?_replicate, if_pos (by simp; omega)]
  | pushBack i x => exact hput i _ (tidy_resize (h i) _ x)
  | resize i n x => exact hput i _ (tidy_resize (h i) n x)
  | resizeDefault i n => exact hput i _ (tidy_resize (h i) n d)
  | clear i => exact absurd rfl (hop i)
  | setAt i pos x =>
    refine hput i _ ?_
    rw [StaticVector.setAt]
    cases ha : (σ i).at' pos with
    | ok y =>
      have hp : pos < (σ i).count := by
        rw [StaticVector.at'] at ha
        split at ha
        · cases ha
        · omega
      intro j hj1 hj2
      simp only [List.length_set] at hj1 hj2 ⊢
      rw [List.getElem?_set_ne (by omega)]
      exact h i j hj1 hj2
    | _ => exact h i
  | swap i j =>
    simp only [StaticVector.step, StaticVector.assign, StaticVector.swap]
    split
    · exact h i
    · split
      · exact h j
      · exact h k
  | copy i j => exact hput i _ (h j)
  | move i j =>
    simp only [StaticVector.step, StaticVector.assign]
    split
    · intro a ha1 ha2
      simp only [StaticVector.movedFrom, List.length_map] at ha1 ha2 ⊢
      rw [List.getElem?_map, h j a ha1 ha2]; rfl
    · split
      · exact h j
      · exact h k

private theorem tidy_outcomes {cap : Nat} (d : α) (mv : α → α) (ops : List (StaticVector.Op α))
    (hops : ∀ op ∈ ops, ∀ k, op ≠ .clear k) : ∀ (σ : Nat → StaticVector α), (∀ k, Tidy (σ k)) → ∀ k,
    Tidy ((St.outcomes (StaticVector.step cap d mv) ops σ).2 k) := by
  induction ops with
  | nil => intro σ h k; exact h k
  | cons op ops ih =>
    intro σ h k
    exact ih (fun o ho => hops o (by simp [ho])) _ (tidy_step d mv op (hops op (by simp)) σ h) k

/-- C127, what holds: after every program in which `clear()` is not called (and no construction fails), a copy assignment that throws
leaves the target with its size and all elements readable: the first `j` from the source, the others its own. -/
theorem c127_partial (ok : Making → Nat → Bool) (cap : Nat) (hcap : cap < 2 ^ 64 - 1) (d : α) (mv : α → α)
    (ops : List (StaticVector.Op α)) (hops : ∀ op ∈ ops, ∀ k, op ≠ .clear k) (i k m : Nat) :
    let σ := (St.outcomes (StaticVector.step cap d mv) ops fun _ => StaticVector.empty cap).2
    let ls := (history cap d mv ops fun _ => []).2
    let r := ThrowVec.copyAssign ok (σ k) ⟨σ i, m⟩
    (r.1 = .ok () ∧ Shows cap r.2.vec (ls k)) ∨
    (r.1 = .throw (.user 0) ∧ ∃ j < (ls k).length,
      Shows cap r.2.vec (((ls k).take j ++ (ls i).drop j).take (ls i).length)) := by
  intro σ ls r
  have hall := (StaticVector.outcomes_refines hcap d mv ops _ _ fun _ => StaticVector.holds_empty cap).2
  have hempty : ∀ k : Nat, Tidy ((fun _ => StaticVector.empty cap : Nat → StaticVector α) k) := by
    intro k j _ hj
    simp only [StaticVector.empty, List.length_replicate] at hj ⊢
    rw [List.getElem?_replicate, if_pos hj]
  have ht : Tidy (σ k) := tidy_outcomes d mv ops hops _ hempty k
  have hk : StaticVector.Holds cap (σ k) (ls k) := hall k
  have hi : StaticVector.Holds cap (σ i) (ls i) := hall i
  obtain ⟨rk, a1, a2, a3⟩ := hk
  obtain ⟨ri, b1, b2, b3⟩ := hi
  obtain ⟨j, o, m', h⟩ := copyAssign_run ok (σ k) ⟨σ i, m⟩ (by simp only; omega)
  rcases h with ⟨-, h⟩ | ⟨rfl, h, ⟨x, hx⟩, -⟩
  · left
    have hr : r = (.ok (), ⟨σ k, m'⟩) := h
    rw [hr]
    exact ⟨rfl, StaticVector.holds_shows (by omega) (hall k)⟩
  · right
    have hr : r = (.throw (.user 0), ⟨⟨(σ k).data.take j ++ (σ i).data.drop j, (σ i).count⟩, m'⟩) := h
    have hjl : j < (σ k).data.length := by
      by_contra hc
      rw [List.getElem?_eq_none (by omega)] at hx; cases hx
    have hj : j < (ls k).length := by
      by_contra hc
      have := ht j (by omega) hjl
      rw [this] at hx; cases hx
    rw [hr]
    refine ⟨rfl, j, hj, StaticVector.holds_shows (by omega) ?_⟩
    have hli : (ls i).length + ri.length = cap := by rw [← b3, b1]; simp
    have htk : (σ k).data.take j = ((ls k).take j).map some := by
      rw [a1, List.take_append_of_le_length (by simp; omega), List.map_take]
    have hdata : (σ k).data.take j ++ (σ i).data.drop j =
        ((ls k).take j ++ (ls i).drop j).map some ++ ri.drop (j - (ls i).length) := by
      rw [htk, b1, List.drop_append, List.map_append, List.map_drop, List.length_map, List.append_assoc]
    refine ⟨(((ls k).take j ++ (ls i).drop j).drop (ls i).length).map some ++ ri.drop (j - (ls i).length), ?_, ?_, ?_⟩
    · show (σ k).data.take j ++ (σ i).data.drop j = _
      rw [hdata, ← List.append_assoc, ← List.map_append, List.take_append_drop]
    · show (σ i).count = _
      rw [b2]; simp; omega
    · show ((σ k).data.take j ++ (σ i).data.drop j).length = cap
      simp; omega

example : ThrowVec.copyAssign (fun _ n => n != 1) ⟨[some 4, some 5, none], 2⟩ ⟨⟨[some 1, some 2, some 3], 3⟩, 0⟩ =
    (.throw (.user 0), ⟨⟨[some 4, some 2, some 3], 3⟩, 2⟩) := by decide

end Wite.Props
