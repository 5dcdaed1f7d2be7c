import Verif.Model.StaticVectorObjs
import Verif.Lemmas.StaticVector

/-!
# Lemmas about `static_vector` with objects as arguments
-/

namespace Wite.Collections.ObjVec

open Wite.Spec.StaticVector

variable {α : Type}

/-- What filling a slot does to objects. -/
def slotFilled (o : Option α) : List ObjEv := [.copy, if o.isSome then .moveAssign else .move, .destroy]

/-- What emptying a slot does to objects. -/
def slotEmptied (o : Option α) : List ObjEv := if o.isSome then [.destroy] else []

theorem fill_eq (x : α) : ∀ (n : Nat) (pre mid rest : List (Option α)) (cnt : Nat) (vars : Nat → α) (es : List ObjEv),
    mid.length = n →
    fill x pre.length n ⟨⟨pre ++ mid ++ rest, cnt⟩, vars, es⟩ =
      .ok ⟨⟨pre ++ List.replicate n (some x) ++ rest, cnt⟩, vars, es ++ mid.flatMap slotFilled⟩ := by
  intro n
  induction n with
  | zero =>
    intro pre mid rest cnt vars es hm
    obtain rfl := List.length_eq_zero_iff.1 hm
    simp [fill]
  | succ n ih =>
    intro pre mid rest cnt vars es hm
    cases mid with
    | nil => simp at hm
    | cons m mid =>
      have hget : (pre ++ m :: mid ++ rest)[pre.length]? = some m := by simp
      have hset : (pre ++ m :: mid ++ rest).set pre.length (some x) = (pre ++ [some x]) ++ mid ++ rest := by
        rw [List.append_assoc, List.set_append_right _ _ (Nat.le_refl _)]; simp
      rw [fill]
      simp only [hget, hset, log]
      have := ih (pre ++ [some x]) mid rest cnt vars (es ++ slotFilled m) (by simpa using hm)
      rw [List.length_append] at this
      simp only [List.length_cons, List.length_nil, Nat.zero_add] at this
      rw [show (es ++ [ObjEv.copy, if m.isSome = true then ObjEv.moveAssign else ObjEv.move, ObjEv.destroy]) = es ++ slotFilled m from rfl, this]
      simp [List.replicate_succ]

theorem reset_eq : ∀ (n : Nat) (pre mid rest : List (Option α)) (cnt : Nat) (vars : Nat → α) (es : List ObjEv),
    mid.length = n →
    reset (pre.length + n) n ⟨⟨pre ++ mid ++ rest, cnt⟩, vars, es⟩ =
      .ok ⟨⟨pre ++ List.replicate n none ++ rest, cnt⟩, vars, es ++ mid.reverse.flatMap slotEmptied⟩ := by
  intro n
  induction n with
  | zero =>
    intro pre mid rest cnt vars es hm
    obtain rfl := List.length_eq_zero_iff.1 hm
    simp [reset]
  | succ n ih =>
    intro pre mid rest cnt vars es hm
    rcases List.eq_nil_or_concat mid with rfl | ⟨mid', m, rfl⟩
    · simp at hm
    · have hm' : mid'.length = n := by simpa using hm
      have e : pre ++ mid'.concat m ++ rest = (pre ++ mid') ++ (m :: rest) := by simp [List.concat_eq_append]
      have hl : pre.length + n = (pre ++ mid').length := by simp [hm']
      have hget : (pre ++ mid'.concat m ++ rest)[pre.length + n]? = some m := by
        rw [e, hl]; simp
      have hset : (pre ++ mid'.concat m ++ rest).set (pre.length + n) none = pre ++ mid' ++ (none :: rest) := by
        rw [e, hl, List.set_append_right _ _ (Nat.le_refl _)]; simp
      rw [show pre.length + (n + 1) = (pre.length + n) + 1 from rfl, reset]
      simp only [hget, hset, log]
      rw [show (if m.isSome = true then [ObjEv.destroy] else []) = slotEmptied m from rfl,
        ih pre mid' (none :: rest) cnt vars (es ++ slotEmptied m) hm']
      simp [List.replicate_succ']

/-- What `_unsafe_resize` does to objects, apart from its own parameter. -/
def resizeEvents (l : List α) (rest : List (Option α)) (n : Nat) : List ObjEv :=
  if l.length < n then [.move] ++ (rest.take (n - l.length)).flatMap slotFilled ++ [.destroy]
  else List.replicate (l.length - n) .destroy

theorem unsafeResize_run (l : List α) (rest : List (Option α)) (n : Nat) (hn : n ≤ l.length + rest.length) (x : α)
    (vars : Nat → α) (es : List ObjEv) :
    unsafeResize n x ⟨⟨l.map some ++ rest, l.length⟩, vars, es⟩ =
      .ok ⟨⟨(resized l n x).map some ++ (if l.length < n then rest.drop (n - l.length) else
        List.replicate (l.length - n) none ++ rest), n⟩, vars, es ++ resizeEvents l rest n⟩ := by
  unfold unsafeResize
  simp only [StaticVector.size]
  by_cases hgt : l.length < n
  · have h1 : rest = rest.take (n - l.length) ++ rest.drop (n - l.length) := (List.take_append_drop _ _).symm
    have h := fill_eq x (n - l.length) (l.map some) (rest.take (n - l.length)) (rest.drop (n - l.length)) l.length vars
      (es ++ [.move]) (by simp; omega)
    rw [List.append_assoc, ← h1, List.length_map] at h
    simp only [gt_iff_lt, hgt, if_true, alloc, log, h, Outcome.bind_ok, Outcome.pure_eq, resizeEvents]
    simp [resized, List.take_of_length_le (by omega : l.length ≤ n)]
  · by_cases hlt : n < l.length
    · have h := reset_eq (l.length - n) ((l.take n).map some) ((l.drop n).map some) rest l.length vars es (by simp)
      rw [← List.map_append, List.take_append_drop, List.length_map, List.length_take,
        show min n l.length + (l.length - n) = l.length by omega] at h
      simp only [gt_iff_lt, hgt, if_false, hlt, if_true, h, Outcome.bind_ok, Outcome.pure_eq, resizeEvents]
      have hfm : ((l.drop n).map some).reverse.flatMap (slotEmptied (α := α)) = List.replicate (l.length - n) ObjEv.destroy := by
        have : ∀ k : List α, (k.map some).flatMap (slotEmptied (α := α)) = List.replicate k.length ObjEv.destroy := by
          intro k
          induction k with
          | nil => rfl
          | cons a k ih => simp only [List.map_cons, List.flatMap_cons, ih]; simp [slotEmptied, List.replicate_succ]
        rw [← List.map_reverse, this]; simp
      rw [hfm]
      simp [resized, (by omega : n - l.length = 0)]
    · have hnl : n = l.length := by omega
      subst hnl
      simp [resized, resizeEvents]

end Wite.Collections.ObjVec
