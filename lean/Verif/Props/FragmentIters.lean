import Verif.Model.FragmentIters
import Verif.Lemmas.FragmentString

/-!
# C166: iterators of different fragment_strings
-/

namespace Wite.Props
open Wite Wite.Str

variable {C : Type}

/-- C166: between iterators of one string the operators give the same in all three builds, and never fail. -/
theorem c166_one_string_partial (b : Build) (less : ObjIt → ObjIt → Bool) (fs : FragStr C) (obj : Nat) (x y : It) :
    ObjIt.eq b ⟨obj, x⟩ ⟨obj, y⟩ = .ok (decide (x = y)) ∧
    ObjIt.cmp b less ⟨obj, x⟩ ⟨obj, y⟩ = .ok (It.threeWay x y) ∧
    ObjIt.sub b fs ⟨obj, x⟩ ⟨obj, y⟩ = .ok (diff fs x y) := by
  have hv : ObjIt.verify b ⟨obj, x⟩ ⟨obj, y⟩ = .ok () := by cases b <;> simp [ObjIt.verify, debugAssert]
  refine ⟨?_, ?_, ?_⟩
  · rw [ObjIt.eq, hv]
    have : It.eq x y = decide (x = y) := by
      cases x; cases y; simp [It.eq]
    simp [this]
  · rw [ObjIt.cmp, hv]; simp
  · rw [ObjIt.sub, hv]; simp

/-- C166: a loop over a string to its own end reads the characters of the string, in all three builds, if no fragment but
the last is empty. -/
theorem c166_own_end_partial (b : Build) (fs : FragStr C) (hr : Regular fs) (obj : Nat) (last : It)
    (hl : end' fs = .ok last) : readUntil b fs obj (length fs + 1) ⟨0, 0⟩ ⟨obj, last⟩ = .ok (text fs) := by
  have key : ∀ fuel i, readUntil b fs obj fuel i ⟨obj, last⟩ = readLoop (fwd b fs) fuel i last := by
    intro fuel
    induction fuel with
    | zero => intro i; rfl
    | succ fuel ih =>
      intro i
      have hv : ObjIt.verify b ⟨obj, i⟩ ⟨obj, last⟩ = .ok () := by cases b <;> simp [ObjIt.verify, debugAssert]
      rw [readUntil, readLoop, ObjIt.eq, hv]
      simp only [Outcome.bind_ok, Outcome.pure_eq, decide_true, Bool.true_and, ih]
      rfl
  obtain ⟨it, he, ha⟩ := end_at (fs := fs) (by rintro rfl; cases hl)
  rw [hl] at he; cases he
  rw [key, (fwd_tracks hr b).readLoop (length fs + 1) _ _ 0 _ (begin_at hr).2 ha (by omega) (by omega)]
  simp [length_text]

/-- C166: mixing up iterators of two strings is always noticed in debug builds, whatever the strings contain, also if one
is a copy of the other. -/
theorem c166_noticed_partial (less : ObjIt → ObjIt → Bool) (fs : FragStr C) (x y : ObjIt) (h : x.obj ≠ y.obj) :
    ObjIt.eq .debug x y = .throw (.assertion "fragment_string: Iterators point to different parent objects") ∧
    ObjIt.cmp .debug less x y = .throw (.assertion "fragment_string: Iterators point to different parent objects") ∧
    ObjIt.sub .debug fs x y = .throw (.assertion "fragment_string: Iterators point to different parent objects") ∧
    ObjIt.eq .aborting x y = .terminate ∧ ObjIt.cmp .aborting less x y = .terminate ∧
    ObjIt.sub .aborting fs x y = .terminate := by
  have h' : y.obj ≠ x.obj := fun e => h e.symm
  have hd : ObjIt.verify .debug x y = .throw (.assertion "fragment_string: Iterators point to different parent objects") := by
    simp [ObjIt.verify, debugAssert, h']
  have ha : ObjIt.verify .aborting x y = .terminate := by simp [ObjIt.verify, debugAssert, h']
  simp only [ObjIt.eq, ObjIt.cmp, ObjIt.sub, hd, ha]
  exact ⟨rfl, rfl, rfl, rfl, rfl, rfl⟩

/-- C166 in release builds: iterators of different strings are never equal, by neither operator. -/
theorem c166_unequal_partial (less : ObjIt → ObjIt → Bool) (x y : ObjIt) (h : x.obj ≠ y.obj) :
    ObjIt.eq .release x y = .ok false ∧ ∃ o, ObjIt.cmp .release less x y = .ok o ∧ o ≠ .eq := by
  refine ⟨by simp [ObjIt.eq, ObjIt.verify, debugAssert, h], ?_⟩
  refine ⟨if less x y then .lt else .gt,
    by simp only [ObjIt.cmp, ObjIt.verify, debugAssert, Outcome.bind_ok, if_neg h, Outcome.pure_eq], ?_⟩
  cases less x y <;> simp

/-- C166 is false in release builds: the distance between iterators of different strings is undefined. -/
theorem c166_refuted_distance (fs : FragStr C) (x y : ObjIt) (h : x.obj ≠ y.obj) : ObjIt.sub .release fs x y = .ub := by
  simp [ObjIt.sub, ObjIt.verify, debugAssert, h]

/-- In a release build a step forward is undefined or goes to a later place of the array. -/
private theorem incr_measure (fs : FragStr C) (it it' : It) (h : incr .release fs it = .ok it') :
    ∃ s, fs[it.frag]? = some s ∧ it.cur < s.chars.length ∧
      (length (fs.drop it'.frag) - it'.cur < length (fs.drop it.frag) - it.cur) := by
  unfold incr fragAt at h
  cases hs : fs[it.frag]? with
  | none => rw [hs] at h; cases h
  | some s =>
    rw [hs] at h
    simp only [debugAssert, Outcome.bind_ok] at h
    by_cases hc : it.cur < s.chars.length
    · have hl : it.frag < fs.length := (List.getElem?_eq_some_iff.1 hs).1
      have hd : fs.drop it.frag = s :: fs.drop (it.frag + 1) := by
        rw [List.drop_eq_getElem_cons hl]
        congr 1
        exact (List.getElem?_eq_some_iff.1 hs).2
      refine ⟨s, rfl, hc, ?_⟩
      rw [if_pos hc] at h
      rw [hd, Str.length]
      by_cases h1 : it.cur + 1 = s.chars.length
      · rw [if_pos h1] at h
        by_cases h2 : it.frag + 1 = fs.length
        · rw [if_pos h2] at h
          cases h
          simp only [hd, Str.length, h2, List.drop_length]
          omega
        · rw [if_neg h2] at h
          cases h
          dsimp only
          omega
      · rw [if_neg h1] at h
        cases h
        simp only [hd, Str.length]
        omega
    · rw [if_neg hc] at h; cases h

/-- C166 is false in release builds: a loop from an iterator of one string to the end, or any other iterator, of another
string never stops properly, even if one string is a copy of the other.  It runs off the end of the first string. -/
theorem c166_refuted_loop (fs : FragStr C) (obj : Nat) (i : It) (last : ObjIt) (h : obj ≠ last.obj) :
    ∃ n, ∀ fuel, n ≤ fuel → readUntil .release fs obj fuel i last = .ub := by
  refine ⟨length (fs.drop i.frag) - i.cur + 1, ?_⟩
  intro fuel
  induction fuel generalizing i with
  | zero => intro h; omega
  | succ fuel ih =>
    intro hf
    rw [readUntil, (c166_unequal_partial (fun _ _ => false) ⟨obj, i⟩ last h).1]
    simp only [Outcome.bind_ok, Bool.false_eq_true, if_false]
    cases hd : deref .release fs i with
    | ok c =>
      simp only [Outcome.bind_ok]
      cases hi : incr .release fs i with
      | ok j =>
        obtain ⟨s, hs, hc, hm⟩ := incr_measure fs i j hi
        simp only [Outcome.bind_ok]
        rw [ih j (by omega)]
        rfl
      | ub => rfl
      | _ =>
        exfalso
        revert hi
        unfold incr fragAt
        simp only [debugAssert]
        split <;> simp only [Outcome.bind_ok, Outcome.bind_ub] <;> (try split) <;> (try split) <;> (try split) <;>
          intro h <;> cases h
    | ub => rfl
    | _ =>
      exfalso
      revert hd
      unfold deref fragAt
      simp only [debugAssert]
      split <;> simp only [Outcome.bind_ok, Outcome.bind_ub] <;> (try split) <;> intro h <;> cases h

/-- C166: in debug builds the same loop is stopped before it reads anything. -/
theorem c166_loop_noticed_partial (fs : FragStr C) (obj : Nat) (i : It) (last : ObjIt) (h : obj ≠ last.obj) (fuel : Nat) :
    readUntil .debug fs obj (fuel + 1) i last =
      .throw (.assertion "fragment_string: Iterators point to different parent objects") ∧
    readUntil .aborting fs obj (fuel + 1) i last = .terminate := by
  have := c166_noticed_partial (fun _ _ => false) fs ⟨obj, i⟩ last h
  rw [readUntil, this.1, readUntil, this.2.2.2.1]
  exact ⟨rfl, rfl⟩

example : readUntil .release [some [97, 98], some [99]] 1 10 ⟨0, 0⟩ ⟨1, ⟨1, 1⟩⟩ = .ok [97, 98, 99] ∧
    readUntil .release [some [97, 98], some [99]] 1 10 ⟨0, 0⟩ ⟨2, ⟨1, 1⟩⟩ = .ub ∧
    readUntil .aborting [some [97, 98], some [99]] 1 10 ⟨0, 0⟩ ⟨2, ⟨1, 1⟩⟩ = .terminate := by decide

end Wite.Props
