import Verif.Model.UuidThreads
import Verif.Props.UuidMore

/-! # C177: make_uuid in many threads, with a random device that may throw -/

namespace Wite.Props

open Wite.Io Wite.Spec Wite.Spec.Uuid Wite.Uuid Wite.Hex

variable {σ : Type}

/-- What one thread gets, in order, out of the results of a run. -/
def ofThread (t : Nat) : List UuidCall → List (Outcome (List Nat)) → List (Outcome (List Nat))
  | c :: cs, o :: os => if c.thread = t then o :: ofThread t cs os else ofThread t cs os
  | _, _ => []

/-- What the random device does for the calls of one thread. -/
def devicesOf (t : Nat) : List UuidCall → List (Except Exc Nat)
  | [] => []
  | c :: cs => if c.thread = t then c.device :: devicesOf t cs else devicesOf t cs

/-- In every run, a thread gets what it would get alone: the calls of other threads, however many and in
whatever order, make no difference. -/
theorem c177_alone (host : Endian) (E : Engine σ) (t : Nat) (cs : List UuidCall) (w : Nat → Option σ) :
    ofThread t cs (St.outcomes (threadCall host E) cs w).1 =
      (St.outcomes (makeUuidDev host E) (devicesOf t cs) (w t)).1 := by
  induction cs generalizing w with
  | nil => rfl
  | cons c cs ih =>
    simp only [St.outcomes, ofThread, devicesOf]
    by_cases h : c.thread = t
    · subst h
      rw [if_pos rfl, if_pos rfl]
      simp only [St.outcomes]
      rw [ih]
      simp only [threadCall, if_true]
    · rw [if_neg h, if_neg h, ih]
      have : t ≠ c.thread := fun e => h e.symm
      simp only [threadCall, if_neg this]

private theorem run_some (host : Endian) (E : Engine σ) : ∀ (ds : List (Except Exc Nat)) (s : σ),
    (St.outcomes (makeUuidDev host E) ds (some s)).1 =
      (List.range ds.length).map (fun i => .ok (ofRandom host (draws E s (2 * i)) (draws E s (2 * i + 1)))) := by
  intro ds
  induction ds with
  | nil => intro s; rfl
  | cons d ds ih =>
    intro s
    simp only [St.outcomes, List.length_cons, List.range_succ_eq_map, List.map_cons, List.map_map]
    have e : makeUuidDev host E d (some s) =
        (.ok (ofRandom host (draws E s 0) (draws E s 1)), some (E.draw (E.draw s).2).2) := by
      simp only [makeUuidDev, makeUuid, ofEngine, draws]
    rw [e]
    simp only [ih]
    congr 1

/-- A thread whose random device throws a number of times and then returns `d`: so many calls throw what the device threw;
from then on call `i` returns the UUID made of draws `2 i` and `2 i + 1` of the engine seeded with `d`, whatever the
device would do later. -/
theorem c177_sequence (host : Endian) (E : Engine σ) (es : List Exc) (d : Nat) (later : List (Except Exc Nat)) :
    (St.outcomes (makeUuidDev host E) (es.map .error ++ .ok d :: later) none).1 =
      es.map .throw ++ (List.range (later.length + 1)).map (fun i =>
        .ok (ofRandom host (draws E (E.seed (d % 2 ^ 32)) (2 * i)) (draws E (E.seed (d % 2 ^ 32)) (2 * i + 1)))) := by
  induction es with
  | nil =>
    have := run_some host E (.ok d :: later) (E.seed (d % 2 ^ 32))
    simp only [List.map_nil, List.nil_append]
    rw [List.length_cons] at this
    rw [← this]
    rfl
  | cons e es ih =>
    simp only [List.map_cons, List.cons_append, St.outcomes, makeUuidDev, ih]

/-- As long as the device throws, every call throws and the thread is as if it had made none. -/
theorem c177_device_fails (host : Endian) (E : Engine σ) (es : List Exc) :
    St.outcomes (makeUuidDev host E) (es.map .error) (none : Option σ) = (es.map .throw, none) := by
  induction es with
  | nil => rfl
  | cons e es ih => simp only [List.map_cons, St.outcomes, makeUuidDev, ih]

/-- Every UUID returned in any run of any threads is a version-4 UUID; a call that does not return one throws what the
random device threw. -/
theorem c177_version (host : Endian) (E : Engine σ) (cs : List UuidCall) (w : Nat → Option σ) (i : Nat) (c : UuidCall)
    (hc : cs[i]? = some c) :
    (∃ u, (St.outcomes (threadCall host E) cs w).1[i]? = some (.ok u) ∧ IsV4 u) ∨
    ∃ e, c.device = .error e ∧ (St.outcomes (threadCall host E) cs w).1[i]? = some (.throw e) := by
  have v4 : ∀ r1 r2, IsV4 (ofRandom host r1 r2) := by
    intro r1 r2
    obtain ⟨h1, h2⟩ := c24_version_variant host r1 r2
    refine ⟨h1, fun x hx => ?_, fun x hx => ?_⟩
    · obtain ⟨y, _, e, _, h, _⟩ := h2 6 (by omega)
      rw [hx] at e; cases e; exact (h rfl).1
    · obtain ⟨y, _, e, _, _, h, _⟩ := h2 8 (by omega)
      rw [hx] at e; cases e; exact (h rfl).1
  induction cs generalizing w i with
  | nil => simp at hc
  | cons c' cs ih =>
    cases i with
    | succ i =>
      simp only [List.getElem?_cons_succ] at hc
      simp only [St.outcomes, List.getElem?_cons_succ]
      exact ih _ i hc
    | zero =>
      simp only [List.getElem?_cons_zero, Option.some.injEq] at hc
      subst hc
      simp only [St.outcomes, List.getElem?_cons_zero, Option.some.injEq, threadCall]
      cases hw : w c'.thread with
      | some s => exact Or.inl ⟨_, rfl, v4 _ _⟩
      | none =>
        cases hd : c'.device with
        | error e => exact Or.inr ⟨e, rfl, rfl⟩
        | ok d => exact Or.inl ⟨_, rfl, v4 _ _⟩

example : (St.outcomes (threadCall .little counter)
    [⟨0, .error .badAlloc⟩, ⟨1, .ok 9⟩, ⟨0, .ok 5⟩, ⟨1, .error .badAlloc⟩, ⟨0, .ok 7⟩] (fun _ => none)).1 =
    [.throw .badAlloc,
     .ok (ofRandom .little (9 * 6364136223846793005 % 2 ^ 64) (10 * 6364136223846793005 % 2 ^ 64)),
     .ok (ofRandom .little (5 * 6364136223846793005 % 2 ^ 64) (6 * 6364136223846793005 % 2 ^ 64)),
     .ok (ofRandom .little (11 * 6364136223846793005 % 2 ^ 64) (12 * 6364136223846793005 % 2 ^ 64)),
     .ok (ofRandom .little (7 * 6364136223846793005 % 2 ^ 64) (8 * 6364136223846793005 % 2 ^ 64))] := by decide +kernel

end Wite.Props
