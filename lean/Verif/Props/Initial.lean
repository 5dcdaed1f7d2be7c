import Verif.Model.Initial
import Mathlib.Data.List.Basic

/-!
# Property C192: objects declared without an initialiser
-/

namespace Wite.Props

open Wite Wite.Initial

private theorem plain_length (d : Desc) : (plain d).length = d.size := by
  induction d with
  | scalar => rfl
  | ready => rfl
  | pair a b iha ihb => simp [plain, Desc.size, iha, ihb]
  | braced d ih => simp [plain, overlay, zeros, Desc.size, ih]
  | array n d ih => simp [plain, Desc.size, ih]

private theorem overlay_zero (k : Nat) (l : List Cell) (h : ∀ c ∈ l, c = none ∨ c = some 0) (hl : l.length = k) :
    overlay (List.replicate k (some 0)) l = List.replicate k (some 0) := by
  induction l generalizing k with
  | nil => subst hl; rfl
  | cons c l ih =>
    subst hl
    have ih' := ih l.length (fun c hc => h c (List.mem_cons_of_mem _ hc)) rfl
    unfold overlay at ih' ⊢
    rw [List.length_cons, List.replicate_succ, List.zipWith_cons_cons, ih']
    rcases h c (List.mem_cons_self ..) with rfl | rfl <;> rfl

private theorem plain_cells (d : Desc) : ∀ c ∈ plain d, c = none ∨ c = some 0 := by
  induction d with
  | scalar => simp [plain]
  | ready => simp [plain]
  | pair a b iha ihb =>
    intro c hc
    rcases List.mem_append.1 hc with h | h
    · exact iha c h
    · exact ihb c h
  | braced d ih =>
    intro c hc
    rw [plain, zeros, overlay_zero _ _ ih (plain_length d)] at hc
    exact .inr (List.eq_of_mem_replicate hc)
  | array n d ih =>
    intro c hc
    rw [plain] at hc
    obtain ⟨l, hl, hc⟩ := List.mem_flatten.1 hc
    rw [List.eq_of_mem_replicate hl] at hc
    exact ih c hc

private theorem read_zeros (k : Nat) : readAll (List.replicate k (some 0)) = .ok (List.replicate k 0) := by
  induction k with
  | zero => rfl
  | succ k ih => rw [List.replicate_succ, readAll, ih]; rfl

private theorem read_ok_iff (l : List Cell) : (∃ vs, readAll l = .ok vs) ↔ none ∉ l := by
  induction l with
  | nil => simp [readAll]
  | cons c l ih =>
    cases c with
    | none => simp [readAll]
    | some v =>
      rw [List.mem_cons, not_or, ← ih, readAll]
      cases readAll l <;> simp

private theorem read_cases (l : List Cell) : (∃ vs, readAll l = .ok vs) ∨ readAll l = .ub := by
  induction l with
  | nil => exact .inl ⟨_, rfl⟩
  | cons c l ih =>
    cases c with
    | none => exact .inr rfl
    | some v =>
      rw [readAll]
      rcases ih with ⟨vs, h⟩ | h <;> rw [h]
      · exact .inl ⟨_, rfl⟩
      · exact .inr rfl

/-- C192: whatever the object is composed of, with empty braces, and with static or thread storage, all of its scalars are zero, null or
empty, and reading it is defined. -/
theorem c192_braces (d : Desc) :
    braces d = List.replicate d.size (some 0) ∧ static d = List.replicate d.size (some 0) ∧
    readAll (braces d) = .ok (List.replicate d.size 0) ∧ equal (braces d) (braces d) = .ok true := by
  have h : braces d = List.replicate d.size (some 0) := overlay_zero _ _ (plain_cells d) (plain_length d)
  refine ⟨h, h, by rw [h, read_zeros], ?_⟩
  rw [h]
  generalize d.size = k
  induction k with
  | zero => rfl
  | succ k ih => rw [List.replicate_succ, equal, if_pos rfl, ih]

/-- That an object has no number or pointer outside of members with an initialiser. -/
def NoBareScalar : Desc → Prop
  | .scalar => False
  | .ready => True
  | .pair a b => NoBareScalar a ∧ NoBareScalar b
  | .braced _ => True
  | .array n d => n = 0 ∨ NoBareScalar d

private theorem none_iff (d : Desc) : none ∉ plain d ↔ NoBareScalar d := by
  induction d with
  | scalar => simp [plain, NoBareScalar]
  | ready => simp [plain, NoBareScalar]
  | pair a b iha ihb => rw [plain, List.mem_append, not_or, iha, ihb]; rfl
  | braced d ih =>
    rw [plain, zeros, overlay_zero _ _ (plain_cells d) (plain_length d)]
    simp only [NoBareScalar, iff_true]
    intro h
    cases List.eq_of_mem_replicate h
  | array n d ih =>
    rw [plain, NoBareScalar, ← ih]
    simp only [List.mem_flatten, not_exists, not_and]
    constructor
    · intro h
      by_cases hn : n = 0
      · exact .inl hn
      · exact .inr (h (plain d) (List.mem_replicate.2 ⟨hn, rfl⟩))
    · rintro (rfl | h) l hl
      · cases List.eq_of_mem_replicate hl; simp at hl
      · rw [List.eq_of_mem_replicate hl]; exact h

/-- C192, exactly: declared without an initialiser an object is what empty braces make it if it has no number or pointer outside of members with an
initialiser; otherwise reading it is undefined. -/
theorem c192_exact (d : Desc) :
    (NoBareScalar d → plain d = braces d ∧ readAll (plain d) = .ok (List.replicate d.size 0)) ∧
    (¬ NoBareScalar d → readAll (plain d) = .ub) := by
  constructor
  · intro h
    have hn := (none_iff d).2 h
    have : plain d = List.replicate d.size (some 0) := by
      rw [List.eq_replicate_iff]
      refine ⟨plain_length d, fun c hc => ?_⟩
      rcases plain_cells d c hc with rfl | h
      · exact absurd hc hn
      · exact h
    exact ⟨this.trans (c192_braces d).1.symm, by rw [this, read_zeros]⟩
  · intro h
    rcases read_cases (plain d) with h' | h'
    · exact absurd ((none_iff d).1 ((read_ok_iff _).1 h')) h
    · exact h'

/-- C192, the types for which it holds: UUIDs, which are null; results of every type, which have the value that empty braces make; `static_vector`s
and fragment strings, which are empty; iterators in every build, which are null; the arguments of `make_vector`; and ids and ranges of these. -/
theorem c192_defined_partial (b : Build) (n : Nat) (v : Desc) :
    (∀ d ∈ [uuid, result v, staticVector n, fragments n, iter b, reserveArg, sizeArg v], plain d = braces d ∧ ∃ vs, readAll (plain d) = .ok vs) ∧
    plain uuid = List.replicate 16 (some 0) ∧
    (NoBareScalar v → plain (idOf v) = braces (idOf v) ∧ plain (range v) = braces (range v)) := by
  refine ⟨?_, by decide, fun h => ⟨((c192_exact (idOf v)).1 h).1, ((c192_exact (range v)).1 ⟨h, h⟩).1⟩⟩
  intro d hd
  have : NoBareScalar d := by
    simp only [List.mem_cons, List.not_mem_nil, or_false] at hd
    rcases hd with rfl | rfl | rfl | rfl | rfl | rfl | rfl
    · trivial
    · trivial
    · exact ⟨trivial, trivial⟩
    · exact .inr trivial
    · cases b
      · exact ⟨trivial, trivial, trivial, trivial⟩
      · exact ⟨trivial, trivial, trivial, trivial⟩
      · trivial
    · trivial
    · exact ⟨trivial, trivial⟩
  obtain ⟨h1, h2⟩ := (c192_exact d).1 this
  exact ⟨h1, _, h2⟩

/-- C192 fails for indices, ids of numbers, ranges of numbers, the wrappers `little_endian` and `big_endian`, and points: declared without an
initialiser, all of their scalars are indeterminate; reading them, and comparing them with any object of their type, themselves included, is undefined. -/
theorem c192_refuted (n : Nat) (d : Desc) (hd : d ∈ [index, idOf .scalar, range .scalar, wrapper, point (n + 1)]) :
    (∀ c ∈ plain d, c = none) ∧ readAll (plain d) = .ub ∧
    ∀ other : List Cell, other.length = d.size → equal (plain d) other = .ub ∧ equal other (plain d) = .ub := by
  have hall : (∀ c ∈ plain d, c = none) ∧ 0 < d.size := by
    simp only [List.mem_cons, List.not_mem_nil, or_false] at hd
    rcases hd with rfl | rfl | rfl | rfl | rfl
    · simp [plain, index, Desc.size]
    · simp [plain, idOf, Desc.size]
    · simp [plain, range, Desc.size]
    · simp [plain, wrapper, Desc.size]
    · simp [plain, point, Desc.size]
  have hl := plain_length d
  cases hp : plain d with
  | nil => rw [hp] at hl; simp at hl; omega
  | cons c cs =>
    rw [hp] at hall hl
    have hc : c = none := hall.1 c (List.mem_cons_self ..)
    subst hc
    refine ⟨hall.1, rfl, fun other ho => ?_⟩
    cases other with
    | nil => simp at ho; omega
    | cons o os => cases o <;> exact ⟨rfl, rfl⟩

/-! `wite::uuid u;` is the null UUID; `wite::index<T> i; *i` is undefined, while `wite::index<T> i{};` is 0. -/

example : readAll (plain uuid) = .ok (List.replicate 16 0) ∧ readAll (plain index) = .ub ∧ readAll (braces index) = .ok [0] := by decide
example : equal (plain (point 2)) (plain (point 2)) = .ub ∧ readAll (plain (result .scalar)) = .ok [0] := by decide
example : readAll (plain (idOf uuid)) = .ok (List.replicate 16 0) ∧ readAll (plain (idOf .scalar)) = .ub := by decide

end Wite.Props
