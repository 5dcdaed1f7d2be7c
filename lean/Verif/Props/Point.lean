import Verif.Model.Point
import Verif.Model.ValueRange
import Mathlib.Order.Basic
import Mathlib.Order.Compare
import Mathlib.Data.List.Basic

/-!
# Properties C71, C72, C110, C111: points and their printing
-/

namespace Wite.Props

open Wite Wite.Geometry Wite.Maths

variable {α : Type}

/-! ## C71 -/

/-- C71: setting coordinate `d` of a point with more than `d` dimensions succeeds, keeps the number of dimensions, makes
`get` of that coordinate return the value and leaves every other coordinate alone. -/
theorem c71_get_set (p : Point α) (d : Nat) (x : α) (h : d < p.dimensions) :
    ∃ q, p.set d x = .ok q ∧ q.dimensions = p.dimensions ∧ q.get d = .ok x ∧ ∀ e, e ≠ d → q.get e = p.get e := by
  refine ⟨⟨p.cells.set d (some x)⟩, by unfold Point.set Point.write; exact if_pos h, by simp [Point.dimensions], ?_, ?_⟩
  · unfold Point.get
    rw [List.getElem?_set_self (by simpa [Point.dimensions] using h)]
  · intro e he
    unfold Point.get
    simp only
    rw [List.getElem?_set_ne (fun h => he h.symm)]

/-- C71: setting a coordinate to what it is changes nothing; of two settings of a coordinate the last one counts; settings of
different coordinates commute. -/
theorem c71_set_laws (p : Point α) (d e : Nat) (x y : α) (hd : d < p.dimensions) (he : e < p.dimensions) :
    (p.get d = .ok x → p.set d x = .ok p) ∧
    (do let q ← p.set d x; q.set d y) = p.set d y ∧
    (d ≠ e → (do let q ← p.set d x; q.set e y) = (do let q ← p.set e y; q.set d x)) := by
  have hs : ∀ (q : Point α) (d : Nat) (x : α), d < q.cells.length → q.set d x = .ok ⟨q.cells.set d (some x)⟩ :=
    fun q d x h => if_pos h
  have hd' : d < p.cells.length := hd
  have he' : e < p.cells.length := he
  refine ⟨fun hg => ?_, ?_, fun hne => ?_⟩
  · rw [hs p d x hd']
    have hc : p.cells[d]? = some (some x) := by
      unfold Point.get at hg
      split at hg
      · rename_i h; cases hg; exact h
      · cases hg
    have hl : p.cells.set d (some x) = p.cells := by
      apply List.ext_getElem?
      intro i
      by_cases hi : d = i
      · subst hi; rw [List.getElem?_set_self hd', hc]
      · rw [List.getElem?_set_ne hi]
    rw [hl]
  · rw [hs p d x hd', Outcome.bind_ok, hs _ d y (by simpa using hd'), hs p d y hd']
    simp
  · rw [hs p d x hd', Outcome.bind_ok, hs _ e y (by simpa using he'), hs p e y he', Outcome.bind_ok,
      hs _ d x (by simpa using hd')]
    simp only
    rw [List.set_comm _ _ hne]

/-- C71: a point made from values has them as its coordinates, whichever constructor made it. -/
theorem c71_construct (x : α) (xs : List α) :
    Point.ofPack x xs = .ok (Point.ofArray (x :: xs)) ∧ (Point.ofArray (x :: xs)).dimensions = xs.length + 1 ∧
    (∀ i (h : i < (x :: xs).length), (Point.ofArray (x :: xs)).get i = .ok (x :: xs)[i]) := by
  have key : ∀ (ys : List α) (y : α) (done : List (Option α)),
      Point.initPack (α := α) ⟨done ++ List.replicate (ys.length + 1) none⟩ done.length y ys =
        .ok ⟨done ++ (y :: ys).map some⟩ := by
    intro ys
    induction ys with
    | nil =>
      intro y done
      unfold Point.initPack Point.write
      rw [if_pos (by simp)]
      simp
    | cons z zs ih =>
      intro y done
      unfold Point.initPack Point.write
      rw [if_pos (by simp), Outcome.bind_ok]
      have := ih z (done ++ [some y])
      simp only [List.length_append, List.length_cons, List.length_nil, List.append_assoc] at this
      simp only [List.length_cons, List.replicate_succ (n := zs.length + 1)]
      rw [List.set_append_right _ _ (le_refl _)]
      simp only [Nat.sub_self, List.set_cons_zero]
      simpa using this
  refine ⟨?_, by simp [Point.ofArray, Point.dimensions], fun i h => ?_⟩
  · have := key xs x []
    simpa [Point.ofPack, Point.uninit, Point.ofArray] using this
  · unfold Point.get Point.ofArray
    rw [List.getElem?_map, List.getElem?_eq_getElem h]; rfl

/-- C71, no check of the index: reading or setting a coordinate the point does not have is undefined; `get<dim::z>()` of a
two-dimensional point compiles. -/
theorem c71_out_of_range (p : Point α) (d : Nat) (x : α) (h : p.dimensions ≤ d) : p.get d = .ub ∧ p.set d x = .ub := by
  unfold Point.dimensions at h
  refine ⟨?_, if_neg (by omega)⟩
  unfold Point.get; rw [List.getElem?_eq_none h]

section Order

private theorem threeWay_ofArray (cmp : α → α → Option Ordering) (xs ys : List α) (h : xs.length = ys.length) :
    ∃ o, Point.threeWay cmp (Point.ofArray xs) (Point.ofArray ys) = .ok o ∧
      ((o = some .eq ∧ ∀ i, ∀ (h1 : i < xs.length) (h2 : i < ys.length), cmp xs[i] ys[i] = some .eq) ∨
       (o ≠ some .eq ∧ ∃ i, ∃ (h1 : i < xs.length) (h2 : i < ys.length), cmp xs[i] ys[i] = o ∧
          ∀ j (hj : j < i), cmp (xs[j]'(by omega)) (ys[j]'(by omega)) = some .eq)) := by
  unfold Point.threeWay Point.ofArray
  induction xs generalizing ys with
  | nil =>
    cases ys with
    | nil => exact ⟨some .eq, rfl, Or.inl ⟨rfl, fun i h1 _ => absurd h1 (by simp)⟩⟩
    | cons y ys => simp at h
  | cons x xs ih =>
    cases ys with
    | nil => simp at h
    | cons y ys =>
      simp only [List.map_cons]
      rw [Point.threeWay.go]
      by_cases hc : cmp x y = some .eq
      · obtain ⟨o, h1, h2⟩ := ih ys (by simpa using h)
        refine ⟨o, by rw [hc]; exact h1, ?_⟩
        rcases h2 with ⟨e, h2⟩ | ⟨e, i, a1, a2, a3, a4⟩
        · refine Or.inl ⟨e, fun i h1 h2' => ?_⟩
          cases i with
          | zero => exact hc
          | succ i => exact h2 i (by simpa using h1) (by simpa using h2')
        · refine Or.inr ⟨e, i + 1, by simpa using a1, by simpa using a2, a3, fun j hj => ?_⟩
          cases j with
          | zero => exact hc
          | succ j => exact a4 j (by omega)
      · refine ⟨cmp x y, ?_, Or.inr ⟨hc, 0, by simp, by simp, rfl, fun j hj => absurd hj (by omega)⟩⟩
        split
        · rename_i h'; exact absurd h' hc
        · rfl

variable [LinearOrder α]

/-- `<=>` of a totally ordered type. -/
def cmpOf (x y : α) : Option Ordering := some (compare x y)

private theorem cmpOf_lt {x y : α} : cmpOf x y = some .lt ↔ x < y := by simp [cmpOf, compare_lt_iff_lt]
private theorem cmpOf_eq {x y : α} : cmpOf x y = some .eq ↔ x = y := by simp [cmpOf, compare_eq_iff_eq]
private theorem cmpOf_gt {x y : α} : cmpOf x y = some .gt ↔ y < x := by simp [cmpOf, compare_gt_iff_gt]

/-- Lexicographic order of coordinate lists of the same length: the first different coordinates decide. -/
def LexLt (xs ys : List α) : Prop :=
  ∃ i, ∃ (h1 : i < xs.length) (h2 : i < ys.length), xs[i] < ys[i] ∧ ∀ j (hj : j < i), xs[j]'(by omega) = ys[j]'(by omega)

private theorem threeWay_lex (xs ys : List α) (h : xs.length = ys.length) :
    ∃ o, Point.threeWay cmpOf (Point.ofArray xs) (Point.ofArray ys) = .ok (some o) ∧
      (o = .lt ↔ LexLt xs ys) ∧ (o = .gt ↔ LexLt ys xs) ∧ (o = .eq ↔ xs = ys) := by
  obtain ⟨o, h1, h2⟩ := threeWay_ofArray cmpOf xs ys h
  have irrefl : ∀ zs : List α, ¬ LexLt zs zs := fun zs ⟨i, _, _, hlt, _⟩ => absurd hlt (lt_irrefl _)
  have asymm : ∀ us vs : List α, LexLt us vs → ¬ LexLt vs us := by
    rintro us vs ⟨i, a1, a2, a3, a4⟩ ⟨k, b1, b2, b3, b4⟩
    rcases Nat.lt_trichotomy i k with hik | hik | hik
    · have := b4 i hik; rw [this] at a3; exact lt_irrefl _ a3
    · subst hik; exact lt_asymm a3 b3
    · have := a4 k hik; rw [this] at b3; exact lt_irrefl _ b3
  rcases h2 with ⟨rfl, h2⟩ | ⟨hne, i, a1, a2, a3, a4⟩
  · have e : xs = ys := by
      apply List.ext_getElem h
      intro i hi1 hi2
      exact cmpOf_eq.1 (h2 i hi1 hi2)
    subst e
    exact ⟨.eq, h1, ⟨by simp, fun h => absurd h (irrefl xs)⟩, ⟨by simp, fun h => absurd h (irrefl xs)⟩, by simp⟩
  · subst a3
    have a4' : ∀ j (hj : j < i), xs[j]'(by omega) = ys[j]'(by omega) := fun j hj => cmpOf_eq.1 (a4 j hj)
    rcases lt_trichotomy xs[i] ys[i] with hlt | heq | hgt
    · have hl : LexLt xs ys := ⟨i, a1, a2, hlt, a4'⟩
      refine ⟨.lt, by rw [h1, cmpOf_lt.2 hlt], by simp [hl], ⟨by simp, fun h => absurd h (asymm _ _ hl)⟩,
        ⟨by simp, fun h => ?_⟩⟩
      subst h; exact absurd hl (irrefl xs)
    · exact absurd (cmpOf_eq.2 heq) hne
    · have hl : LexLt ys xs := ⟨i, a2, a1, hgt, fun j hj => (a4' j hj).symm⟩
      refine ⟨.gt, by rw [h1, cmpOf_gt.2 hgt], ⟨by simp, fun h => absurd h (asymm _ _ hl)⟩, by simp [hl],
        ⟨by simp, fun h => ?_⟩⟩
      subst h; exact absurd hl (irrefl xs)

/-- C71, comparison of points of a totally ordered coordinate type: `<`, `<=`, `>`, `>=` are those of the lexicographic order of
the coordinates. -/
theorem c71_lexicographic (xs ys : List α) (h : xs.length = ys.length) :
    (∃ b, Point.lt cmpOf (Point.ofArray xs) (Point.ofArray ys) = .ok b ∧ (b = true ↔ LexLt xs ys)) ∧
    (∃ b, Point.le cmpOf (Point.ofArray xs) (Point.ofArray ys) = .ok b ∧ (b = true ↔ LexLt xs ys ∨ xs = ys)) ∧
    (∃ b, Point.gt cmpOf (Point.ofArray xs) (Point.ofArray ys) = .ok b ∧ (b = true ↔ LexLt ys xs)) ∧
    (∃ b, Point.ge cmpOf (Point.ofArray xs) (Point.ofArray ys) = .ok b ∧ (b = true ↔ LexLt ys xs ∨ xs = ys)) := by
  obtain ⟨o, h1, h2, h3, h4⟩ := threeWay_lex xs ys h
  unfold Point.lt Point.le Point.gt Point.ge
  simp only [h1, Outcome.bind_ok]
  rw [← h2, ← h3, ← h4]
  refine ⟨⟨_, rfl, ?_⟩, ⟨_, rfl, ?_⟩, ⟨_, rfl, ?_⟩, ⟨_, rfl, ?_⟩⟩ <;> cases o <;> decide

/-- C71: the order is a strict total order: irreflexive, transitive, and any two different points are ordered. -/
theorem c71_total_order :
    (∀ xs : List α, ¬ LexLt xs xs) ∧
    (∀ xs ys zs : List α, LexLt xs ys → LexLt ys zs → LexLt xs zs) ∧
    (∀ xs ys : List α, xs.length = ys.length → LexLt xs ys ∨ xs = ys ∨ LexLt ys xs) := by
  refine ⟨fun zs ⟨i, _, _, hlt, _⟩ => absurd hlt (lt_irrefl _), ?_, fun xs ys h => ?_⟩
  · rintro xs ys zs ⟨i, a1, a2, a3, a4⟩ ⟨k, b1, b2, b3, b4⟩
    rcases Nat.lt_trichotomy i k with hik | hik | hik
    · refine ⟨i, a1, by omega, ?_, fun j hj => (a4 j hj).trans (b4 j (by omega))⟩
      rw [← b4 i hik]; exact a3
    · subst hik
      exact ⟨i, a1, b2, lt_trans a3 b3, fun j hj => (a4 j hj).trans (b4 j hj)⟩
    · refine ⟨k, by omega, b2, ?_, fun j hj => (a4 j (by omega)).trans (b4 j hj)⟩
      rw [a4 k hik]; exact b3
  · obtain ⟨o, _, h2, h3, h4⟩ := threeWay_lex xs ys h
    cases o
    · exact Or.inl (h2.1 rfl)
    · exact Or.inr (Or.inl (h4.1 rfl))
    · exact Or.inr (Or.inr (h3.1 rfl))

/-- C71: `==` holds exactly for equal coordinates. -/
theorem c71_equal [DecidableEq α] (xs ys : List α) (h : xs.length = ys.length) :
    ∃ b, Point.equal (fun x y => decide (x = y)) (Point.ofArray xs) (Point.ofArray ys) = .ok b ∧ (b = true ↔ xs = ys) := by
  unfold Point.equal Point.ofArray
  induction xs generalizing ys with
  | nil =>
    cases ys with
    | nil => exact ⟨true, rfl, by simp⟩
    | cons y ys => simp at h
  | cons x xs ih =>
    cases ys with
    | nil => simp at h
    | cons y ys =>
      simp only [List.map_cons]
      rw [Point.equal.go]
      obtain ⟨b, h1, h2⟩ := ih ys (by simpa using h)
      by_cases hx : x = y
      · refine ⟨b, by rw [if_pos (by simpa using hx)]; exact h1, ?_⟩
        rw [h2]; simp [hx]
      · exact ⟨false, by rw [if_neg (by simpa using hx)], by simp [hx]⟩

end Order

/-- C71 for points of integers: the four comparisons with `<=>` of the integers. -/
theorem c71_int (xs ys : List Int) (h : xs.length = ys.length) :
    (∃ b, Point.lt cmpInt (Point.ofArray xs) (Point.ofArray ys) = .ok b ∧ (b = true ↔ LexLt xs ys)) ∧
    (∃ b, Point.le cmpInt (Point.ofArray xs) (Point.ofArray ys) = .ok b ∧ (b = true ↔ LexLt xs ys ∨ xs = ys)) ∧
    (∃ b, Point.gt cmpInt (Point.ofArray xs) (Point.ofArray ys) = .ok b ∧ (b = true ↔ LexLt ys xs)) ∧
    (∃ b, Point.ge cmpInt (Point.ofArray xs) (Point.ofArray ys) = .ok b ∧ (b = true ↔ LexLt ys xs ∨ xs = ys)) := by
  have e : cmpInt = cmpOf := by
    funext x y
    rcases lt_trichotomy x y with hlt | rfl | hgt
    · rw [cmpInt, compare_lt_iff_lt.2 hlt, cmpOf_lt.2 hlt]
    · rw [cmpInt, compare_eq_iff_eq.2 rfl, cmpOf_eq.2 rfl]
    · rw [cmpInt, compare_gt_iff_gt.2 hgt, cmpOf_gt.2 hgt]
  rw [e]
  exact c71_lexicographic xs ys h

/-- Points of integers: construction, setting, comparison. -/
example : (Point.ofPack (1 : Int) [5, 3]) = .ok ⟨[some 1, some 5, some 3]⟩ ∧
    (⟨[some 1, some 5, some 3]⟩ : Point Int).set 1 4 = .ok ⟨[some 1, some 4, some 3]⟩ ∧
    Point.lt cmpInt (Point.ofArray [1, 4, 9]) (Point.ofArray [1, 5, 0]) = .ok true ∧
    Point.ge cmpInt (Point.ofArray [1, 4, 9]) (Point.ofArray [1, 5, 0]) = .ok false ∧
    (Point.ofArray [1, 5]).get 2 = .ub := by decide

/-! ## C72 -/

private theorem copyFrom_spec (xs : List α) : ∀ (done : List (Option α)) (n : Nat), xs.length ≤ n →
    Point.copyFrom (⟨done ++ List.replicate n none⟩ : Point α) done.length xs =
      .ok ⟨done ++ (xs.map some ++ List.replicate (n - xs.length) none)⟩ := by
  induction xs with
  | nil => intro done n _; simp [Point.copyFrom]
  | cons x xs ih =>
    intro done n hn
    obtain ⟨k, rfl⟩ : ∃ k, n = k + 1 := ⟨n - 1, by simp at hn; omega⟩
    unfold Point.copyFrom Point.write
    rw [if_pos (by simp), Outcome.bind_ok]
    have := ih (done ++ [some x]) k (by simpa using hn)
    simp only [List.length_append, List.length_cons, List.length_nil, List.append_assoc] at this
    rw [List.set_append_right _ _ (le_refl _)]
    simp only [Nat.sub_self, List.replicate_succ, List.set_cons_zero]
    simpa using this

private theorem copyFrom_ub (xs : List α) : ∀ (p : Point α) (d : Nat), d ≤ p.cells.length → p.cells.length < d + xs.length →
    p.copyFrom d xs = .ub := by
  induction xs with
  | nil => intro p d _ h; simp at h; omega
  | cons x xs ih =>
    intro p d h1 h2
    unfold Point.copyFrom Point.write
    by_cases h : d < p.cells.length
    · rw [if_pos h, Outcome.bind_ok]
      refine ih _ (d + 1) ?_ ?_
      · simp; omega
      · simp at h2 ⊢; omega
    · rw [if_neg h]; rfl

/-- C72, the part that holds: an initialiser list of at most as many values as the point has dimensions sets the first
coordinates.  The coordinates left over have no value: reading them is undefined. -/
theorem c72_partial (n : Nat) (init : List α) (h : init.length ≤ n) :
    ∃ p, Point.ofInitList n init = .ok p ∧ p.dimensions = n ∧
      (∀ i (hi : i < init.length), p.get i = .ok init[i]) ∧ ∀ i, init.length ≤ i → p.get i = .ub := by
  have := copyFrom_spec init [] n h
  simp only [List.nil_append, List.length_nil] at this
  refine ⟨_, this, by simp [Point.dimensions]; omega, fun i hi => ?_, fun i hi => ?_⟩
  · unfold Point.get
    simp only
    rw [List.getElem?_append_left (by simpa using hi), List.getElem?_map, List.getElem?_eq_getElem hi]; rfl
  · unfold Point.get
    simp only
    rw [List.getElem?_append_right (by simpa using hi), List.getElem?_replicate]
    split
    · rename_i h'; split at h' <;> simp_all
    · rfl

/-- C72 is false for longer initialiser lists, of every length and for every number of dimensions: the copy writes past the end
of the array. -/
theorem c72_refuted (n : Nat) (init : List α) (h : n < init.length) : Point.ofInitList n init = .ub := by
  refine copyFrom_ub init _ 0 (by omega) ?_
  simp [Point.uninit]; omega

/-- C72: what `point p;` and `point{}` leave. -/
theorem c72_default (n i : Nat) (zero : α) (h : i < n) :
    (Point.uninit n : Point α).get i = .ub ∧ (Point.zeroed zero n).get i = .ok zero := by
  constructor <;> simp [Point.get, Point.uninit, Point.zeroed, List.getElem?_replicate, h]

example : Point.ofInitList 2 [(7 : Int), 8] = .ok ⟨[some 7, some 8]⟩ ∧ Point.ofInitList 3 [(7 : Int), 8] = .ok ⟨[some 7, some 8, none]⟩ ∧
    Point.ofInitList 2 [(7 : Int), 8, 9] = .ub := by decide

/-! ## C110 -/

section FloatOrder

variable {F : Fmt}

private theorem cmpFlt_lt {x y : Flt F} : cmpFlt x y = some .lt ↔ x < y := by
  unfold cmpFlt
  constructor
  · intro h
    split at h
    · cases h
    · rename_i hn
      simp only [Option.some.injEq, compare_lt_iff_lt] at h
      exact ⟨fun h => hn (Or.inl h), fun h => hn (Or.inr h), h⟩
  · rintro ⟨h1, h2, h3⟩
    rw [if_neg (by tauto)]; simp [compare_lt_iff_lt, h3]

private theorem cmpFlt_eq {x y : Flt F} : cmpFlt x y = some .eq ↔ (x == y) = true := by
  have hb : (x == y) = true ↔ ¬ x.isNaN ∧ ¬ y.isNaN ∧ x.key = y.key := by
    show decide _ = true ↔ _
    simp only [decide_eq_true_eq]
  rw [hb]
  unfold cmpFlt
  constructor
  · intro h
    split at h
    · cases h
    · rename_i hn
      simp only [Option.some.injEq, compare_eq_iff_eq] at h
      exact ⟨fun h => hn (Or.inl h), fun h => hn (Or.inr h), h⟩
  · rintro ⟨h1, h2, h3⟩
    rw [if_neg (by tauto)]; simp [h3]

private theorem cmpFlt_gt {x y : Flt F} : cmpFlt x y = some .gt ↔ y < x := by
  unfold cmpFlt
  constructor
  · intro h
    split at h
    · cases h
    · rename_i hn
      simp only [Option.some.injEq, compare_gt_iff_gt] at h
      exact ⟨fun h => hn (Or.inr h), fun h => hn (Or.inl h), h⟩
  · rintro ⟨h1, h2, h3⟩
    rw [if_neg (by tauto)]; simp [compare_gt_iff_gt, h3]

/-- Lexicographic order by the `==` and `<` of the floating-point type. -/
def FltLexLt (xs ys : List (Flt F)) : Prop :=
  ∃ i, ∃ (h1 : i < xs.length) (h2 : i < ys.length), xs[i] < ys[i] ∧
    ∀ j (hj : j < i), (xs[j]'(by omega) == ys[j]'(by omega)) = true

/-- Coordinates that are all equal by the `==` of the floating-point type. -/
def FltAllEq (xs ys : List (Flt F)) : Prop :=
  ∀ i, ∀ (h1 : i < xs.length) (h2 : i < ys.length), (xs[i] == ys[i]) = true

private theorem fltLex_disj (xs ys : List (Flt F)) (i : Nat) (h1 : i < xs.length) (h2 : i < ys.length)
    (hne : ¬ (xs[i] == ys[i]) = true) (hp : ∀ j (hj : j < i), (xs[j]'(by omega) == ys[j]'(by omega)) = true) :
    (FltLexLt xs ys ↔ xs[i] < ys[i]) ∧ ¬ FltAllEq xs ys := by
  refine ⟨⟨?_, fun h => ⟨i, h1, h2, h, hp⟩⟩, fun h => hne (h i h1 h2)⟩
  rintro ⟨k, a1, a2, a3, a4⟩
  have hlt_ne : ∀ x y : Flt F, x < y → ¬ (x == y) = true := by
    intro x y h he
    have := cmpFlt_lt.2 h
    rw [cmpFlt_eq.2 he] at this; cases this
  rcases Nat.lt_trichotomy k i with hk | hk | hk
  · exact absurd (hp k hk) (hlt_ne _ _ a3)
  · subst hk; exact a3
  · exact absurd (a4 i hk) hne

private theorem beq_symm' (x y : Flt F) : (x == y) = (y == x) := by
  by_cases h : (x == y) = true
  · have h2 : (y == x) = true := by
      have h' : ¬ x.isNaN ∧ ¬ y.isNaN ∧ x.key = y.key := by
        have : decide (¬ x.isNaN ∧ ¬ y.isNaN ∧ x.key = y.key) = true := h
        simpa only [decide_eq_true_eq] using this
      show decide _ = true
      simp only [decide_eq_true_eq]
      exact ⟨h'.2.1, h'.1, h'.2.2.symm⟩
    rw [h, h2]
  · have h2 : ¬ (y == x) = true := by
      intro h2
      apply h
      have h' : ¬ y.isNaN ∧ ¬ x.isNaN ∧ y.key = x.key := by
        have : decide (¬ y.isNaN ∧ ¬ x.isNaN ∧ y.key = x.key) = true := h2
        simpa only [decide_eq_true_eq] using this
      show decide _ = true
      simp only [decide_eq_true_eq]
      exact ⟨h'.2.1, h'.1, h'.2.2.symm⟩
    rw [Bool.eq_false_iff.2 h, Bool.eq_false_iff.2 h2]

/-- C110: comparison of points of a floating-point type, whatever their coordinates: `<`, `<=`, `>`, `>=` are lexicographic by the
`<` and `==` of the type, and `==` compares all coordinates. -/
theorem c110_operators (xs ys : List (Flt F)) (h : xs.length = ys.length) :
    (∃ b, Point.lt cmpFlt (Point.ofArray xs) (Point.ofArray ys) = .ok b ∧ (b = true ↔ FltLexLt xs ys)) ∧
    (∃ b, Point.le cmpFlt (Point.ofArray xs) (Point.ofArray ys) = .ok b ∧ (b = true ↔ FltLexLt xs ys ∨ FltAllEq xs ys)) ∧
    (∃ b, Point.gt cmpFlt (Point.ofArray xs) (Point.ofArray ys) = .ok b ∧ (b = true ↔ FltLexLt ys xs)) ∧
    (∃ b, Point.ge cmpFlt (Point.ofArray xs) (Point.ofArray ys) = .ok b ∧ (b = true ↔ FltLexLt ys xs ∨ FltAllEq xs ys)) ∧
    (∃ b, Point.equal (· == ·) (Point.ofArray xs) (Point.ofArray ys) = .ok b ∧ (b = true ↔ FltAllEq xs ys)) := by
  obtain ⟨o, h1, h2⟩ := threeWay_ofArray cmpFlt xs ys h
  have four : (o = some .lt ↔ FltLexLt xs ys) ∧ (o = some .gt ↔ FltLexLt ys xs) ∧ (o = some .eq ↔ FltAllEq xs ys) := by
    rcases h2 with ⟨rfl, h2⟩ | ⟨hne, i, a1, a2, a3, a4⟩
    · have hall : FltAllEq xs ys := fun i h1 h2' => cmpFlt_eq.1 (h2 i h1 h2')
      have no : ∀ us vs : List (Flt F), FltAllEq us vs → ¬ FltLexLt us vs := by
        rintro us vs ha ⟨k, b1, b2, b3, _⟩
        have := cmpFlt_lt.2 b3
        rw [cmpFlt_eq.2 (ha k b1 b2)] at this; cases this
      refine ⟨⟨by simp, fun h => absurd h (no _ _ hall)⟩, ⟨by simp, fun h => absurd h (no _ _ ?_)⟩, by simp [hall]⟩
      intro i h1 h2'
      rw [beq_symm']; exact hall i h2' h1
    · have hne' : ¬ (xs[i] == ys[i]) = true := fun h => hne (by rw [← a3]; exact cmpFlt_eq.2 h)
      have hp : ∀ j (hj : j < i), (xs[j]'(by omega) == ys[j]'(by omega)) = true := fun j hj => cmpFlt_eq.1 (a4 j hj)
      obtain ⟨d1, d2⟩ := fltLex_disj xs ys i a1 a2 hne' hp
      obtain ⟨d3, _⟩ := fltLex_disj ys xs i a2 a1 (by rw [beq_symm']; exact hne')
        (fun j hj => by rw [beq_symm']; exact hp j hj)
      refine ⟨by rw [d1, ← cmpFlt_lt, a3], by rw [d3, ← cmpFlt_gt, a3], ⟨fun h => absurd h hne, fun h => absurd h d2⟩⟩
  obtain ⟨f1, f2, f3⟩ := four
  refine ⟨?_, ?_, ?_, ?_, ?_⟩
  · unfold Point.lt; rw [h1]; exact ⟨_, rfl, by rw [← f1]; simp⟩
  · unfold Point.le; rw [h1]; exact ⟨_, rfl, by rw [← f1, ← f3]; simp⟩
  · unfold Point.gt; rw [h1]; exact ⟨_, rfl, by rw [← f2]; simp⟩
  · unfold Point.ge; rw [h1]; exact ⟨_, rfl, by rw [← f2, ← f3]; simp⟩
  · unfold Point.equal Point.ofArray
    clear h1 h2 f1 f2 f3
    induction xs generalizing ys with
    | nil =>
      cases ys with
      | nil => exact ⟨true, rfl, by simp [FltAllEq]⟩
      | cons y ys => simp at h
    | cons x xs ih =>
      cases ys with
      | nil => simp at h
      | cons y ys =>
        simp only [List.map_cons]
        rw [Point.equal.go]
        obtain ⟨b, h1, h2⟩ := ih ys (by simpa using h)
        by_cases hx : (x == y) = true
        · refine ⟨b, by rw [if_pos hx]; exact h1, ?_⟩
          rw [h2]
          constructor
          · intro ha i h1 h2
            cases i with
            | zero => exact hx
            | succ i => exact ha i (by simpa using h1) (by simpa using h2)
          · intro ha i h1 h2
            exact ha (i + 1) (by simpa using h1) (by simpa using h2)
        · exact ⟨false, by rw [if_neg hx], ⟨by simp, fun ha => absurd (ha 0 (by simp) (by simp)) hx⟩⟩

private theorem flt_trans {x y z : Flt F} : (x < y → y < z → x < z) ∧ (x < y → (y == z) = true → x < z) ∧
    ((x == y) = true → y < z → x < z) ∧ ((x == y) = true → (y == z) = true → (x == z) = true) := by
  have hb : ∀ x y : Flt F, (x == y) = true ↔ ¬ x.isNaN ∧ ¬ y.isNaN ∧ x.key = y.key := by
    intro x y
    show decide _ = true ↔ _
    simp only [decide_eq_true_eq]
  simp only [hb]
  exact ⟨fun a b => ⟨a.1, b.2.1, lt_trans a.2.2 b.2.2⟩, fun a b => ⟨a.1, b.2.1, by rw [← b.2.2]; exact a.2.2⟩,
    fun a b => ⟨a.1, b.2.1, by rw [a.2.2]; exact b.2.2⟩, fun a b => ⟨a.1, b.2.1, a.2.2.trans b.2.2⟩⟩

/-- C110: `<` is a strict partial order for all points, also with NaN coordinates. -/
theorem c110_partial_order (xs ys zs : List (Flt F)) :
    ¬ FltLexLt xs xs ∧ (FltLexLt xs ys → FltLexLt ys zs → FltLexLt xs zs) ∧ (FltLexLt xs ys → ¬ FltLexLt ys xs) := by
  have irr : ∀ us : List (Flt F), ¬ FltLexLt us us := fun us ⟨i, _, _, h, _⟩ => absurd h.2.2 (lt_irrefl _)
  have tr : ∀ us vs ws : List (Flt F), FltLexLt us vs → FltLexLt vs ws → FltLexLt us ws := by
    rintro us vs ws ⟨i, a1, a2, a3, a4⟩ ⟨k, b1, b2, b3, b4⟩
    rcases Nat.lt_trichotomy i k with hik | hik | hik
    · exact ⟨i, a1, by omega, flt_trans.2.1 a3 (b4 i hik), fun j hj => flt_trans.2.2.2 (a4 j hj) (b4 j (by omega))⟩
    · subst hik
      exact ⟨i, a1, b2, flt_trans.1 a3 b3, fun j hj => flt_trans.2.2.2 (a4 j hj) (b4 j hj)⟩
    · exact ⟨k, by omega, b2, flt_trans.2.2.1 (a4 k hik) b3, fun j hj => flt_trans.2.2.2 (a4 j (by omega)) (b4 j hj)⟩
  exact ⟨irr xs, tr xs ys zs, fun h1 h2 => irr xs (tr xs ys xs h1 h2)⟩

/-- C110: points without NaN coordinates are totally ordered, up to `==`. -/
theorem c110_total (xs ys : List (Flt F)) (h : xs.length = ys.length) (hx : ∀ x ∈ xs, ¬ x.isNaN) (hy : ∀ y ∈ ys, ¬ y.isNaN) :
    FltLexLt xs ys ∨ FltAllEq xs ys ∨ FltLexLt ys xs := by
  obtain ⟨o, _, h2⟩ := threeWay_ofArray cmpFlt xs ys h
  rcases h2 with ⟨rfl, h2⟩ | ⟨hne, i, a1, a2, a3, a4⟩
  · exact Or.inr (Or.inl fun i h1 h2' => cmpFlt_eq.1 (h2 i h1 h2'))
  · have n1 := hx xs[i] (List.getElem_mem _)
    have n2 := hy ys[i] (List.getElem_mem _)
    have hp : ∀ j (hj : j < i), (xs[j]'(by omega) == ys[j]'(by omega)) = true := fun j hj => cmpFlt_eq.1 (a4 j hj)
    rcases lt_trichotomy xs[i].key ys[i].key with hk | hk | hk
    · exact Or.inl ⟨i, a1, a2, ⟨n1, n2, hk⟩, hp⟩
    · exfalso; apply hne; rw [← a3]; unfold cmpFlt; rw [if_neg (by tauto), hk]; simp
    · exact Or.inr (Or.inr ⟨i, a2, a1, ⟨n2, n1, hk⟩, fun j hj => by rw [beq_symm']; exact hp j hj⟩)

/-- C110: if the first coordinates that are not equal include NaN, the points are unordered and not equal; in particular a point
with a NaN coordinate is not equal to itself. -/
theorem c110_nan (xs ys : List (Flt F)) (i : Nat) (h1 : i < xs.length) (h2 : i < ys.length)
    (hp : ∀ j (hj : j < i), (xs[j]'(by omega) == ys[j]'(by omega)) = true) (hn : xs[i].isNaN ∨ ys[i].isNaN) :
    ¬ FltLexLt xs ys ∧ ¬ FltLexLt ys xs ∧ ¬ FltAllEq xs ys := by
  have hne : ¬ (xs[i] == ys[i]) = true := by
    intro h
    have := cmpFlt_eq.2 h
    unfold cmpFlt at this
    rw [if_pos hn] at this; cases this
  obtain ⟨d1, d2⟩ := fltLex_disj xs ys i h1 h2 hne hp
  obtain ⟨d3, _⟩ := fltLex_disj ys xs i h2 h1 (by rw [beq_symm']; exact hne) (fun j hj => by rw [beq_symm']; exact hp j hj)
  rw [d1, d3]
  refine ⟨fun h => hn.elim h.1 h.2.1, fun h => hn.elim h.2.1 h.1, d2⟩

end FloatOrder

/-- In the small format: -0 and 0 are equal coordinates; a NaN in the second place makes points with equal first coordinates
unordered, and does not matter otherwise. -/
example : Point.equal (· == ·) (Point.ofArray [(⟨true, 0⟩ : Flt .tiny), ⟨false, 12⟩]) (Point.ofArray [⟨false, 0⟩, ⟨false, 12⟩]) = .ok true ∧
    Point.le cmpFlt (Point.ofArray [(⟨false, 12⟩ : Flt .tiny), ⟨false, 30⟩]) (Point.ofArray [⟨false, 12⟩, ⟨false, 30⟩]) = .ok false ∧
    Point.lt cmpFlt (Point.ofArray [(⟨false, 11⟩ : Flt .tiny), ⟨false, 30⟩]) (Point.ofArray [⟨false, 12⟩, ⟨false, 30⟩]) = .ok true := by
  decide +kernel

/-! ## C111 -/

private theorem loop_spec (text : α → List Char) (p : Point α) : ∀ (rest done : List α) (out : List Char),
    p = Point.ofArray (done ++ rest) →
    Point.print.loop text p out done.length rest.length =
      .ok (out ++ (rest.map fun x => ", ".toList ++ text x).flatten) := by
  intro rest
  induction rest with
  | nil => intro done out _; simp [Point.print.loop]
  | cons x rest ih =>
    intro done out hp
    simp only [List.length_cons]
    unfold Point.print.loop
    have hg : p.get done.length = .ok x := by
      rw [hp]; unfold Point.get Point.ofArray; simp
    rw [hg, Outcome.bind_ok]
    have := ih (done ++ [x]) (out ++ ", ".toList ++ text x) (by rw [hp]; simp)
    rw [List.length_append] at this
    simp only [List.length_cons, List.length_nil] at this
    rw [this]
    simp

/-- C111: a point prints as `[ x, y, ... ]`: its coordinates separated by commas. -/
theorem c111_point (text : α → List Char) (x : α) (xs : List α) :
    Point.print text (Point.ofArray (x :: xs)) =
      .ok ("[ ".toList ++ (", ".toList).intercalate ((x :: xs).map text) ++ " ]".toList) := by
  unfold Point.print
  have hg : (Point.ofArray (x :: xs)).get 0 = .ok x := by unfold Point.get Point.ofArray; simp
  rw [hg, Outcome.bind_ok]
  have := loop_spec text (Point.ofArray (x :: xs)) xs [x] ("[ ".toList ++ text x) rfl
  have hd : (Point.ofArray (x :: xs)).dimensions - 1 = xs.length := by simp [Point.dimensions, Point.ofArray]
  simp only [List.length_cons, List.length_nil, Nat.zero_add] at this
  rw [hd]
  simp only [this, Outcome.bind_ok]
  have inter : ∀ (y : α) (ys : List α), text y ++ (ys.map fun x => ", ".toList ++ text x).flatten =
      (", ".toList).intercalate ((y :: ys).map text) := by
    intro y ys
    induction ys generalizing y with
    | nil => simp [List.intercalate]
    | cons z zs ih =>
      have := ih z
      simp only [List.map_cons, List.flatten_cons, List.append_assoc] at this ⊢
      rw [this]
      simp [List.intercalate, List.intersperse]
  show Outcome.ok _ = _
  congr 1
  rw [List.append_assoc ("[ ".toList), inter]

private theorem intercalate_inj (sep : Char) (sep' : List Char) : ∀ (us vs : List (List Char)),
    (∀ u ∈ us, sep ∉ u) → (∀ v ∈ vs, sep ∉ v) → us ≠ [] → vs ≠ [] →
    (sep :: sep').intercalate us = (sep :: sep').intercalate vs → us = vs := by
  have split : ∀ (u v a b : List Char), sep ∉ u → sep ∉ v → u ++ sep :: a = v ++ sep :: b → u = v ∧ a = b := by
    intro u
    induction u with
    | nil =>
      intro v a b _ hv h
      cases v with
      | nil => simpa using h
      | cons c v => simp only [List.nil_append, List.cons_append, List.cons.injEq] at h
                    exact absurd h.1 (fun e => hv (by simp [e]))
    | cons c u ih =>
      intro v a b hu hv h
      cases v with
      | nil => simp only [List.nil_append, List.cons_append, List.cons.injEq] at h
               exact absurd h.1 (fun e => hu (by simp [e]))
      | cons d v =>
        simp only [List.cons_append, List.cons.injEq] at h
        obtain ⟨e1, e2⟩ := ih v a b (fun h => hu (by simp [h])) (fun h => hv (by simp [h])) h.2
        exact ⟨by rw [h.1, e1], e2⟩
  intro us
  induction us with
  | nil => intro vs _ _ h; exact absurd rfl h
  | cons u us ih =>
    intro vs hu hv _ hvs h
    cases vs with
    | nil => exact absurd rfl hvs
    | cons v vs =>
      cases us with
      | nil =>
        cases vs with
        | nil => simpa [List.intercalate] using h
        | cons v' vs =>
          exfalso
          simp only [List.intercalate, List.intersperse, List.flatten_cons, List.flatten_nil, List.append_nil] at h
          apply hu u (by simp)
          rw [h]; simp
      | cons u' us =>
        cases vs with
        | nil =>
          exfalso
          simp only [List.intercalate, List.intersperse, List.flatten_cons, List.flatten_nil, List.append_nil] at h
          apply hv v (by simp)
          rw [← h]; simp
        | cons v' vs =>
          have e1 : ∀ (w w' : List Char) (ws : List (List Char)), (sep :: sep').intercalate (w :: w' :: ws) =
              w ++ sep :: (sep' ++ (sep :: sep').intercalate (w' :: ws)) := by
            intro w w' ws; simp [List.intercalate, List.intersperse]
          rw [e1, e1] at h
          obtain ⟨a, b⟩ := split _ _ _ _ (hu u (by simp)) (hv v (by simp)) h
          have b := List.append_cancel_left b
          rw [a, ih (v' :: vs) (fun w hw => hu w (by simp [hw])) (fun w hw => hv w (by simp [hw])) (by simp) (by simp) b]

/-- C111: the printed text determines the point, if the text of a coordinate determines the coordinate and has no comma: two
points, even of different dimensions, that print alike are the same. -/
theorem c111_point_injective (text : α → List Char) (hi : ∀ x y, text x = text y → x = y) (hc : ∀ x, ',' ∉ text x)
    (xs ys : List α) (hx : xs ≠ []) (hy : ys ≠ [])
    (h : Point.print text (Point.ofArray xs) = Point.print text (Point.ofArray ys)) : xs = ys := by
  cases xs with
  | nil => exact absurd rfl hx
  | cons x xs =>
    cases ys with
    | nil => exact absurd rfl hy
    | cons y ys =>
      rw [c111_point, c111_point] at h
      injection h with h
      have h := List.append_cancel_left (List.append_cancel_right h)
      have e := intercalate_inj ',' [' '] _ _ (by simp [hc]) (by simp [hc]) (by simp) (by simp) h
      exact (List.map_injective_iff.2 (fun a b => hi a b)) e

/-- C111: printing a point with an indeterminate coordinate is undefined. -/
theorem c111_point_uninit (text : α → List Char) (n : Nat) : Point.print text (Point.uninit n : Point α) = .ub := by
  unfold Point.print
  have : (Point.uninit n : Point α).get 0 = .ub := by
    unfold Point.get Point.uninit
    simp only [List.getElem?_replicate]
    split
    · rename_i h; split at h <;> simp_all
    · rfl
  rw [this]; rfl

/-- C111: ranges of every kind of bounds: the brackets are those of the bounds, and the printed text determines bounds and
kind of bounds. -/
theorem c111_range (text : α → List Char) (hi : ∀ x y, text x = text y → x = y) (hc : ∀ x, ',' ∉ text x) (lb hb lb' hb' : Boundary)
    (r : ValueRange α lb hb) (s : ValueRange α lb' hb') :
    r.print text = (if lb = .closed then ['['] else ['(']) ++ [' '] ++ text r.lo ++ [',', ' '] ++ text r.hi ++ [' '] ++
      (if hb = .closed then [']'] else [')']) ∧
    (r.print text = s.print text → lb = lb' ∧ hb = hb' ∧ r.lo = s.lo ∧ r.hi = s.hi) := by
  have form : ∀ (lb hb : Boundary) (r : ValueRange α lb hb), r.print text =
      (if lb = .closed then ['['] else ['(']) ++ [' '] ++ text r.lo ++ [',', ' '] ++ text r.hi ++ [' '] ++
      (if hb = .closed then [']'] else [')']) := by
    intro lb hb r
    cases lb <;> cases hb <;> simp [ValueRange.print]
  refine ⟨form lb hb r, fun h => ?_⟩
  rw [form, form] at h
  have ends : ∀ (b : Boundary), (if b = .closed then [']'] else [')']) = [if b = .closed then ']' else ')'] := by
    intro b; cases b <;> rfl
  have begins : ∀ (b : Boundary), (if b = .closed then ['['] else ['(']) = [if b = .closed then '[' else '('] := by
    intro b; cases b <;> rfl
  rw [ends, ends, begins, begins] at h
  have h2 := List.append_inj' h (by simp)
  obtain ⟨h1, h2⟩ := h2
  have eh : hb = hb' := by
    simp only [List.cons.injEq, and_true] at h2
    revert h2; cases hb <;> cases hb' <;> decide
  have h3 := List.append_cancel_right h1
  simp only [List.append_assoc, List.cons_append, List.nil_append, List.cons.injEq, true_and] at h3
  have el : lb = lb' := by
    have := h3.1
    revert this; cases lb <;> cases lb' <;> decide
  have e := intercalate_inj ',' [' '] [text r.lo, text r.hi] [text s.lo, text s.hi] (by simp [hc]) (by simp [hc]) (by simp)
    (by simp) (by simpa [List.intercalate, List.intersperse] using h3.2)
  simp only [List.cons.injEq, and_true] at e
  exact ⟨el, eh, hi _ _ e.1, hi _ _ e.2⟩

example : ValueRange.print (fun n : Nat => (toString n).toList) (⟨5, 17⟩ : ValueRange Nat .closed .opened) = "[ 5, 17 )".toList := by
  decide +kernel

example : Point.print (fun n : Nat => (toString n).toList) (Point.ofArray [1, 20, 3]) = .ok "[ 1, 20, 3 ]".toList := by
  decide +kernel

end Wite.Props
