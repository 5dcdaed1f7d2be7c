import Verif.Model.PointCalls
import Verif.Lemmas.NumTy
import Verif.Props.Point
import Verif.Props.Index

/-!
# Properties C189, C190: points, ids, bounded values and indices given numbers of other types
-/

namespace Wite.Props

open Wite Wite.Maths Wite.Geometry Wite.ResultCalls

private theorem wide_holds {s t : NumTy} (ht : ∃ y, t.ok y) (h : narrowing s t = false) (q : ℚ) (hq : s.Holds q) : t.Holds q := by
  cases s with
  | int s =>
    cases t with
    | int t =>
      obtain ⟨v, h1, h2, h3⟩ := NumTy.holds_int.1 hq
      simp only [narrowing, Bool.not_eq_false', decide_eq_true_eq] at h
      have hb : 0 < t.bits := ht.choose_spec.1
      exact NumTy.holds_int.2 ⟨v, hb, ⟨h.1.trans h2.1, h2.2.trans h.2⟩, h3⟩
    | flt G => simp [narrowing] at h
  | flt F =>
    cases t with
    | int t => simp [narrowing] at h
    | flt G =>
      simp only [narrowing, Bool.not_eq_false', decide_eq_true_eq] at h
      obtain ⟨x, h1, h2⟩ := NumTy.holds_flt.1 hq
      have := Flt.convert_exact (F := F) (G := G) h h1
      exact NumTy.holds_flt.2 ⟨_, this.1, this.2.trans h2⟩

private theorem wide_self (s : NumTy) : narrowing s s = false := by cases s <;> simp [narrowing]

/-- The number an argument stands for, if it has the value of some object of its type. -/
def NumArg.Stands (a : NumArg) (q : ℚ) : Prop := a.1.ok a.2 ∧ a.1.num a.2 = some q

/-- A point has these numbers as its coordinates. -/
def HasCoordinates (t : NumTy) (p : Point t.Val) (qs : List ℚ) : Prop :=
  p.dimensions = qs.length ∧ ∀ (i : Nat) q, qs[i]? = some q → ∃ y, p.get i = .ok y ∧ t.num y = some q

private theorem ofArray_has (t : NumTy) (xs : List t.Val) (qs : List ℚ) (h : List.Forall₂ (fun x q => t.num x = some q) xs qs) :
    HasCoordinates t (Point.ofArray xs) qs := by
  refine ⟨by simp [Point.dimensions, Point.ofArray, h.length_eq], ?_⟩
  induction h with
  | nil => intro i q hq; simp at hq
  | @cons x q' xs qs hx hr ih =>
    intro i q hq
    cases i with
    | zero =>
      rw [List.getElem?_cons_zero] at hq
      exact ⟨x, rfl, by rw [hx, Option.some_inj.1 hq]⟩
    | succ i =>
      obtain ⟨y, h1, h2⟩ := ih i q (by simpa using hq)
      exact ⟨y, by simpa [Point.get, Point.ofArray] using h1, h2⟩

private theorem convertAll_num (t : NumTy) (args : List NumArg) (qs : List ℚ)
    (h : List.Forall₂ (fun a q => NumArg.Stands a q ∧ t.Holds q) args qs) :
    ∃ xs, PointCalls.convertAll t args = .ok xs ∧ List.Forall₂ (fun x q => t.num x = some q) xs qs := by
  induction h with
  | nil => exact ⟨[], rfl, .nil⟩
  | @cons a q as qs ha hr ih =>
    obtain ⟨xs, h1, h2⟩ := ih
    obtain ⟨y, h3, h4, _⟩ := NumTy.convert_num a.1 t a.2 q ha.1.2 ha.2
    refine ⟨y :: xs, ?_, .cons h4 h2⟩
    rw [PointCalls.convertAll, h3, h1]; rfl

private theorem all_held (t : NumTy) (ht : ∃ y, t.ok y) (args : List NumArg) (qs : List ℚ) (h : List.Forall₂ NumArg.Stands args qs)
    (hc : ∀ a ∈ args, (!narrowing a.1 t) = true) : List.Forall₂ (fun a q => NumArg.Stands a q ∧ t.Holds q) args qs := by
  induction h with
  | nil => exact .nil
  | @cons b p bs ps hb hrest ih =>
    refine .cons ⟨hb, ?_⟩ (ih (fun x hx => hc x (List.mem_cons_of_mem _ hx)))
    have := hc b (List.mem_cons_self ..)
    exact wide_holds ht (by simpa using this) p ⟨b.2, hb.1, hb.2⟩

private theorem sameType_num (t : NumTy) (args : List NumArg) (qs : List ℚ) (xs : List t.Val)
    (h : List.Forall₂ NumArg.Stands args qs) (hs : PointCalls.sameType t args = some xs) :
    List.Forall₂ (fun x q => t.num x = some q) xs qs := by
  induction h generalizing xs with
  | nil => cases hs; exact .nil
  | @cons a q as qs ha hr ih =>
    obtain ⟨s, x⟩ := a
    rw [PointCalls.sameType] at hs
    split at hs
    · rename_i he
      subst he
      cases hr' : PointCalls.sameType s as with
      | none => rw [hr'] at hs; cases hs
      | some ys =>
        rw [hr'] at hs
        cases hs
        exact .cons ha.2 (ih ys hr')
    · cases hs

private theorem sameType_iff (t : NumTy) (args : List NumArg) :
    (∃ xs, PointCalls.sameType t args = some xs) ↔ ∀ a ∈ args, a.1 = t := by
  induction args with
  | nil => simp [PointCalls.sameType]
  | cons a as ih =>
    obtain ⟨s, x⟩ := a
    rw [PointCalls.sameType, List.forall_mem_cons, ← ih]
    by_cases he : s = t
    · rw [dif_pos he]
      cases h : PointCalls.sameType t as <;> simp [he]
    · rw [dif_neg he]; simp [he]

private theorem sameType_length (t : NumTy) (args : List NumArg) (xs : List t.Val) (h : PointCalls.sameType t args = some xs) :
    xs.length = args.length := by
  induction args generalizing xs with
  | nil => cases h; rfl
  | cons a as ih =>
    obtain ⟨s, x⟩ := a
    rw [PointCalls.sameType] at h
    split at h
    · rename_i he
      subst he
      cases hr' : PointCalls.sameType s as with
      | none => rw [hr'] at h; cases h
      | some ys => rw [hr'] at h; cases h; simp [ih ys hr']
    · cases h

private theorem initList_full (t : NumTy) (xs : List t.Val) (qs : List ℚ)
    (h : List.Forall₂ (fun x q => t.num x = some q) xs qs) :
    ∃ p, Point.ofInitList xs.length xs = .ok p ∧ HasCoordinates t p qs := by
  obtain ⟨p, h1, h2, h3, _⟩ := c72_partial xs.length xs (le_refl _)
  refine ⟨p, h1, by rw [h2, h.length_eq], ?_⟩
  have ho := (ofArray_has t xs qs h).2
  intro i q hq
  obtain ⟨y, hy, hn⟩ := ho i q hq
  have hi : i < xs.length := by
    rw [h.length_eq]
    exact (List.getElem?_eq_some_iff.1 hq).1
  refine ⟨y, ?_, hn⟩
  rw [h3 i hi]
  unfold Point.get Point.ofArray at hy
  rw [List.getElem?_map, List.getElem?_eq_getElem hi] at hy
  exact hy

/-! ## C189 -/

/-- C189, the construction of points: in parentheses or in braces, of `point` or of `point_2d` and its like, with as many numbers as
there are dimensions, of whatever types: if it compiles, the coordinates are the numbers given. -/
theorem c189_points_kept (n : Nat) (t : NumTy) (ht : ∃ y, t.ok y) (zero : t.Val) (args : List NumArg) (qs : List ℚ)
    (hargs : List.Forall₂ NumArg.Stands args qs) (hn : args.length = n) (hpos : 0 < n) (o : Outcome (Point t.Val))
    (ho : PointCalls.parens n t args = some o ∨ PointCalls.braces n t zero args = some o ∨ PointCalls.named n t zero args = some o) :
    ∃ p, o = .ok p ∧ HasCoordinates t p qs := by
  have hbr : ∀ o, PointCalls.braces n t zero args = some o → ∃ p, o = .ok p ∧ HasCoordinates t p qs := by
    intro o ho
    cases hargs with
    | nil => simp at hn; omega
    | @cons a q as qs ha hr =>
      unfold PointCalls.braces at ho
      simp only at ho
      split at ho
      · rename_i hc
        rw [List.all_eq_true] at hc
        have hall := all_held t ht _ _ (List.Forall₂.cons ha hr) hc
        obtain ⟨xs, h1, h2⟩ := convertAll_num t _ _ hall
        obtain ⟨p, h3, h4⟩ := initList_full t xs _ h2
        have hl : xs.length = n := by rw [h2.length_eq, ← hall.length_eq, hn]
        refine ⟨p, ?_, h4⟩
        cases ho
        rw [h1, ← hl]
        exact h3
      · cases ho
  rcases ho with ho | ho | ho
  · unfold PointCalls.parens at ho
    rw [if_pos hn] at ho
    split at ho
    · rename_i x xs hs
      cases ho
      obtain ⟨h1, _⟩ := c71_construct x xs
      exact ⟨_, h1, ofArray_has t _ _ (sameType_num t args qs _ hargs hs)⟩
    · cases ho
  · exact hbr o ho
  · unfold PointCalls.named at ho
    rw [if_pos hn] at ho
    exact hbr o ho

/-- C189 fails at compile time for points in parentheses: `point<n, t>(...)` compiles exactly if every argument has type `t` itself,
while `point_2d` and its like take exactly the types without narrowing, and none of their arguments may be an integer for a floating-point
coordinate. -/
theorem c189_refuted_parens (t : NumTy) (zero : t.Val) (args : List NumArg) (hpos : args ≠ []) :
    (PointCalls.parens args.length t args ≠ none ↔ ∀ a ∈ args, a.1 = t) ∧
    (PointCalls.named args.length t zero args ≠ none ↔ ∀ a ∈ args, narrowing a.1 t = false) ∧
    (∀ (s : IntTy) (F : Fmt), t = .flt F → (∃ a ∈ args, a.1 = .int s) → PointCalls.named args.length t zero args = none) := by
  have hnamed : PointCalls.named args.length t zero args ≠ none ↔ ∀ a ∈ args, narrowing a.1 t = false := by
    unfold PointCalls.named
    rw [if_pos rfl]
    cases args with
    | nil => exact absurd rfl hpos
    | cons a as =>
      unfold PointCalls.braces
      by_cases h : ((a :: as).all fun a => !narrowing a.1 t) = true
      · simp only [if_pos h]
        rw [List.all_eq_true] at h
        simp only [ne_eq, reduceCtorEq, not_false_eq_true, true_iff]
        intro b hb; simpa using h b hb
      · simp only [if_neg h]
        simp only [ne_eq, not_true_eq_false, false_iff]
        intro h'; apply h; rw [List.all_eq_true]; intro b hb; simp [h' b hb]
  refine ⟨?_, hnamed, ?_⟩
  · rw [← sameType_iff]
    unfold PointCalls.parens
    rw [if_pos rfl]
    constructor
    · intro h
      cases hs : PointCalls.sameType t args with
      | none => rw [hs] at h; exact absurd rfl h
      | some xs => exact ⟨xs, rfl⟩
    · rintro ⟨xs, hs⟩
      have hl := sameType_length t args xs hs
      cases xs with
      | nil => exact absurd (List.length_eq_zero_iff.1 hl.symm) hpos
      | cons x xs => rw [hs]; simp
  · rintro s F rfl ⟨a, ha, hs⟩
    by_contra h
    have := hnamed.1 h a ha
    rw [hs] at this
    cases this

private theorem shifted (t : IntTy) (hb : 0 < t.bits) (n m : Int) (hn : t.holds n) : t.wrap (n + m * 2 ^ t.bits) = n := by
  have h := IntTy.wrap_of_holds hb hn
  unfold IntTy.wrap at h ⊢
  rw [show n + m * 2 ^ t.bits - t.minValue = (n - t.minValue) + m * 2 ^ t.bits by ring, Int.add_mul_emod_self_right]
  exact h

/-- C189, a part that holds: setting a coordinate to a number its type has makes it this number; an id and a bounded value made of such
a number have it as their value; and in braces ids and bounded values that compile always keep the number. -/
theorem c189_same_number_partial (s t : NumTy) (x : s.Val) (q : ℚ) (hok : s.ok x) (hx : s.num x = some q) :
    (t.Holds q →
      (∀ (p : Point t.Val) (d : Nat), d < p.dimensions →
        ∃ p' y, PointCalls.setArg s t p d x = .ok p' ∧ p'.get d = .ok y ∧ t.num y = some q ∧ ∀ e, e ≠ d → p'.get e = p.get e) ∧
      (∃ i : Id t.Val, IdCalls.parens s t x = .ok i ∧ t.num i.value = some q) ∧
      (∀ {lb hb : Boundary} (r : ValueRange t.Val lb hb),
        ∃ v, BoundedCalls.parens s t x r = .ok v ∧ t.num v.value = some q ∧ v.bounds = r)) ∧
    ((∃ y, t.ok y) →
      (∀ o, IdCalls.braces s t x = some o → ∃ i, o = .ok i ∧ t.num i.value = some q) ∧
      (∀ {lb hb : Boundary} (r : ValueRange t.Val lb hb) o, BoundedCalls.braces s t x r = some o →
        ∃ v, o = .ok v ∧ t.num v.value = some q ∧ v.bounds = r)) := by
  have main : t.Holds q → ∃ y, s.convert t x = .ok y ∧ t.num y = some q := fun h => by
    obtain ⟨y, h1, h2, _⟩ := NumTy.convert_num s t x q hx h
    exact ⟨y, h1, h2⟩
  refine ⟨fun h => ?_, fun ht => ⟨fun o ho => ?_, fun r o ho => ?_⟩⟩
  · obtain ⟨y, h1, h2⟩ := main h
    refine ⟨fun p d hd => ?_, ⟨⟨y⟩, by unfold IdCalls.parens; rw [h1]; rfl, h2⟩,
      fun r => ⟨⟨y, r⟩, by unfold BoundedCalls.parens; rw [h1]; rfl, h2, rfl⟩⟩
    obtain ⟨p', h3, _, h4, h5⟩ := c71_get_set p d y hd
    exact ⟨p', y, by unfold PointCalls.setArg; rw [h1]; exact h3, h4, h2, h5⟩
  · unfold IdCalls.braces at ho
    split at ho
    · cases ho
    · rename_i hn
      obtain ⟨y, h1, h2⟩ := main (wide_holds ht (by simpa using hn) q ⟨x, hok, hx⟩)
      refine ⟨⟨y⟩, ?_, h2⟩
      cases ho; unfold IdCalls.parens; rw [h1]; rfl
  · unfold BoundedCalls.braces at ho
    split at ho
    · cases ho
    · rename_i hn
      obtain ⟨y, h1, h2⟩ := main (wide_holds ht (by simpa using hn) q ⟨x, hok, hx⟩)
      refine ⟨⟨y, r⟩, ?_, h2, rfl⟩
      cases ho; unfold BoundedCalls.parens; rw [h1]; rfl

/-- C189 fails for integers the type does not have: coordinates, ids and bounded values become the remainder.  So ids made of different
numbers are equal, and a bounded value is judged by the remainder. -/
theorem c189_refuted_wrap (s t : IntTy) (n m : Int) (hb : 0 < t.bits) (hn : t.holds n) :
    (∀ (p : Point Int) (d : Nat), PointCalls.setArg (.int s) (.int t) p d (n + m * 2 ^ t.bits : Int) = p.set d n) ∧
    IdCalls.parens (.int s) (.int t) (n + m * 2 ^ t.bits : Int) = .ok (⟨n⟩ : Id Int) ∧
    (∀ {lb hb : Boundary} (r : ValueRange (NumTy.int t).Val lb hb),
      BoundedCalls.parens (.int s) (.int t) (n + m * 2 ^ t.bits : Int) r = .ok ⟨n, r⟩) := by
  have hc : NumTy.convert (.int s) (.int t) (n + m * 2 ^ t.bits : Int) = .ok (n : Int) := congrArg Outcome.ok (shifted t hb n m hn)
  refine ⟨fun p d => ?_, ?_, fun r => ?_⟩
  · unfold PointCalls.setArg; rw [hc]; rfl
  · unfold IdCalls.parens; rw [hc]; rfl
  · unfold BoundedCalls.parens; rw [hc]; rfl

/-- C189 fails for fractions given for integers: they are cut off, and where the rest does not fit the behaviour is undefined. -/
theorem c189_refuted_fraction (t : IntTy) (F : Fmt) (x : Flt F) (hx : x.finite) :
    (∀ (p : Point Int) (d : Nat), PointCalls.setArg (.flt F) (.int t) p d x =
      if t.holds (Int.tdiv x.value.num x.value.den) then p.set d (Int.tdiv x.value.num x.value.den) else .ub) ∧
    IdCalls.parens (.flt F) (.int t) x =
      if t.holds (Int.tdiv x.value.num x.value.den) then .ok (⟨Int.tdiv x.value.num x.value.den⟩ : Id Int) else .ub := by
  have hc : NumTy.convert (.flt F) (.int t) x =
      if t.holds (Int.tdiv x.value.num x.value.den) then .ok (Int.tdiv x.value.num x.value.den : Int) else .ub := by
    show truncFlt t x = _
    unfold truncFlt truncTo
    rw [if_pos hx]; rfl
  constructor
  · intro p d
    unfold PointCalls.setArg
    rw [hc]
    split <;> rfl
  · unfold IdCalls.parens
    rw [hc]
    split <;> rfl

/-! `point_2d<double>(1, 2)` does not compile, `point<2, double>(1.0f, 2.0f)` neither, `point_2d<double>(1.0f, 2.0f)` does;
`id<T, int>(4294967303)` is `id<T, int>(7)`. -/

private def one : Flt .single := ⟨false, 0x3f800000⟩
private def two : Flt .single := ⟨false, 0x40000000⟩

example (zero : Flt .double) :
    PointCalls.named 2 (.flt .double) zero [⟨.int .int, (1 : Int)⟩, ⟨.int .int, (2 : Int)⟩] = none ∧
    PointCalls.parens 2 (.flt .double) [⟨.flt .single, one⟩, ⟨.flt .single, two⟩] = none ∧
    PointCalls.named 2 (.flt .double) zero [⟨.flt .single, one⟩, ⟨.flt .single, two⟩] ≠ none := by
  refine ⟨(c189_refuted_parens (.flt .double) zero _ (by simp)).2.2 .int .double rfl ⟨_, List.mem_cons_self .., rfl⟩, ?_, ?_⟩
  · by_contra h
    have := (c189_refuted_parens (.flt .double) zero [⟨.flt .single, one⟩, ⟨.flt .single, two⟩] (by simp)).1.1 h _ (List.mem_cons_self ..)
    exact absurd this (by decide)
  · refine (c189_refuted_parens (.flt .double) zero [⟨.flt .single, one⟩, ⟨.flt .single, two⟩] (by simp)).2.1.2 ?_
    simp [narrowing, Fmt.single, Fmt.double]
example : IdCalls.parens (.int ⟨64, true⟩) (.int .int) (4294967303 : Int) = .ok (⟨7⟩ : Id Int) := rfl

/-! ## C190 -/

open IndexCalls

private theorem sizeTy_holds (v : Int) : sizeTy.holds v ↔ 0 ≤ v ∧ v < 2 ^ 64 := by
  unfold IntTy.holds IntTy.minValue IntTy.maxValue sizeTy; simp; omega

private theorem offsetTy_holds (v : Int) : offsetTy.holds v ↔ -(2 ^ 63) ≤ v ∧ v < 2 ^ 63 := by
  unfold IntTy.holds IntTy.minValue IntTy.maxValue offsetTy; simp; omega

private theorem int_of_flt {F : Fmt} (t : IntTy) (x : Flt F) (hx : x.finite) :
    NumTy.convert (.flt F) (.int t) x =
      if t.holds (Int.tdiv x.value.num x.value.den) then .ok (Int.tdiv x.value.num x.value.den : Int) else .ub := by
  show truncFlt t x = _
  unfold truncFlt truncTo
  rw [if_pos hx]; rfl

/-- C190, the part that holds: an index made of a number that is a `size_t` is this number, whatever the type of the number; and in every
build moving an index by a number within the offsets (other than the most negative one) gives the exact sum or difference if that is
an index. -/
theorem c190_exact_partial (b : Build) (s : NumTy) (x : s.Val) (k : Int) (hx : s.num x = some (k : ℚ)) :
    (0 ≤ k → k < 2 ^ 64 → IndexCalls.parens s x = .ok k.toNat) ∧
    (-(2 ^ 63) < k → k < 2 ^ 63 → ∀ i v : Nat, i < 2 ^ 64 → v < 2 ^ 64 →
      ((i : Int) + k = v → addArg b s i x = .ok v) ∧ ((i : Int) - k = v → subArg b s i x = .ok v)) := by
  constructor
  · intro h0 h1
    obtain ⟨y, h2, h3, _⟩ := NumTy.convert_num s (.int sizeTy) x k hx
      (NumTy.holds_int.2 ⟨k, by decide, (sizeTy_holds k).2 ⟨h0, h1⟩, rfl⟩)
    have hy : y = (k : Int) := Int.cast_injective (α := ℚ) (NumTy.num_int.1 h3)
    unfold IndexCalls.parens
    rw [h2, hy]; rfl
  · intro h0 h1 i v hi hv
    obtain ⟨y, h2, h3, _⟩ := NumTy.convert_num s (.int offsetTy) x k hx
      (NumTy.holds_int.2 ⟨k, by decide, (offsetTy_holds k).2 ⟨by omega, h1⟩, rfl⟩)
    have hy : y = (k : Int) := Int.cast_injective (α := ℚ) (NumTy.num_int.1 h3)
    constructor
    · intro h
      unfold addArg
      rw [h2, hy]
      exact (c55_add_exact b i v k hi ⟨h0, h1⟩ h hv).1
    · intro h
      unfold subArg
      rw [h2, hy]
      exact (c55_sub_exact b i v k hi ⟨h0, h1⟩ h hv).1

/-- C190 fails for unsigned offsets above `2^63`: a debug build rejects exactly the additions whose sum is an index and lets exactly those through that
overflow, and rejects exactly the subtractions whose difference is an index and lets exactly those through that go below 0. -/
theorem c190_refuted_unsigned (i k : Nat) (hi : i < 2 ^ 64) (hk : 2 ^ 63 < k ∧ k < 2 ^ 64) :
    (i + k < 2 ^ 64 → addArg .debug (.int sizeTy) i (k : Int) = .throw (.assertion "Index underflow")) ∧
    (2 ^ 64 ≤ i + k → addArg .debug (.int sizeTy) i (k : Int) = .ok (i + k - 2 ^ 64)) ∧
    (k ≤ i → subArg .debug (.int sizeTy) i (k : Int) = .throw (.assertion "Index overflow")) ∧
    (i < k → subArg .debug (.int sizeTy) i (k : Int) = .ok (i + 2 ^ 64 - k)) := by
  have hw : offsetTy.wrap k = (k : Int) - 2 ^ 64 := by
    unfold IntTy.wrap IntTy.minValue offsetTy; simp; omega
  have hc : NumTy.convert (.int sizeTy) (.int offsetTy) (k : Int) = .ok ((k : Int) - 2 ^ 64 : Int) := congrArg Outcome.ok hw
  have ha : addArg .debug (.int sizeTy) i (k : Int) = Index.add .debug i ((k : Int) - 2 ^ 64) := by
    unfold addArg; rw [hc]; rfl
  have hs : subArg .debug (.int sizeTy) i (k : Int) = Index.sub .debug i ((k : Int) - 2 ^ 64) := by
    unfold subArg; rw [hc]; rfl
  have hr : -(2 ^ 63) < (k : Int) - 2 ^ 64 ∧ (k : Int) - 2 ^ 64 < 2 ^ 63 := by omega
  obtain ⟨_, a2, _, a4⟩ := c56_add i _ hi hr
  obtain ⟨s1, _, _, s4⟩ := c56_sub i _ hi hr
  refine ⟨fun h => ?_, fun h => ?_, fun h => ?_, fun h => ?_⟩
  · rw [ha, a4]; exact a2.2 (by omega)
  · rw [ha]; exact (c55_add_exact .debug i _ _ hi hr (by omega) (by omega)).1
  · rw [hs, s4]; exact s1.2 (by omega)
  · rw [hs]; exact (c55_sub_exact .debug i _ _ hi hr (by omega) (by omega)).1

/-- C190 fails for the unsigned offset `2^63`: in a debug build every addition and subtraction of it is undefined. -/
theorem c190_refuted_half (i : Nat) :
    addArg .debug (.int sizeTy) i (2 ^ 63 : Int) = .ub ∧ subArg .debug (.int sizeTy) i (2 ^ 63 : Int) = .ub := by
  have hw : offsetTy.wrap (2 ^ 63) = -(2 ^ 63) := by decide
  have hc : NumTy.convert (.int sizeTy) (.int offsetTy) (2 ^ 63 : Int) = .ok (-(2 ^ 63) : Int) := congrArg Outcome.ok hw
  obtain ⟨h1, h2⟩ := c56_most_negative i
  constructor
  · unfold addArg; rw [hc]; exact h1
  · unfold subArg; rw [hc]; exact h2

/-- C190 fails for numbers that are no `size_t`: an index made of an integer is its remainder, so of a negative number it is a large
index; in braces, every signed type is refused, even for numbers that are not negative. -/
theorem c190_refuted_make (s : IntTy) (k : Int) :
    IndexCalls.parens (.int s) k = .ok (k % 2 ^ 64).toNat ∧
    (s.signed = true → IndexCalls.braces (.int s) k = none) ∧
    (s.signed = false → s.bits ≤ 64 → IndexCalls.braces (.int s) k = some (.ok (k % 2 ^ 64).toNat)) := by
  have hp : IndexCalls.parens (.int s) k = .ok (k % 2 ^ 64).toNat := by
    show Outcome.ok (Int.toNat (sizeTy.wrap k)) = _
    congr 2
    unfold IntTy.wrap IntTy.minValue sizeTy; simp
  refine ⟨hp, fun h => ?_, fun h hb => ?_⟩
  · have : narrowing (.int s) (.int sizeTy) = true := by
      simp only [narrowing, Bool.not_eq_true', decide_eq_false_iff_not]
      intro hc
      have h1 : s.minValue < 0 := by
        unfold IntTy.minValue; rw [if_pos h]
        have : (0 : Int) < 2 ^ (s.bits - 1) := Int.pow_pos (by omega)
        omega
      have : sizeTy.minValue = 0 := rfl
      omega
    exact if_pos this
  · have : narrowing (.int s) (.int sizeTy) = false := by
      simp only [narrowing, Bool.not_eq_false', decide_eq_true_eq]
      unfold IntTy.minValue IntTy.maxValue
      rw [h]
      simp only [sizeTy, Bool.false_eq_true, if_false, le_refl, true_and]
      have : (2 : Int) ^ s.bits ≤ 2 ^ 64 := by exact_mod_cast Nat.pow_le_pow_right (by omega) hb
      omega
    refine (if_neg (by rw [this]; simp)).trans ?_
    exact congrArg some hp

/-- C190 fails for fractions: in every build an index moves by the number cut off towards zero, so by a fraction below one it does not
move at all. -/
theorem c190_refuted_fraction (b : Build) (F : Fmt) (x : Flt F) (hx : x.finite) (i : Nat)
    (hr : offsetTy.holds (Int.tdiv x.value.num x.value.den)) :
    addArg b (.flt F) i x = Index.add b i (Int.tdiv x.value.num x.value.den) ∧
    subArg b (.flt F) i x = Index.sub b i (Int.tdiv x.value.num x.value.den) ∧
    (i < 2 ^ 64 → |x.value| < 1 → addArg b (.flt F) i x = .ok i) := by
  have hc := int_of_flt offsetTy x hx
  rw [if_pos hr] at hc
  have ha : addArg b (.flt F) i x = Index.add b i (Int.tdiv x.value.num x.value.den) := by
    unfold addArg; rw [hc]; rfl
  refine ⟨ha, ?_, fun hi h1 => ?_⟩
  · unfold subArg; rw [hc]; rfl
  · have hz : Int.tdiv x.value.num x.value.den = 0 := by
      rw [abs_lt] at h1
      have hd : (0 : ℚ) < x.value.den := by exact_mod_cast x.value.den_pos
      have e : (x.value.num : ℚ) = x.value * x.value.den := (Rat.mul_den_eq_num _).symm
      have a1 : (x.value.num : ℚ) < x.value.den := by rw [e]; nlinarith [h1.2]
      have a2 : -(x.value.den : ℚ) < x.value.num := by rw [e]; nlinarith [h1.1]
      have a1' : x.value.num < x.value.den := by exact_mod_cast a1
      have a2' : -(x.value.den : Int) < x.value.num := by exact_mod_cast a2
      by_cases hs : 0 ≤ x.value.num
      · exact Int.tdiv_eq_zero_of_lt hs a1'
      · have := Int.tdiv_eq_zero_of_lt (a := -x.value.num) (b := x.value.den) (by omega) (by omega)
        rw [Int.neg_tdiv] at this; omega
    rw [ha, hz]
    exact (c55_add_exact b i i 0 hi (by decide) (by simp) hi).1

/-! In a debug build index 5 plus `size_t` 2^63 + 1 is an underflow, and 2^63 plus `size_t` 2^63 + 1 is 1; `index(-1)` is 2^64 - 1. -/

example : addArg .debug (.int sizeTy) 5 (2 ^ 63 + 1 : Int) = .throw (.assertion "Index underflow") ∧
    addArg .debug (.int sizeTy) (2 ^ 63) (2 ^ 63 + 1 : Int) = .ok 1 :=
  ⟨(c190_refuted_unsigned 5 (2 ^ 63 + 1) (by omega) (by omega)).1 (by omega),
   (c190_refuted_unsigned (2 ^ 63) (2 ^ 63 + 1) (by omega) (by omega)).2.1 (by omega)⟩
example : IndexCalls.parens (.int .int) (-1 : Int) = .ok (2 ^ 64 - 1) := (c190_refuted_make .int (-1)).1

end Wite.Props
