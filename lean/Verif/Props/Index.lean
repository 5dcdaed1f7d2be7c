import Verif.Model.Index

/-!
# Properties C55–C57: `index` and `id`
-/

namespace Wite.Props

open Wite Wite.Index

/-- A value of type `size_t`. -/
private abbrev U (i : Nat) : Prop := i < 2 ^ 64

/-- A signed offset other than the most negative one. -/
private abbrev S (k : Int) : Prop := -(2 ^ 63) < k ∧ k < 2 ^ 63

private theorem toUnsigned_nonneg {k : Int} (h0 : 0 ≤ k) (h1 : k < 2 ^ 64) : (toUnsigned k : Int) = k := by
  unfold toUnsigned modulus; omega

private theorem toUnsigned_neg {k : Int} (h0 : k < 0) (h1 : -(2 ^ 64) < k) : (toUnsigned k : Int) = k + 2 ^ 64 := by
  unfold toUnsigned modulus; omega

private theorem negate_eq {k : Int} (h : S k) : negate k = .ok (-k) := by
  unfold negate; rw [if_neg (by have := h.1; omega)]

/-- The result of `+=`, all cases. -/
private theorem addAssign_eq (b : Build) {i : Nat} {k : Int} (hi : U i) (hk : S k) :
    addAssign b i k =
      if b ≠ .release ∧ (i : Int) + k ≥ 2 ^ 64 then debugAssert b false "Index overflow" >>= fun _ => .ub
      else if b ≠ .release ∧ (i : Int) + k < 0 then debugAssert b false "Index underflow" >>= fun _ => .ub
      else .ok ((((i : Int) + k) % 2 ^ 64).toNat) := by
  have hend : (i + toUnsigned k) % modulus = (((i : Int) + k) % 2 ^ 64).toNat := by
    unfold toUnsigned modulus; omega
  cases b with
  | release => simp [addAssign, hend]
  | debug =>
    by_cases hp : k > 0
    · have h1 := toUnsigned_nonneg (k := k) (by omega) (by have := hk.2; omega)
      have hmax : (maxValue + (modulus - toUnsigned k)) % modulus = 2 ^ 64 - 1 - toUnsigned k := by
        unfold maxValue modulus; have := hk.2; omega
      have hk2 := hk.2
      by_cases ho : (i : Int) + k ≥ 2 ^ 64
      · have : ¬(i ≤ 2 ^ 64 - 1 - toUnsigned k) := by omega
        simp [addAssign, hp, hmax, debugAssert, this, ho] <;> (intros; omega)
      · have : i ≤ 2 ^ 64 - 1 - toUnsigned k := by omega
        have h3 : ¬((i : Int) + k < 0) := by omega
        simp [addAssign, hp, hmax, debugAssert, this, ho, hend, h3] <;> (intros; omega)
    · have h1 := toUnsigned_nonneg (k := -k) (by omega) (by have := hk.1; omega)
      have h3 : ¬((i : Int) + k ≥ 2 ^ 64) := by omega
      by_cases ho : (i : Int) + k < 0
      · have : ¬(toUnsigned (-k) ≤ i) := by omega
        simp [addAssign, hp, negate_eq hk, debugAssert, this, ho, h3] <;> (intros; omega)
      · have : toUnsigned (-k) ≤ i := by omega
        simp [addAssign, hp, negate_eq hk, debugAssert, this, ho, h3, hend] <;> (intros; omega)
  | aborting =>
    by_cases hp : k > 0
    · have h1 := toUnsigned_nonneg (k := k) (by omega) (by have := hk.2; omega)
      have hmax : (maxValue + (modulus - toUnsigned k)) % modulus = 2 ^ 64 - 1 - toUnsigned k := by
        unfold maxValue modulus; have := hk.2; omega
      have hk2 := hk.2
      by_cases ho : (i : Int) + k ≥ 2 ^ 64
      · have : ¬(i ≤ 2 ^ 64 - 1 - toUnsigned k) := by omega
        simp [addAssign, hp, hmax, debugAssert, this, ho] <;> (intros; omega)
      · have : i ≤ 2 ^ 64 - 1 - toUnsigned k := by omega
        have h3 : ¬((i : Int) + k < 0) := by omega
        simp [addAssign, hp, hmax, debugAssert, this, ho, hend, h3] <;> (intros; omega)
    · have h1 := toUnsigned_nonneg (k := -k) (by omega) (by have := hk.1; omega)
      have h3 : ¬((i : Int) + k ≥ 2 ^ 64) := by omega
      by_cases ho : (i : Int) + k < 0
      · have : ¬(toUnsigned (-k) ≤ i) := by omega
        simp [addAssign, hp, negate_eq hk, debugAssert, this, ho, h3] <;> (intros; omega)
      · have : toUnsigned (-k) ≤ i := by omega
        simp [addAssign, hp, negate_eq hk, debugAssert, this, ho, h3, hend] <;> (intros; omega)

private theorem subAssign_eq (b : Build) {i : Nat} {k : Int} (hi : U i) (hk : S k) :
    subAssign b i k =
      if b ≠ .release ∧ (i : Int) - k ≥ 2 ^ 64 then debugAssert b false "Index overflow" >>= fun _ => .ub
      else if b ≠ .release ∧ (i : Int) - k < 0 then debugAssert b false "Index underflow" >>= fun _ => .ub
      else .ok ((((i : Int) - k) % 2 ^ 64).toNat) := by
  have hend : (i + (modulus - toUnsigned k)) % modulus = (((i : Int) - k) % 2 ^ 64).toNat := by
    unfold toUnsigned modulus; omega
  cases b with
  | release => simp [subAssign, hend]
  | debug =>
    by_cases hp : k > 0
    · have h1 := toUnsigned_nonneg (k := k) (by omega) (by have := hk.2; omega)
      have h3 : ¬((i : Int) - k ≥ 2 ^ 64) := by omega
      by_cases ho : (i : Int) - k < 0
      · have : ¬(toUnsigned k ≤ i) := by omega
        simp [subAssign, hp, debugAssert, this, ho, h3] <;> (intros; omega)
      · have : toUnsigned k ≤ i := by omega
        simp [subAssign, hp, debugAssert, this, ho, h3, hend] <;> (intros; omega)
    · have h1 := toUnsigned_nonneg (k := -k) (by omega) (by have := hk.1; omega)
      have hmax : (maxValue + (modulus - toUnsigned (-k))) % modulus = 2 ^ 64 - 1 - toUnsigned (-k) := by
        unfold maxValue modulus; have := hk.1; omega
      have hk1 := hk.1
      by_cases ho : (i : Int) - k ≥ 2 ^ 64
      · have : ¬(i ≤ 2 ^ 64 - 1 - toUnsigned (-k)) := by omega
        simp [subAssign, hp, negate_eq hk, hmax, debugAssert, this, ho] <;> (intros; omega)
      · have : i ≤ 2 ^ 64 - 1 - toUnsigned (-k) := by omega
        have h4 : ¬((i : Int) - k < 0) := by omega
        simp [subAssign, hp, negate_eq hk, hmax, debugAssert, this, ho, h4, hend] <;> (intros; omega)
  | aborting =>
    by_cases hp : k > 0
    · have h1 := toUnsigned_nonneg (k := k) (by omega) (by have := hk.2; omega)
      have h3 : ¬((i : Int) - k ≥ 2 ^ 64) := by omega
      by_cases ho : (i : Int) - k < 0
      · have : ¬(toUnsigned k ≤ i) := by omega
        simp [subAssign, hp, debugAssert, this, ho, h3] <;> (intros; omega)
      · have : toUnsigned k ≤ i := by omega
        simp [subAssign, hp, debugAssert, this, ho, h3, hend] <;> (intros; omega)
    · have h1 := toUnsigned_nonneg (k := -k) (by omega) (by have := hk.1; omega)
      have hmax : (maxValue + (modulus - toUnsigned (-k))) % modulus = 2 ^ 64 - 1 - toUnsigned (-k) := by
        unfold maxValue modulus; have := hk.1; omega
      have hk1 := hk.1
      by_cases ho : (i : Int) - k ≥ 2 ^ 64
      · have : ¬(i ≤ 2 ^ 64 - 1 - toUnsigned (-k)) := by omega
        simp [subAssign, hp, negate_eq hk, hmax, debugAssert, this, ho] <;> (intros; omega)
      · have : i ≤ 2 ^ 64 - 1 - toUnsigned (-k) := by omega
        have h4 : ¬((i : Int) - k < 0) := by omega
        simp [subAssign, hp, negate_eq hk, hmax, debugAssert, this, ho, h4, hend] <;> (intros; omega)

private theorem add_cases {i : Nat} {k : Int} (hi : U i) (hk : S k) :
    (2 ^ 64 ≤ (i : Int) + k ∧ addAssign .debug i k = .throw (.assertion "Index overflow")) ∨
    ((i : Int) + k < 0 ∧ addAssign .debug i k = .throw (.assertion "Index underflow")) ∨
    ((0 ≤ (i : Int) + k ∧ (i : Int) + k < 2 ^ 64) ∧ ∃ v, addAssign .debug i k = .ok v) := by
  rw [addAssign_eq .debug hi hk]
  by_cases h1 : (i : Int) + k ≥ 2 ^ 64
  · exact Or.inl ⟨h1, (if_pos ⟨by simp, h1⟩).trans rfl⟩
  · by_cases h2 : (i : Int) + k < 0
    · exact Or.inr (Or.inl ⟨h2, by rw [if_neg (fun h => h1 h.2), if_pos ⟨by simp, h2⟩]; rfl⟩)
    · exact Or.inr (Or.inr ⟨by omega, _, by rw [if_neg (fun h => h1 h.2), if_neg (fun h => h2 h.2)]⟩)

private theorem sub_cases {i : Nat} {k : Int} (hi : U i) (hk : S k) :
    (2 ^ 64 ≤ (i : Int) - k ∧ subAssign .debug i k = .throw (.assertion "Index overflow")) ∨
    ((i : Int) - k < 0 ∧ subAssign .debug i k = .throw (.assertion "Index underflow")) ∨
    ((0 ≤ (i : Int) - k ∧ (i : Int) - k < 2 ^ 64) ∧ ∃ v, subAssign .debug i k = .ok v) := by
  rw [subAssign_eq .debug hi hk]
  by_cases h1 : (i : Int) - k ≥ 2 ^ 64
  · exact Or.inl ⟨h1, (if_pos ⟨by simp, h1⟩).trans rfl⟩
  · by_cases h2 : (i : Int) - k < 0
    · exact Or.inr (Or.inl ⟨h2, by rw [if_neg (fun h => h1 h.2), if_pos ⟨by simp, h2⟩]; rfl⟩)
    · exact Or.inr (Or.inr ⟨by omega, _, by rw [if_neg (fun h => h1 h.2), if_neg (fun h => h2 h.2)]⟩)

/-! ## C55 -/

/-- C55: whenever `i + k` is representable, that is what `+` and `+=` give, in either build. -/
theorem c55_add_exact (b : Build) (i v : Nat) (k : Int) (hi : i < 2 ^ 64) (hk : -(2 ^ 63) < k ∧ k < 2 ^ 63)
    (hv : (i : Int) + k = v) (hr : v < 2 ^ 64) : add b i k = .ok v ∧ addAssign b i k = .ok v := by
  have : addAssign b i k = .ok v := by
    rw [addAssign_eq b hi hk, if_neg (by omega), if_neg (by omega)]
    congr 1; omega
  exact ⟨this, this⟩

/-- C55: likewise for `-` and `-=`. -/
theorem c55_sub_exact (b : Build) (i v : Nat) (k : Int) (hi : i < 2 ^ 64) (hk : -(2 ^ 63) < k ∧ k < 2 ^ 63)
    (hv : (i : Int) - k = v) (hr : v < 2 ^ 64) : sub b i k = .ok v ∧ subAssign b i k = .ok v := by
  have : subAssign b i k = .ok v := by
    rw [subAssign_eq b hi hk, if_neg (by omega), if_neg (by omega)]
    congr 1; omega
  exact ⟨this, this⟩

/-- C55: in a release build `(i + k) - k == i` and `(i - k) + k == i` for every index and every
offset, the most negative one included. -/
theorem c55_add_sub_release (i : Nat) (k : Int) (hi : i < 2 ^ 64) :
    (add .release i k >>= fun j => sub .release j k) = .ok i ∧
    (sub .release i k >>= fun j => add .release j k) = .ok i := by
  simp only [add, sub, addAssign, subAssign, Outcome.pure_eq, Outcome.bind_ok, toUnsigned, modulus]
  constructor <;> congr 1 <;> omega

/-- C55: in a debug build the same holds unless the first step leaves the range, which raises
an assertion. -/
theorem c55_add_sub_debug (i : Nat) (k : Int) (hi : i < 2 ^ 64) (hk : -(2 ^ 63) < k ∧ k < 2 ^ 63) :
    ((add .debug i k >>= fun j => sub .debug j k) = .ok i ↔ 0 ≤ (i : Int) + k ∧ (i : Int) + k < 2 ^ 64) ∧
    ((sub .debug i k >>= fun j => add .debug j k) = .ok i ↔ 0 ≤ (i : Int) - k ∧ (i : Int) - k < 2 ^ 64) := by
  constructor
  · constructor
    · intro h
      rcases add_cases hi hk with ⟨_, e⟩ | ⟨_, e⟩ | ⟨h', _, _⟩
      · simp [add, e] at h
      · simp [add, e] at h
      · exact h'
    · intro h
      rw [(c55_add_exact .debug i ((i : Int) + k).toNat k hi hk (by omega) (by omega)).1, Outcome.bind_ok]
      exact (c55_sub_exact .debug _ i k (by omega) hk (by omega) hi).1
  · constructor
    · intro h
      rcases sub_cases hi hk with ⟨_, e⟩ | ⟨_, e⟩ | ⟨h', _, _⟩
      · simp [sub, e] at h
      · simp [sub, e] at h
      · exact h'
    · intro h
      rw [(c55_sub_exact .debug i ((i : Int) - k).toNat k hi hk (by omega) (by omega)).1, Outcome.bind_ok]
      exact (c55_add_exact .debug _ i k (by omega) hk (by omega) hi).1

/-- C55: `++` and `--` are inverse where they are in range; in a release build everywhere. -/
theorem c55_inc_dec (b : Build) (i : Nat) (hi : i < 2 ^ 64) :
    (b = .release ∨ i < 2 ^ 64 - 1 → (inc b i >>= fun j => dec b j) = .ok i) ∧
    (b = .release ∨ 0 < i → (dec b i >>= fun j => inc b j) = .ok i) := by
  constructor
  · intro h
    cases b with
    | release => simp [inc, dec, debugAssert, modulus]; omega
    | debug =>
      have h : i < 2 ^ 64 - 1 := by simpa using h
      have h1 : i < maxValue := h
      have h2 : (i + 1) % modulus = i + 1 := by unfold modulus; omega
      have h3 : (i + 1 + (modulus - 1)) % modulus = i := by unfold modulus; omega
      simp [inc, dec, debugAssert, h1, h2, h3]
    | aborting =>
      have h : i < 2 ^ 64 - 1 := by simpa using h
      have h1 : i < maxValue := h
      have h2 : (i + 1) % modulus = i + 1 := by unfold modulus; omega
      have h3 : (i + 1 + (modulus - 1)) % modulus = i := by unfold modulus; omega
      simp [inc, dec, debugAssert, h1, h2, h3]
  · intro h
    cases b with
    | release => simp [inc, dec, debugAssert, modulus]; omega
    | debug =>
      have h : 0 < i := by simpa using h
      have h2 : (i + (modulus - 1)) % modulus = i - 1 := by unfold modulus; omega
      have h1 : i - 1 < maxValue := by unfold maxValue modulus; omega
      have h3 : (i - 1 + 1) % modulus = i := by unfold modulus; omega
      simp [inc, dec, debugAssert, h1, h2, h3, h]
    | aborting =>
      have h : 0 < i := by simpa using h
      have h2 : (i + (modulus - 1)) % modulus = i - 1 := by unfold modulus; omega
      have h1 : i - 1 < maxValue := by unfold maxValue modulus; omega
      have h3 : (i - 1 + 1) % modulus = i := by unfold modulus; omega
      simp [inc, dec, debugAssert, h1, h2, h3, h]

/-- C55: in range, `++` and `--` move by one, and the postfix forms return the old index. -/
theorem c55_inc_dec_exact (b : Build) (i : Nat) :
    (i + 1 < 2 ^ 64 → inc b i = .ok (i + 1) ∧ incPost b i = .ok (i + 1, i)) ∧
    (i < 2 ^ 64 → 0 < i → dec b i = .ok (i - 1) ∧ decPost b i = .ok (i - 1, i)) := by
  constructor
  · intro h
    have h1 : i < maxValue := by unfold maxValue modulus; omega
    have h2 : (i + 1) % modulus = i + 1 := by unfold modulus; omega
    cases b <;> simp [inc, incPost, debugAssert, h1, h2]
  · intro h h0
    have h2 : (i + (modulus - 1)) % modulus = i - 1 := by unfold modulus; omega
    cases b <;> simp [dec, decPost, debugAssert, h0, h2]

/-- C55: comparison of indices is comparison of their values. -/
theorem c55_order (i j : Nat) :
    (threeWay i j = .lt ↔ value i < value j) ∧ (threeWay i j = .gt ↔ value j < value i) ∧
    (threeWay i j = .eq ↔ value i = value j) ∧ (equal i j = true ↔ value i = value j) := by
  simp only [threeWay, equal, value, beq_iff_eq]
  split
  · simp; omega
  · split <;> simp <;> omega

example : add .debug (2 ^ 64 - 10) 9 = .ok (2 ^ 64 - 1) ∧ sub .release 3 5 = .ok (2 ^ 64 - 2) ∧
    add .debug 7 (-7) = .ok 0 ∧ sub .debug 7 (-8) = .ok 15 := by decide

/-! ## C56 -/

/-- C56: in a debug build `+=` (and `+`) asserts exactly if the result would leave the range, with
the matching message; otherwise it returns. -/
theorem c56_add (i : Nat) (k : Int) (hi : i < 2 ^ 64) (hk : -(2 ^ 63) < k ∧ k < 2 ^ 63) :
    (addAssign .debug i k = .throw (.assertion "Index overflow") ↔ 2 ^ 64 ≤ (i : Int) + k) ∧
    (addAssign .debug i k = .throw (.assertion "Index underflow") ↔ (i : Int) + k < 0) ∧
    ((addAssign .debug i k).returns ↔ 0 ≤ (i : Int) + k ∧ (i : Int) + k < 2 ^ 64) ∧
    add .debug i k = addAssign .debug i k := by
  rcases add_cases hi hk with ⟨h, e⟩ | ⟨h, e⟩ | ⟨h, v, e⟩ <;> simp [e, add, Outcome.returns] <;> omega

/-- C56: likewise for `-=` and `-`. -/
theorem c56_sub (i : Nat) (k : Int) (hi : i < 2 ^ 64) (hk : -(2 ^ 63) < k ∧ k < 2 ^ 63) :
    (subAssign .debug i k = .throw (.assertion "Index overflow") ↔ 2 ^ 64 ≤ (i : Int) - k) ∧
    (subAssign .debug i k = .throw (.assertion "Index underflow") ↔ (i : Int) - k < 0) ∧
    ((subAssign .debug i k).returns ↔ 0 ≤ (i : Int) - k ∧ (i : Int) - k < 2 ^ 64) ∧
    sub .debug i k = subAssign .debug i k := by
  rcases sub_cases hi hk with ⟨h, e⟩ | ⟨h, e⟩ | ⟨h, v, e⟩ <;> simp [e, sub, Outcome.returns] <;> omega

/-- C56: `++` asserts exactly at the greatest value and `--` exactly at 0, prefix and postfix. -/
theorem c56_inc_dec (i : Nat) (hi : i < 2 ^ 64) :
    (inc .debug i = .throw (.assertion "Index overflow") ↔ i = 2 ^ 64 - 1) ∧
    (incPost .debug i = .throw (.assertion "Index overflow") ↔ i = 2 ^ 64 - 1) ∧
    (dec .debug i = .throw (.assertion "Index underflow") ↔ i = 0) ∧
    (decPost .debug i = .throw (.assertion "Index underflow") ↔ i = 0) ∧
    ((inc .debug i).returns ↔ i + 1 < 2 ^ 64) ∧ ((incPost .debug i).returns ↔ i + 1 < 2 ^ 64) ∧
    ((dec .debug i).returns ↔ 0 < i) ∧ ((decPost .debug i).returns ↔ 0 < i) := by
  have hm : (i < maxValue) ↔ i + 1 < 2 ^ 64 := by unfold maxValue modulus; omega
  by_cases h : i < maxValue <;> by_cases h0 : 0 < i <;>
    simp [inc, incPost, dec, decPost, debugAssert, h, h0, Outcome.returns] <;> omega

/-- C56: a release build asserts nothing. -/
theorem c56_release (i : Nat) (k : Int) :
    (addAssign .release i k).returns ∧ (subAssign .release i k).returns ∧ (inc .release i).returns ∧
    (dec .release i).returns ∧ (incPost .release i).returns ∧ (decPost .release i).returns := by
  simp [addAssign, subAssign, inc, dec, incPost, decPost, debugAssert, Outcome.returns]

/-- The excluded offset: its negation inside the debug check is undefined. -/
theorem c56_most_negative (i : Nat) :
    addAssign .debug i (-(2 ^ 63)) = .ub ∧ subAssign .debug i (-(2 ^ 63)) = .ub := by
  constructor <;> rfl

example : addAssign .debug (2 ^ 64 - 10) 10 = .throw (.assertion "Index overflow") ∧
    addAssign .debug 9 (-10) = .throw (.assertion "Index underflow") ∧
    subAssign .debug 9 10 = .throw (.assertion "Index underflow") := by decide

/-! ## C57 -/

/-- C57: for a value type ordered by `cmp`, comparing ids is comparing the wrapped values, with
`<`, `<=` and `==` as the compiler derives them. -/
theorem c57_compare {α : Type} (cmp : α → α → Ordering) (eq : α → α → Bool) (x y : α) :
    Id.threeWay cmp (Id.make x) (Id.make y) = cmp x y ∧
    Id.equal eq (Id.make x) (Id.make y) = eq x y ∧
    (Id.lt cmp (Id.make x) (Id.make y) = true ↔ cmp x y = .lt) ∧
    (Id.le cmp (Id.make x) (Id.make y) = true ↔ cmp x y ≠ .gt) := by
  simp only [Id.threeWay, Id.equal, Id.make, Id.lt, Id.le]
  cases cmp x y <;> simp

/-- C57: in particular ids wrapping a type with a strict total order are strictly totally ordered
themselves, so they can be keys of a map. -/
theorem c57_total {α : Type} (cmp : α → α → Ordering)
    (hrefl : ∀ x, cmp x x = .eq) (heq : ∀ x y, cmp x y = .eq → x = y)
    (hswap : ∀ x y, cmp x y = .lt ↔ cmp y x = .gt) (htrans : ∀ x y z, cmp x y = .lt → cmp y z = .lt → cmp x z = .lt)
    (a b c : Id α) :
    Id.lt cmp a a = false ∧ (Id.lt cmp a b = true → Id.lt cmp b c = true → Id.lt cmp a c = true) ∧
    (Id.lt cmp a b = true ∨ a = b ∨ Id.lt cmp b a = true) ∧ ¬(Id.lt cmp a b = true ∧ Id.lt cmp b a = true) := by
  have h : ∀ a b : Id α, Id.lt cmp a b = true ↔ cmp a.id b.id = .lt := fun a b =>
    (c57_compare cmp (fun _ _ => true) a.id b.id).2.2.1
  refine ⟨?_, ?_, ?_, ?_⟩
  · have : ¬(Id.lt cmp a a = true) := by rw [h, hrefl]; simp
    simpa using this
  · rw [h, h, h]; exact htrans _ _ _
  · rw [h, h]
    rcases hc : cmp a.id b.id with _ | _ | _
    · exact Or.inl rfl
    · right; left
      cases a; cases b; simp only [Id.mk.injEq]; exact heq _ _ hc
    · right; right; exact (hswap _ _).2 hc
  · rw [h, h]
    rintro ⟨h1, h2⟩
    rw [(hswap _ _).1 h1] at h2
    cases h2

/-- C57: the wrapped value is what was put in. -/
theorem c57_value {α : Type} (x : α) : (Id.make x).value = x ∧ (Id.make x).deref = x := ⟨rfl, rfl⟩

example : Id.lt (compare : Nat → Nat → Ordering) (Id.make 3) (Id.make 5) = true := by decide

end Wite.Props
