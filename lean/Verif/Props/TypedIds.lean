import Verif.Model.TypedIds
import Verif.Props.Index
import Mathlib.Order.Compare
import Mathlib.Order.Nat
import Mathlib.Algebra.Order.Ring.Int

/-!
# Property C194: ids and indices of different kinds of objects cannot be mixed up
-/

namespace Wite.Props

open Wite Wite.TypedIds

variable {K : Type}

/-- An expression that neither takes the value of an id or index nor makes one of a value. -/
def opaqueExpr : TExpr K → Bool
  | .make _ _ => false
  | .value _ => false
  | .conv _ e => opaqueExpr e
  | .cmp _ a b => opaqueExpr a && opaqueExpr b
  | .add a b => opaqueExpr a && opaqueExpr b
  | .sub a b => opaqueExpr a && opaqueExpr b
  | .not a => opaqueExpr a
  | .and a b => opaqueExpr a && opaqueExpr b
  | _ => true

/-- A program of such expressions. -/
def opaqueStmt : TStmt K → Bool
  | .assign _ e => opaqueExpr e
  | .addAssign _ e => opaqueExpr e
  | .subAssign _ e => opaqueExpr e
  | .seq p q => opaqueStmt p && opaqueStmt q
  | .ite c p q => opaqueExpr c && opaqueStmt p && opaqueStmt q
  | .while c p => opaqueExpr c && opaqueStmt p
  | _ => true

/-- An expression that moves indices. -/
def movesExpr : TExpr K → Bool
  | .add _ _ => true
  | .sub _ _ => true
  | .make _ e => movesExpr e
  | .conv _ e => movesExpr e
  | .value e => movesExpr e
  | .cmp _ a b => movesExpr a || movesExpr b
  | .not a => movesExpr a
  | .and a b => movesExpr a || movesExpr b
  | _ => false

/-- A program that moves indices. -/
def movesStmt : TStmt K → Bool
  | .skip => false
  | .assign _ e => movesExpr e
  | .seq p q => movesStmt p || movesStmt q
  | .ite c p q => movesExpr c || movesStmt p || movesStmt q
  | .while c p => movesExpr c || movesStmt p
  | _ => true

/-- What a variable of the type holds before and after the ids of kind `t` were renamed by `f t` and the indices of kind `t` shifted by
`d t`. -/
def Renamed (f : Nat → K → K) (d : Nat → Int) : TTy → TVal K → TVal K → Prop
  | .id t, .id a, .id b => b = f t a
  | .index t, .index i, .index j => i < 2 ^ 64 ∧ j < 2 ^ 64 ∧ (j : Int) = i + d t
  | .raw, .raw a, .raw b => a = b
  | .num, .num m, .num n => m = n ∧ -(2 ^ 63) < m ∧ m < 2 ^ 63
  | .bool, .bool a, .bool b => a = b
  | _, _, _ => False

/-- Both end with related results, or neither ends; or, if indices are moved, one of the two fails an assertion. -/
def SameEnd {α : Type} (moves : Prop) (R : α → α → Prop) (o o' : Outcome α) : Prop :=
  (∃ v w, o = .ok v ∧ o' = .ok w ∧ R v w) ∨ (o = .diverge ∧ o' = .diverge) ∨
    (moves ∧ ((∃ m, o = .throw (.assertion m)) ∨ ∃ m, o' = .throw (.assertion m)))

private theorem SameEnd.ok {α : Type} {M : Prop} {R : α → α → Prop} {v w : α} (h : R v w) : SameEnd M R (.ok v) (.ok w) :=
  Or.inl ⟨v, w, rfl, rfl, h⟩

private theorem SameEnd.bind {α β : Type} {M : Prop} {R : α → α → Prop} {S : β → β → Prop} {o o' : Outcome α} {k k' : α → Outcome β}
    (h : SameEnd M R o o') (hk : ∀ v w, R v w → SameEnd M S (k v) (k' w)) : SameEnd M S (o >>= k) (o' >>= k') := by
  rcases h with ⟨v, w, rfl, rfl, hR⟩ | ⟨rfl, rfl⟩ | ⟨hM, ⟨m, rfl⟩ | ⟨m, rfl⟩⟩
  · exact hk v w hR
  · exact Or.inr (Or.inl ⟨rfl, rfl⟩)
  · exact Or.inr (Or.inr ⟨hM, Or.inl ⟨m, rfl⟩⟩)
  · exact Or.inr (Or.inr ⟨hM, Or.inr ⟨m, rfl⟩⟩)

/-- Indices that a move takes to related indices, or to an assertion. -/
private def IdxRel (k : Int) (i j : Nat) : Prop := i < 2 ^ 64 ∧ j < 2 ^ 64 ∧ (j : Int) = i + k

private theorem add_end {M : Prop} (hM : M) {i j : Nat} {n k : Int} (h : IdxRel k i j) (hn : -(2 ^ 63) < n ∧ n < 2 ^ 63) :
    SameEnd M (IdxRel k) (Index.addAssign .debug i n) (Index.addAssign .debug j n) := by
  obtain ⟨hi, hj, hk⟩ := h
  obtain ⟨a1, a2, a3, -⟩ := c56_add i n hi hn
  obtain ⟨b1, b2, b3, -⟩ := c56_add j n hj hn
  by_cases h1 : 2 ^ 64 ≤ (i : Int) + n
  · exact Or.inr (Or.inr ⟨hM, Or.inl ⟨_, a1.2 h1⟩⟩)
  by_cases h2 : (i : Int) + n < 0
  · exact Or.inr (Or.inr ⟨hM, Or.inl ⟨_, a2.2 h2⟩⟩)
  by_cases h3 : 2 ^ 64 ≤ (j : Int) + n
  · exact Or.inr (Or.inr ⟨hM, Or.inr ⟨_, b1.2 h3⟩⟩)
  by_cases h4 : (j : Int) + n < 0
  · exact Or.inr (Or.inr ⟨hM, Or.inr ⟨_, b2.2 h4⟩⟩)
  have e1 := (c55_add_exact .debug i ((i : Int) + n).toNat n hi hn (by omega) (by omega)).2
  have e2 := (c55_add_exact .debug j ((j : Int) + n).toNat n hj hn (by omega) (by omega)).2
  exact Or.inl ⟨_, _, e1, e2, by omega, by omega, by omega⟩

private theorem sub_end {M : Prop} (hM : M) {i j : Nat} {n k : Int} (h : IdxRel k i j) (hn : -(2 ^ 63) < n ∧ n < 2 ^ 63) :
    SameEnd M (IdxRel k) (Index.subAssign .debug i n) (Index.subAssign .debug j n) := by
  obtain ⟨hi, hj, hk⟩ := h
  obtain ⟨a1, a2, a3, -⟩ := c56_sub i n hi hn
  obtain ⟨b1, b2, b3, -⟩ := c56_sub j n hj hn
  by_cases h1 : 2 ^ 64 ≤ (i : Int) - n
  · exact Or.inr (Or.inr ⟨hM, Or.inl ⟨_, a1.2 h1⟩⟩)
  by_cases h2 : (i : Int) - n < 0
  · exact Or.inr (Or.inr ⟨hM, Or.inl ⟨_, a2.2 h2⟩⟩)
  by_cases h3 : 2 ^ 64 ≤ (j : Int) - n
  · exact Or.inr (Or.inr ⟨hM, Or.inr ⟨_, b1.2 h3⟩⟩)
  by_cases h4 : (j : Int) - n < 0
  · exact Or.inr (Or.inr ⟨hM, Or.inr ⟨_, b2.2 h4⟩⟩)
  have e1 := (c55_sub_exact .debug i ((i : Int) - n).toNat n hi hn (by omega) (by omega)).2
  have e2 := (c55_sub_exact .debug j ((j : Int) - n).toNat n hj hn (by omega) (by omega)).2
  exact Or.inl ⟨_, _, e1, e2, by omega, by omega, by omega⟩

private theorem inc_end {M : Prop} (hM : M) {i j : Nat} {k : Int} (h : IdxRel k i j) :
    SameEnd M (IdxRel k) (Index.inc .debug i) (Index.inc .debug j) ∧
    SameEnd M (fun r s => IdxRel k r.1 s.1 ∧ IdxRel k r.2 s.2) (Index.incPost .debug i) (Index.incPost .debug j) := by
  have h' := h
  obtain ⟨hi, hj, hk⟩ := h
  obtain ⟨a1, a2, -⟩ := c56_inc_dec i hi
  obtain ⟨b1, b2, -⟩ := c56_inc_dec j hj
  by_cases h1 : i = 2 ^ 64 - 1
  · exact ⟨Or.inr (Or.inr ⟨hM, Or.inl ⟨_, a1.2 h1⟩⟩), Or.inr (Or.inr ⟨hM, Or.inl ⟨_, a2.2 h1⟩⟩)⟩
  by_cases h3 : j = 2 ^ 64 - 1
  · exact ⟨Or.inr (Or.inr ⟨hM, Or.inr ⟨_, b1.2 h3⟩⟩), Or.inr (Or.inr ⟨hM, Or.inr ⟨_, b2.2 h3⟩⟩)⟩
  obtain ⟨e1, e2⟩ := (c55_inc_dec_exact .debug i).1 (by omega)
  obtain ⟨f1, f2⟩ := (c55_inc_dec_exact .debug j).1 (by omega)
  exact ⟨Or.inl ⟨_, _, e1, f1, by omega, by omega, by omega⟩, Or.inl ⟨_, _, e2, f2, ⟨by simp; omega, by simp; omega, by simp; omega⟩, h'⟩⟩

private theorem dec_end {M : Prop} (hM : M) {i j : Nat} {k : Int} (h : IdxRel k i j) :
    SameEnd M (IdxRel k) (Index.dec .debug i) (Index.dec .debug j) ∧
    SameEnd M (fun r s => IdxRel k r.1 s.1 ∧ IdxRel k r.2 s.2) (Index.decPost .debug i) (Index.decPost .debug j) := by
  have h' := h
  obtain ⟨hi, hj, hk⟩ := h
  obtain ⟨-, -, a1, a2, -⟩ := c56_inc_dec i hi
  obtain ⟨-, -, b1, b2, -⟩ := c56_inc_dec j hj
  by_cases h1 : i = 0
  · exact ⟨Or.inr (Or.inr ⟨hM, Or.inl ⟨_, a1.2 h1⟩⟩), Or.inr (Or.inr ⟨hM, Or.inl ⟨_, a2.2 h1⟩⟩)⟩
  by_cases h3 : j = 0
  · exact ⟨Or.inr (Or.inr ⟨hM, Or.inr ⟨_, b1.2 h3⟩⟩), Or.inr (Or.inr ⟨hM, Or.inr ⟨_, b2.2 h3⟩⟩)⟩
  obtain ⟨e1, e2⟩ := (c55_inc_dec_exact .debug i).2 hi (by omega)
  obtain ⟨f1, f2⟩ := (c55_inc_dec_exact .debug j).2 hj (by omega)
  exact ⟨Or.inl ⟨_, _, e1, f1, by omega, by omega, by omega⟩, Or.inl ⟨_, _, e2, f2, ⟨by simp; omega, by simp; omega, by simp; omega⟩, h'⟩⟩

variable {cmp : K → K → Ordering} {eq : K → K → Bool} {f : Nat → K → K} {d : Nat → Int}

private theorem compare_end {M : Prop} (hcmp : ∀ t a b, cmp (f t a) (f t b) = cmp a b) (heq : ∀ t a b, eq (f t a) (f t b) = eq a b)
    (op : CmpOp) (τ : TTy) {v v' w w' : TVal K} (hv : Renamed f d τ v v') (hw : Renamed f d τ w w') :
    SameEnd M (· = ·) (compareVals cmp eq op v w) (compareVals cmp eq op v' w') := by
  cases τ with
  | id t =>
    cases v <;> cases v' <;> simp only [Renamed] at hv
    cases w <;> cases w' <;> simp only [Renamed] at hw
    subst hv hw
    exact SameEnd.ok (by simp only [Id.threeWay, Id.equal, hcmp, heq])
  | index t =>
    cases v <;> cases v' <;> simp only [Renamed] at hv
    cases w <;> cases w' <;> simp only [Renamed] at hw
    rename_i i i' j j'
    have ht : Index.threeWay i' j' = Index.threeWay i j := by
      unfold Index.threeWay
      by_cases h1 : i < j
      · rw [if_pos h1, if_pos (by omega)]
      · rw [if_neg h1, if_neg (by omega)]
        by_cases h2 : i = j
        · rw [if_pos h2, if_pos (by omega)]
        · rw [if_neg h2, if_neg (by omega)]
    have he : Index.equal i' j' = Index.equal i j := by
      unfold Index.equal
      rw [Bool.eq_iff_iff]
      simp only [beq_iff_eq]
      omega
    exact SameEnd.ok (by rw [ht, he])
  | raw =>
    cases v <;> cases v' <;> simp only [Renamed] at hv
    cases w <;> cases w' <;> simp only [Renamed] at hw
    subst hv hw
    exact SameEnd.ok rfl
  | num =>
    cases v <;> cases v' <;> simp only [Renamed] at hv
    cases w <;> cases w' <;> simp only [Renamed] at hw
    obtain ⟨rfl, -⟩ := hv
    obtain ⟨rfl, -⟩ := hw
    exact SameEnd.ok rfl
  | bool =>
    cases v <;> cases v' <;> simp only [Renamed] at hv
    cases w <;> cases w' <;> simp only [Renamed] at hw
    subst hv hw
    exact SameEnd.ok rfl

/-- C194, expressions: an expression that compiles and uses no values gives the same after ids of each kind were renamed and indices
of each kind shifted. -/
theorem c194_expressions (cmp : K → K → Ordering) (eq : K → K → Bool) (f : Nat → K → K) (d : Nat → Int)
    (hcmp : ∀ t a b, cmp (f t a) (f t b) = cmp a b) (heq : ∀ t a b, eq (f t a) (f t b) = eq a b)
    (Γ : Nat → TTy) (ρ ρ' : Nat → TVal K) (hρ : ∀ x, Renamed f d (Γ x) (ρ x) (ρ' x))
    (M : Prop) (e : TExpr K) : ∀ τ, typeOf Γ e = some τ → opaqueExpr e = true → (movesExpr e = true → M) →
      SameEnd M (Renamed f d τ) (eval cmp eq ρ e) (eval cmp eq ρ' e) := by
  induction e with
  | var x => intro τ ht _ _; cases ht; exact SameEnd.ok (hρ x)
  | rawLit k => intro τ ht _ _; cases ht; exact SameEnd.ok rfl
  | numLit n =>
    intro τ ht _ _
    simp only [typeOf] at ht
    split at ht
    · rename_i hn
      cases ht
      exact SameEnd.ok ⟨rfl, hn⟩
    · cases ht
  | boolLit b => intro τ ht _ _; cases ht; exact SameEnd.ok rfl
  | make σ e ih => intro τ _ ho _; cases ho
  | conv σ e ih =>
    intro τ ht ho hm
    simp only [typeOf, Option.bind_eq_some_iff] at ht
    obtain ⟨σ', hσ', ht⟩ := ht
    split at ht
    · rename_i hs
      cases ht
      subst hs
      exact ih _ hσ' ho hm
    · cases ht
  | value e ih => intro τ _ ho _; cases ho
  | cmp op a b iha ihb =>
    intro τ ht ho hm
    simp only [typeOf, Option.bind_eq_some_iff] at ht
    obtain ⟨σ, hσ, σ', hσ', ht⟩ := ht
    simp only [opaqueExpr, Bool.and_eq_true] at ho
    simp only [movesExpr, Bool.or_eq_true] at hm
    split at ht
    · rename_i hs
      cases ht
      subst hs
      simp only [eval]
      refine (iha _ hσ ho.1 fun h => hm (Or.inl h)).bind fun v v' hv => ?_
      refine (ihb _ hσ' ho.2 fun h => hm (Or.inr h)).bind fun w w' hw => ?_
      refine (compare_end hcmp heq op σ hv hw).bind fun r r' hr => ?_
      exact SameEnd.ok hr
    · cases ht
  | add a b iha ihb =>
    intro τ ht ho hm
    simp only [typeOf, Option.bind_eq_some_iff] at ht
    obtain ⟨σ, hσ, σ', hσ', ht⟩ := ht
    simp only [opaqueExpr, Bool.and_eq_true] at ho
    have hM : M := hm rfl
    split at ht
    · cases ht
      simp only [eval]
      refine (iha _ hσ ho.1 fun _ => hM).bind fun v v' hv => ?_
      refine (ihb _ hσ' ho.2 fun _ => hM).bind fun w w' hw => ?_
      cases v <;> cases v' <;> simp only [Renamed] at hv
      cases w <;> cases w' <;> simp only [Renamed] at hw
      obtain ⟨rfl, hn⟩ := hw
      exact (add_end hM hv hn).bind fun i j hij => SameEnd.ok hij
    · cases ht
  | sub a b iha ihb =>
    intro τ ht ho hm
    simp only [typeOf, Option.bind_eq_some_iff] at ht
    obtain ⟨σ, hσ, σ', hσ', ht⟩ := ht
    simp only [opaqueExpr, Bool.and_eq_true] at ho
    have hM : M := hm rfl
    split at ht
    · cases ht
      simp only [eval]
      refine (iha _ hσ ho.1 fun _ => hM).bind fun v v' hv => ?_
      refine (ihb _ hσ' ho.2 fun _ => hM).bind fun w w' hw => ?_
      cases v <;> cases v' <;> simp only [Renamed] at hv
      cases w <;> cases w' <;> simp only [Renamed] at hw
      obtain ⟨rfl, hn⟩ := hw
      exact (sub_end hM hv hn).bind fun i j hij => SameEnd.ok hij
    · cases ht
  | not a ih =>
    intro τ ht ho hm
    simp only [typeOf, Option.bind_eq_some_iff] at ht
    obtain ⟨σ, hσ, ht⟩ := ht
    split at ht
    · rename_i hs
      cases ht
      subst hs
      simp only [eval]
      refine (ih _ hσ ho hm).bind fun v v' hv => ?_
      cases v <;> cases v' <;> simp only [Renamed] at hv
      subst hv
      exact SameEnd.ok rfl
    · cases ht
  | and a b iha ihb =>
    intro τ ht ho hm
    simp only [typeOf, Option.bind_eq_some_iff] at ht
    obtain ⟨σ, hσ, σ', hσ', ht⟩ := ht
    simp only [opaqueExpr, Bool.and_eq_true] at ho
    simp only [movesExpr, Bool.or_eq_true] at hm
    split at ht
    · rename_i hs
      obtain ⟨rfl, rfl⟩ := hs
      cases ht
      simp only [eval]
      refine (iha _ hσ ho.1 fun h => hm (Or.inl h)).bind fun v v' hv => ?_
      refine (ihb _ hσ' ho.2 fun h => hm (Or.inr h)).bind fun w w' hw => ?_
      cases v <;> cases v' <;> simp only [Renamed] at hv
      cases w <;> cases w' <;> simp only [Renamed] at hw
      subst hv hw
      exact SameEnd.ok rfl
    · cases ht

/-- Variables before and after renaming. -/
def AllRenamed (f : Nat → K → K) (d : Nat → Int) (Γ : Nat → TTy) (ρ ρ' : Nat → TVal K) : Prop :=
  ∀ x, Renamed f d (Γ x) (ρ x) (ρ' x)

private theorem AllRenamed.update {Γ : Nat → TTy} {ρ ρ' : Nat → TVal K} (h : AllRenamed f d Γ ρ ρ') {x : Nat} {v w : TVal K}
    (hv : Renamed f d (Γ x) v w) : AllRenamed f d Γ (update ρ x v) (update ρ' x w) := by
  intro y
  unfold TypedIds.update
  by_cases hy : y = x
  · subst hy
    simpa using hv
  · simpa [hy] using h y

private theorem onIndex_end {M : Prop} {Γ : Nat → TTy} {ρ ρ' : Nat → TVal K} (h : AllRenamed f d Γ ρ ρ') {x : Nat}
    (hx : (Γ x).isIndex = true) (g : Nat → Outcome Nat) (hg : ∀ k i j, IdxRel k i j → SameEnd M (IdxRel k) (g i) (g j)) :
    SameEnd M (AllRenamed f d Γ) (onIndex ρ x g) (onIndex ρ' x g) := by
  have hr := h x
  cases hΓ : Γ x <;> simp only [hΓ, TTy.isIndex, Bool.false_eq_true] at hx
  rename_i t
  rw [hΓ] at hr
  unfold onIndex
  cases hv : ρ x <;> cases hw : ρ' x <;> simp only [hv, hw, Renamed] at hr
  refine (hg _ _ _ hr).bind fun i j hij => SameEnd.ok (h.update ?_)
  rw [hΓ]
  exact hij

private theorem onIndexPost_end {M : Prop} {Γ : Nat → TTy} {ρ ρ' : Nat → TVal K} (h : AllRenamed f d Γ ρ ρ') {x y : Nat}
    (hy : (Γ y).isIndex = true) (hxy : Γ x = Γ y) (g : Nat → Outcome (Nat × Nat))
    (hg : ∀ k i j, IdxRel k i j → SameEnd M (fun r s => IdxRel k r.1 s.1 ∧ IdxRel k r.2 s.2) (g i) (g j)) :
    SameEnd M (AllRenamed f d Γ) (onIndexPost ρ x y g) (onIndexPost ρ' x y g) := by
  have hr := h y
  cases hΓ : Γ y <;> simp only [hΓ, TTy.isIndex, Bool.false_eq_true] at hy
  rename_i t
  rw [hΓ] at hr
  unfold onIndexPost
  cases hv : ρ y <;> cases hw : ρ' y <;> simp only [hv, hw, Renamed] at hr
  refine (hg _ _ _ hr).bind fun r s hrs => SameEnd.ok ((h.update ?_).update ?_)
  · rw [hΓ]; exact hrs.1
  · rw [hxy, hΓ]; exact hrs.2

/-- C194: a program that compiles, and neither takes the value of an id or index nor makes one of a value, cannot mix up kinds. Rename
the ids of each kind in a way that keeps their comparisons, a different one for each kind, and shift the indices of each kind by any
amount: the program takes the same course and ends with the variables renamed, or, if it moves indices, one of the two runs fails an
assertion at an end of the range of indices. -/
theorem c194_programs (cmp : K → K → Ordering) (eq : K → K → Bool) (f : Nat → K → K) (d : Nat → Int)
    (hcmp : ∀ t a b, cmp (f t a) (f t b) = cmp a b) (heq : ∀ t a b, eq (f t a) (f t b) = eq a b)
    (Γ : Nat → TTy) (n : Nat) : ∀ (p : TStmt K) (ρ ρ' : Nat → TVal K), AllRenamed f d Γ ρ ρ' → compiles Γ p = true → opaqueStmt p = true →
      ∀ M : Prop, (movesStmt p = true → M) → SameEnd M (AllRenamed f d Γ) (exec cmp eq n p ρ) (exec cmp eq n p ρ') := by
  induction n with
  | zero => intro p ρ ρ' _ _ _ M _; exact Or.inr (Or.inl ⟨rfl, rfl⟩)
  | succ n ih =>
    intro p ρ ρ' hρ hc ho M hM
    have hexp := c194_expressions cmp eq f d hcmp heq Γ ρ ρ' hρ M
    cases p with
    | skip => exact SameEnd.ok hρ
    | assign x e =>
      simp only [compiles, decide_eq_true_eq] at hc
      simp only [exec]
      exact (hexp e _ hc ho hM).bind fun v w hv => SameEnd.ok (hρ.update hv)
    | addAssign x e =>
      simp only [compiles, Bool.and_eq_true, decide_eq_true_eq] at hc
      simp only [exec]
      refine (hexp e _ hc.2 ho fun _ => hM rfl).bind fun v w hv => ?_
      cases v <;> cases w <;> simp only [Renamed] at hv
      obtain ⟨rfl, hn⟩ := hv
      exact onIndex_end hρ hc.1 _ fun k i j hij => add_end (hM rfl) hij hn
    | subAssign x e =>
      simp only [compiles, Bool.and_eq_true, decide_eq_true_eq] at hc
      simp only [exec]
      refine (hexp e _ hc.2 ho fun _ => hM rfl).bind fun v w hv => ?_
      cases v <;> cases w <;> simp only [Renamed] at hv
      obtain ⟨rfl, hn⟩ := hv
      exact onIndex_end hρ hc.1 _ fun k i j hij => sub_end (hM rfl) hij hn
    | preInc x => exact onIndex_end hρ hc _ fun k i j hij => (inc_end (hM rfl) hij).1
    | preDec x => exact onIndex_end hρ hc _ fun k i j hij => (dec_end (hM rfl) hij).1
    | postInc x y =>
      simp only [compiles, Bool.and_eq_true, decide_eq_true_eq] at hc
      exact onIndexPost_end hρ hc.1 hc.2 _ fun k i j hij => (inc_end (hM rfl) hij).2
    | postDec x y =>
      simp only [compiles, Bool.and_eq_true, decide_eq_true_eq] at hc
      exact onIndexPost_end hρ hc.1 hc.2 _ fun k i j hij => (dec_end (hM rfl) hij).2
    | seq p q =>
      simp only [compiles, Bool.and_eq_true] at hc
      simp only [opaqueStmt, Bool.and_eq_true] at ho
      simp only [movesStmt, Bool.or_eq_true] at hM
      simp only [exec]
      refine (ih p ρ ρ' hρ hc.1 ho.1 M fun h => hM (Or.inl h)).bind fun σ σ' hσ => ?_
      exact ih q σ σ' hσ hc.2 ho.2 M fun h => hM (Or.inr h)
    | ite c p q =>
      simp only [compiles, Bool.and_eq_true, decide_eq_true_eq] at hc
      simp only [opaqueStmt, Bool.and_eq_true] at ho
      simp only [movesStmt, Bool.or_eq_true] at hM
      simp only [exec]
      refine (hexp c _ hc.1.1 ho.1.1 fun h => hM (Or.inl (Or.inl h))).bind fun v w hv => ?_
      cases v <;> cases w <;> simp only [Renamed] at hv
      subst hv
      rename_i b
      cases b
      · exact ih q ρ ρ' hρ hc.2 ho.2 M fun h => hM (Or.inr h)
      · exact ih p ρ ρ' hρ hc.1.2 ho.1.2 M fun h => hM (Or.inl (Or.inr h))
    | «while» c p =>
      have hc' := hc
      have ho' := ho
      have hM' := hM
      simp only [compiles, Bool.and_eq_true, decide_eq_true_eq] at hc
      simp only [opaqueStmt, Bool.and_eq_true] at ho
      simp only [movesStmt, Bool.or_eq_true] at hM
      simp only [exec]
      refine (hexp c _ hc.1 ho.1 fun h => hM (Or.inl h)).bind fun v w hv => ?_
      cases v <;> cases w <;> simp only [Renamed] at hv
      subst hv
      rename_i b
      cases b
      · exact SameEnd.ok hρ
      · refine (ih p ρ ρ' hρ hc.2 ho.2 M fun h => hM (Or.inr h)).bind fun σ σ' hσ => ?_
        exact ih (.while c p) σ σ' hσ hc' ho' M hM'

/-- C194, ids alone: a program without moves of indices does the same in both cases, without exception. -/
theorem c194_ids (cmp : K → K → Ordering) (eq : K → K → Bool) (f : Nat → K → K) (d : Nat → Int)
    (hcmp : ∀ t a b, cmp (f t a) (f t b) = cmp a b) (heq : ∀ t a b, eq (f t a) (f t b) = eq a b)
    (Γ : Nat → TTy) (n : Nat) (p : TStmt K) (ρ ρ' σ : Nat → TVal K) (h : AllRenamed f d Γ ρ ρ') (hc : compiles Γ p = true)
    (ho : opaqueStmt p = true) (hm : movesStmt p = false) (hr : exec cmp eq n p ρ = .ok σ) :
    ∃ σ', exec cmp eq n p ρ' = .ok σ' ∧ AllRenamed f d Γ σ σ' := by
  rcases c194_programs cmp eq f d hcmp heq Γ n p ρ ρ' h hc ho False (by simp [hm]) with ⟨v, w, h1, h2, h3⟩ | ⟨h1, -⟩ | ⟨h1, -⟩
  · rw [hr] at h1
    cases h1
    exact ⟨w, h2, h3⟩
  · rw [hr] at h1
    cases h1
  · exact h1.elim

/-- C194, what does not compile: comparisons, conversions, explicit constructions and assignments between ids or indices of different kinds, between
ids and indices, and between either and the values they hold (but for construction from the value); `id + id`, `index + index`, `id++`. -/
theorem c194_compile (Γ : Nat → TTy) (a b : TExpr K) (σ τ : TTy) (ha : typeOf Γ a = some σ) (hb : typeOf Γ b = some τ) (hne : σ ≠ τ) :
    (∀ op, typeOf Γ (.cmp op a b) = none) ∧ typeOf Γ (.conv σ b) = none ∧ (∀ x, Γ x = σ → compiles Γ (.assign x b) = false) ∧
    (τ ≠ .raw → τ ≠ .num → typeOf Γ (.make σ b) = none) := by
  refine ⟨fun op => ?_, ?_, fun x hx => ?_, fun h1 h2 => ?_⟩
  · simp [typeOf, ha, hb, hne]
  · simp [typeOf, hb, hne]
  · simp [compiles, hb, hx, Ne.symm hne]
  · simp only [typeOf, hb, Option.bind_some]
    cases σ <;> cases τ <;> simp_all

/-- C194, ids are not numbers: nothing is added to or subtracted from an id, and indices are moved only by numbers, not by indices or ids. -/
theorem c194_arithmetic (Γ : Nat → TTy) (a b : TExpr K) (τ : TTy) (h : typeOf Γ (.add a b) = some τ ∨ typeOf Γ (.sub a b) = some τ) :
    ∃ t, τ = .index t ∧ typeOf Γ a = some (.index t) ∧ typeOf Γ b = some .num := by
  simp only [typeOf, Option.bind_eq_some_iff] at h
  rcases h with ⟨σ, hσ, σ', hσ', h⟩ | ⟨σ, hσ, σ', hσ', h⟩ <;>
  · split at h
    · cases h
      exact ⟨_, rfl, hσ, hσ'⟩
    · cases h

/-- C194, why it matters: the comparison of ids of two kinds, which the types forbid, depends on how the kinds are numbered. If
two values can be told apart, renaming one kind changes what it gives. -/
theorem c194_types_needed (cmp : K → K → Ordering) (eq : K → K → Bool) (a b : K) (hab : eq a b = false) (hbb : eq b b = true) (ρ : Nat → TVal K)
    (h0 : ρ 0 = .id a) (h1 : ρ 1 = .id b) (Γ : Nat → TTy) (s t : Nat) (hst : s ≠ t) (g0 : Γ 0 = .id s) (g1 : Γ 1 = .id t) :
    typeOf Γ (.cmp .eq (.var 0) (.var 1) : TExpr K) = none ∧
    eval cmp eq ρ (.cmp .eq (.var 0) (.var 1)) = .ok (.bool false) ∧
    eval cmp eq (update ρ 0 (.id b)) (.cmp .eq (.var 0) (.var 1)) = .ok (.bool true) := by
  refine ⟨by simp [typeOf, g0, g1, hst], ?_, ?_⟩
  · simp [eval, h0, h1, compareVals, Id.equal, decideOp, hab]
  · simp [eval, update, h1, compareVals, Id.equal, decideOp, hbb]

/-- C194, the way around the types: `*a == *b` compiles for ids of any kinds. -/
theorem c194_values (Γ : Nat → TTy) (a b : TExpr K) (s t : Nat) (ha : typeOf Γ a = some (.id s)) (hb : typeOf Γ b = some (.id t)) (op : CmpOp) :
    typeOf Γ (.cmp op (.value a) (.value b)) = some .bool ∧ typeOf Γ (.make (.id t) (.value a)) = some (.id t) := by
  simp [typeOf, ha, hb]

/-- What a comparison operator means for elements of an order. -/
def opHolds {α : Type} [LinearOrder α] : CmpOp → α → α → Prop
  | .eq, a, b => a = b
  | .ne, a, b => a ≠ b
  | .lt, a, b => a < b
  | .le, a, b => a ≤ b
  | .gt, a, b => b < a
  | .ge, a, b => b ≤ a

/-- C194, what comparisons say: ids compare as their values, in each of the six ways, and so do the values taken out of them; an id made of the
value of another holds that value. -/
theorem c194_id_meaning [LinearOrder K] (ρ : Nat → TVal K) (e e' : TExpr K) (a b : K)
    (ha : eval compare (fun x y => decide (x = y)) ρ e = .ok (.id a)) (hb : eval compare (fun x y => decide (x = y)) ρ e' = .ok (.id b)) :
    (∀ op, ∃ r, eval compare (fun x y => decide (x = y)) ρ (.cmp op e e') = .ok (.bool r) ∧ (r = true ↔ opHolds op a b)) ∧
    (∀ op, eval compare (fun x y => decide (x = y)) ρ (.cmp op (.value e) (.value e')) =
      eval compare (fun x y => decide (x = y)) ρ (.cmp op e e')) ∧
    ∀ t, eval compare (fun x y => decide (x = y)) ρ (.value (.make (.id t) (.value e))) = .ok (.raw a) := by
  refine ⟨fun op => ?_, fun op => ?_, fun t => ?_⟩
  · simp only [eval, ha, hb, Outcome.bind_ok, compareVals]
    refine ⟨_, rfl, ?_⟩
    rcases h : compare a b with _ | _ | _
    · have h' := compare_lt_iff_lt.mp h
      cases op <;> simp [decideOp, opHolds, Id.threeWay, Id.equal, h, h', h'.le, h'.ne, h'.asymm]
    · have h' := compare_eq_iff_eq.mp h
      cases op <;> simp [decideOp, opHolds, Id.threeWay, Id.equal, h']
    · have h' := compare_gt_iff_gt.mp h
      cases op <;> simp [decideOp, opHolds, Id.threeWay, Id.equal, h, h', h'.le, h'.ne', h'.asymm]
  · simp only [eval, ha, hb, Outcome.bind_ok, compareVals, Id.value, Id.equal, Outcome.pure_eq, Id.threeWay]
    cases compare a b <;> rfl
  · simp [eval, ha, Id.value, Id.make]

/-- C194, what comparisons of indices say: they compare as their values; an index made of an offset that is not negative holds it. -/
theorem c194_index_meaning (cmp : K → K → Ordering) (eq : K → K → Bool) (ρ : Nat → TVal K) (e e' e'' : TExpr K) (i j : Nat) (n : Int)
    (hi : eval cmp eq ρ e = .ok (.index i)) (hj : eval cmp eq ρ e' = .ok (.index j)) (hn : eval cmp eq ρ e'' = .ok (.num n)) :
    (∀ op, ∃ r, eval cmp eq ρ (.cmp op e e') = .ok (.bool r) ∧ (r = true ↔ opHolds op i j)) ∧
    (∀ op, eval cmp eq ρ (.cmp op (.value e) (.value e')) = eval cmp eq ρ (.cmp op e e')) ∧
    eval cmp eq ρ (.value e) = .ok (.num i) ∧
    (0 ≤ n → n < 2 ^ 63 → ∀ t, eval cmp eq ρ (.value (.make (.index t) e'')) = .ok (.num n)) := by
  refine ⟨fun op => ?_, fun op => ?_, ?_, fun h0 h1 t => ?_⟩
  · simp only [eval, hi, hj, Outcome.bind_ok, compareVals]
    refine ⟨_, rfl, ?_⟩
    have h : Index.threeWay i j = compare i j := by
      rcases lt_trichotomy i j with h | h | h <;> simp [Index.threeWay, h, compare_lt_iff_lt.mpr, compare_gt_iff_gt.mpr, Nat.not_lt_of_gt, Nat.ne_of_gt]
    rcases h' : compare i j with _ | _ | _
    · have := compare_lt_iff_lt.mp h'
      cases op <;> simp [decideOp, opHolds, h, h', Index.equal] <;> omega
    · have := compare_eq_iff_eq.mp h'
      cases op <;> simp [decideOp, opHolds, h, h', Index.equal] <;> omega
    · have := compare_gt_iff_gt.mp h'
      cases op <;> simp [decideOp, opHolds, h, h', Index.equal] <;> omega
  · have h : ((i : Int) == (j : Int)) = (i == j) := by
      rw [Bool.eq_iff_iff]
      simp
    simp [eval, hi, hj, compareVals, Index.value, Index.threeWay, Index.equal, h]
  · simp [eval, hi, Index.value]
  · simp only [eval, hn, Outcome.bind_ok, Outcome.pure_eq, Index.value, Index.toUnsigned, Index.modulus]
    congr 2
    omega

/-- C194, `!=` is the negation of `==` for all types of values, also those whose order says otherwise. -/
theorem c194_unequal (cmp : K → K → Ordering) (eq : K → K → Bool) (ρ : Nat → TVal K) (e e' : TExpr K) :
    eval cmp eq ρ (.cmp .ne e e') = eval cmp eq ρ (.not (.cmp .eq e e')) := by
  simp only [eval]
  cases eval cmp eq ρ e <;> try rfl
  cases eval cmp eq ρ e' <;> try rfl
  rename_i v w
  cases v <;> cases w <;> rfl

private def buttonsAndMenus : Nat → TTy
  | 0 => .id 0
  | 1 => .id 0
  | 2 => .id 1
  | 3 => .index 2
  | _ => .bool

private def search : TStmt Int :=
  .seq (.while (.cmp .ne (.var 0) (.var 1)) (.seq (.assign 0 (.var 1)) (.preInc 3))) (.assign 4 (.cmp .eq (.var 0) (.var 1)))

/- Buttons 5 and 9, renamed by doubling, and an index, shifted by 100: the loop runs once in both cases. -/
example : compiles buttonsAndMenus search = true ∧ opaqueStmt search = true ∧
    (match exec compare (· == ·) 9 search (fun x => if x = 0 then .id 5 else if x = 1 then .id 9 else .index 7) with
      | .ok ρ => (match ρ 3, ρ 4 with | .index i, .bool b => some (i, b) | _, _ => none)
      | _ => none) = some (8, true) ∧
    (match exec compare (· == ·) 9 search (fun x => if x = 0 then .id 10 else if x = 1 then .id 18 else .index 107) with
      | .ok ρ => (match ρ 3, ρ 4 with | .index i, .bool b => some (i, b) | _, _ => none)
      | _ => none) = some (108, true) := by decide

/- Button 9 is not less than button 5; index 7 is less than index 12, which holds 12. -/
example : (match eval compare (fun x y : Int => decide (x = y)) (fun _ => .id 9) (.cmp .ge (.var 0) (.make (.id 0) (.rawLit 5))) with
      | .ok (.bool b) => some b
      | _ => none) = some true ∧
    (match eval compare (fun x y : Int => decide (x = y)) (fun _ => .index 7) (.cmp .lt (.var 0) (.make (.index 0) (.numLit 12))) with
      | .ok (.bool b) => some b
      | _ => none) = some true ∧
    (match eval compare (fun x y : Int => decide (x = y)) (fun _ => .index 7) (.value (.make (.index 0) (.numLit 12))) with
      | .ok (.num n) => some n
      | _ => none) = some 12 := by decide

/- A button's id is not given for that of a menu item. -/
example : typeOf buttonsAndMenus (.conv (.id 1) (.var 0) : TExpr Int) = none ∧
    typeOf buttonsAndMenus (.make (.id 1) (.value (.var 0)) : TExpr Int) = some (.id 1) := by decide

end Wite.Props
