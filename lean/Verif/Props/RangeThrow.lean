import Verif.Model.RangeThrow
import Mathlib.Order.Lattice
import Mathlib.Order.MinMax

/-!
# C195: ranges of values whose operations throw
-/

namespace Wite.Props

open Wite Wite.Maths Wite.Maths.RangeThrow

variable {α : Type} {lb hb : Boundary}

/-- The first of some operations that throws, if any: its number, its exception and its mark.  The first of the operations is the `n`-th
of the program. -/
def firstFailure (T : Throws α) (n : Nat) : List (Ev × Bool) → Option (Nat × Exc × Bool)
  | [] => none
  | (e, t) :: l =>
    match T.fails e n with
    | some x => some (n, x, t)
    | none => firstFailure T (n + 1) l

private theorem firstFailure_append (T : Throws α) (l l' : List (Ev × Bool)) : ∀ n,
    firstFailure T n (l ++ l') = (firstFailure T n l).or (firstFailure T (n + l.length) l') := by
  induction l with
  | nil => intro n; simp [firstFailure]
  | cons p l ih =>
    obtain ⟨e, t⟩ := p
    intro n
    simp only [List.cons_append, firstFailure]
    cases T.fails e n with
    | some x => rfl
    | none => simp only [ih, List.length_cons]; congr 2; omega

private theorem firstFailure_inside (T : Throws α) (l : List (Ev × Bool)) : ∀ n,
    firstFailure T n (l.map fun p => (p.1, true)) = (firstFailure T n l).map fun q => (q.1, q.2.1, true) := by
  induction l with
  | nil => intro n; rfl
  | cons p l ih =>
    obtain ⟨e, t⟩ := p
    intro n
    simp only [List.map_cons, firstFailure]
    cases T.fails e n with
    | some x => rfl
    | none => exact ih _

/-- What a function does that performs the operations of a list one after another: it returns if none throws; if the first that throws is
marked, the program ends; otherwise the exception reaches the caller and the object is as before. -/
def Performs {β : Type} (T : Throws α) (x : St (World α lb hb) β) (w : World α lb hb) (l : List (Ev × Bool)) (a : β)
    (w' : World α lb hb) : Prop :=
  match firstFailure T w.done l with
  | none => x.run w = (.ok a, w')
  | some (_, _, true) => (x.run w).1 = .terminate
  | some (n, e, false) => x.run w = (.throw e, { w with done := n + 1 })

abbrev later (w : World α lb hb) (k : Nat) : World α lb hb := { w with done := w.done + k }

theorem performs_pure {β : Type} (T : Throws α) (w : World α lb hb) (a : β) : Performs T (pure a) w [] a (later w 0) := rfl

theorem performs_op (T : Throws α) (w : World α lb hb) (e : Ev) : Performs T (op T e) w [(e, false)] ⟨⟩ (later w 1) := by
  simp only [Performs, firstFailure]
  cases h : T.fails e w.done <;> simp [op, h, St.run]

theorem performs_bind {β γ : Type} {T : Throws α} {x : St (World α lb hb) β} {f : β → St (World α lb hb) γ}
    {w w' : World α lb hb} {l l' : List (Ev × Bool)} {a : β} {c : γ}
    (h : Performs T x w l a (later w l.length)) (h' : Performs T (f a) (later w l.length) l' c w') :
    Performs T (x >>= f) w (l ++ l') c w' := by
  simp only [Performs, firstFailure_append] at h h' ⊢
  cases h1 : firstFailure T w.done l with
  | none =>
    simp only [h1] at h
    simp only [Option.none_or]
    rw [St.run_bind_ok h]
    exact h'
  | some q =>
    obtain ⟨n, e, t⟩ := q
    simp only [h1] at h
    cases t with
    | false =>
      simp only [Option.some_or]
      exact St.run_bind_throw h
    | true =>
      simp only [Option.some_or]
      simp only at h
      rw [St.run_bind]
      rcases hx : x.run w with ⟨o, w1⟩
      rw [hx] at h
      cases h
      rfl

theorem performs_bind_end {β γ : Type} {T : Throws α} {x : St (World α lb hb) β} (f : β → γ)
    {w w' : World α lb hb} {l : List (Ev × Bool)} {a : β} (h : Performs T x w l a w') :
    Performs T (x >>= fun y => pure (f y)) w l (f a) w' := by
  simp only [Performs] at h ⊢
  cases h1 : firstFailure T w.done l with
  | none =>
    simp only [h1] at h
    rw [St.run_bind_ok h]
    rfl
  | some q =>
    obtain ⟨n, e, t⟩ := q
    simp only [h1] at h
    cases t with
    | false => exact St.run_bind_throw h
    | true =>
      simp only at h ⊢
      rw [St.run_bind]
      rcases hx : x.run w with ⟨o, w1⟩
      rw [hx] at h
      cases h
      rfl

theorem performs_copied {β : Type} {T : Throws α} {x : St (World α lb hb) β}
    {w w' : World α lb hb} {l : List (Ev × Bool)} {a : β} (h : Performs T x (later w 1) l a w') :
    Performs T (op T .copy >>= fun _ => x) w ((.copy, false) :: l) a w' :=
  performs_bind (performs_op T w .copy) h

theorem later_later (w : World α lb hb) (m n : Nat) : later (later w m) n = later w (n + m) := by
  simp [later, Nat.add_comm m n, Nat.add_assoc]

theorem performs_get {β : Type} {T : Throws α} {f : World α lb hb → St (World α lb hb) β} {w w' : World α lb hb}
    {l : List (Ev × Bool)} {a : β} (h : Performs T (f w) w l a w') : Performs T (St.get >>= f) w l a w' := h

theorem performs_nothrow {β : Type} {T : Throws α} {x : St (World α lb hb) β} {w w' : World α lb hb} {l : List (Ev × Bool)} {a : β}
    (h : Performs T x w l a w') : Performs T (nothrow x) w (l.map fun p => (p.1, true)) a w' := by
  simp only [Performs, firstFailure_inside] at h ⊢
  cases h1 : firstFailure T w.done l with
  | none =>
    simp only [h1] at h
    simp [nothrow, St.run, show x w = _ from h, noexcept]
  | some q =>
    obtain ⟨n, e, t⟩ := q
    simp only [h1] at h
    cases t with
    | false => simp [nothrow, St.run, show x w = _ from h, noexcept]
    | true =>
      have h2 : (x w).1 = .terminate := h
      simp [nothrow, St.run, h2, noexcept]

theorem performs_inside {β : Type} {T : Throws α} {x : St (World α lb hb) β} {w w' : World α lb hb}
    {l l' : List (Ev × Bool)} {a : β} (h : Performs T x w l a w') (hl : l.map (fun p => (p.1, true)) = l') :
    Performs T (nothrow x) w l' a w' := hl ▸ performs_nothrow h

theorem performs_compare (T : Throws α) (w : World α lb hb) (p : Bool) :
    Performs T (compareOp T p) w [(.compare, false)] p (later w 1) :=
  performs_bind (performs_op T w .compare) (performs_pure T _ p)

/-- Whether exceptions of what a `_WITE_RELEASE_NOEXCEPT` function does end the program. -/
def sealed : Build → Bool
  | .debug => false
  | .aborting => true
  | .release => true

theorem performs_release {β : Type} {T : Throws α} {x : St (World α lb hb) β} {w w' : World α lb hb} {l : List (Ev × Bool)} {a : β}
    (b : Build) (h : Performs T x w l a w') :
    Performs T (releaseNoexcept b x) w (l.map fun p => (p.1, p.2 || sealed b)) a w' := by
  cases b
  · simpa [sealed, releaseNoexcept] using h
  · simpa [sealed, releaseNoexcept] using performs_nothrow h
  · simpa [sealed, releaseNoexcept] using performs_nothrow h

/-- The comparison of an assertion, which release builds do not make. -/
def checks (b : Build) : List (Ev × Bool) :=
  match b with
  | .release => []
  | .debug => [(.compare, false)]
  | .aborting => [(.compare, true)]

variable [LinearOrder α]

/-- What a call returns if nothing throws, on an object with these bounds and this value. -/
def answer (r : ValueRange α lb hb) (v : α) : Call α lb hb → Ret α lb hb
  | .make x y => .range ⟨x, y⟩
  | .getMin => .val r.lo
  | .getMax => .val r.hi
  | .eq s => .truth (decide (r.lo = s.lo ∧ r.hi = s.hi))
  | .ne s => .truth (decide (¬(r.lo = s.lo ∧ r.hi = s.hi)))
  | .empty => .truth (decide (r.lo = r.hi))
  | .belowMin x => .truth (decide (x < r.lo ∨ lb = .opened ∧ x = r.lo))
  | .aboveMax x => .truth (decide (r.hi < x ∨ hb = .opened ∧ x = r.hi))
  | .contains x => .truth (decide ((r.lo < x ∨ lb = .closed ∧ x = r.lo) ∧ (x < r.hi ∨ hb = .closed ∧ x = r.hi)))
  | .clamp x => .val (max r.lo (min x r.hi))
  | .overlap s => .maybe (if max r.lo s.lo ≤ min r.hi s.hi then some ⟨max r.lo s.lo, min r.hi s.hi⟩ else none)
  | .inBounds => .truth (decide ((r.lo < v ∨ lb = .closed ∧ v = r.lo) ∧ (v < r.hi ∨ hb = .closed ∧ v = r.hi)))
  | .clampValue => .nothing

/-- The value after the call if nothing throws. -/
def valueAfter (r : ValueRange α lb hb) (v : α) : Call α lb hb → α
  | .clampValue => max r.lo (min v r.hi)
  | _ => v

/-- The ranges concerned are in order: what the constructor asserts. -/
def inOrder (r : ValueRange α lb hb) : Call α lb hb → Prop
  | .make x y => x ≤ y
  | .overlap s => r.lo ≤ r.hi ∧ s.lo ≤ s.hi
  | .clamp _ => r.lo ≤ r.hi
  | .clampValue => r.lo ≤ r.hi
  | _ => True

/-- The operations of `contains`, after its argument was copied. -/
def containsOperations (r : ValueRange α lb hb) (x : α) : List (Ev × Bool) :=
  [(.copy, true), (.compare, true)] ++ if x < r.lo ∨ lb = .opened ∧ x = r.lo then [] else [(.copy, true), (.compare, true)]

/-- The operations of `clamp`, after its argument was copied. -/
def clampOperations (r : ValueRange α lb hb) (x : α) : List (Ev × Bool) :=
  [(.compare, true)] ++ (if x < r.lo then [] else [(.compare, true)]) ++ [(.copy, true)]

/-- The operations that a call performs, one after another, each marked with whether its exception ends the program. -/
def operations (b : Build) (r : ValueRange α lb hb) (v : α) : Call α lb hb → List (Ev × Bool)
  | .make _ _ => [(.copy, false), (.copy, false), (.copy, sealed b), (.copy, sealed b)] ++ checks b
  | .getMin => [(.copy, true)]
  | .getMax => [(.copy, true)]
  | .eq s => [(.compare, true)] ++ if r.lo = s.lo then [(.compare, true)] else []
  | .ne s => [(.compare, true)] ++ if r.lo = s.lo then [(.compare, true)] else []
  | .empty => [(.compare, true)]
  | .belowMin _ => [(.copy, false), (.compare, true)]
  | .aboveMax _ => [(.copy, false), (.compare, true)]
  | .contains x => (.copy, false) :: containsOperations r x
  | .clamp x => (.copy, false) :: clampOperations r x
  | .overlap s =>
    checks b ++ checks b ++ [(.compare, sealed b)] ++
      if s.hi < r.lo then []
      else [(.compare, sealed b)] ++
        if r.hi < s.lo then []
        else [(.compare, sealed b), (.copy, sealed b), (.compare, sealed b), (.copy, sealed b), (.copy, sealed b), (.copy, sealed b)] ++
          checks b ++ [(.move, true), (.move, true)]
  | .inBounds => (.copy, true) :: containsOperations r v
  | .clampValue => (.copy, true) :: clampOperations r v ++ [(.moveAssign, true)]

theorem performs_below (T : Throws α) (w : World α lb hb) (x : α) :
    Performs T (belowMinV T x) w [(.compare, true)] (decide (x < w.bounds.lo ∨ lb = .opened ∧ x = w.bounds.lo)) (later w 1) := by
  have h : w.bounds.belowMin x = decide (x < w.bounds.lo ∨ lb = .opened ∧ x = w.bounds.lo) := by
    cases lb <;> simp [ValueRange.belowMin, le_iff_lt_or_eq]
  have := performs_nothrow (performs_get (f := fun w => compareOp T (w.bounds.belowMin x)) (performs_compare T w (w.bounds.belowMin x)))
  rw [h] at this
  exact this

theorem performs_above (T : Throws α) (w : World α lb hb) (x : α) :
    Performs T (aboveMaxV T x) w [(.compare, true)] (decide (w.bounds.hi < x ∨ hb = .opened ∧ x = w.bounds.hi)) (later w 1) := by
  have h : w.bounds.aboveMax x = decide (w.bounds.hi < x ∨ hb = .opened ∧ x = w.bounds.hi) := by
    cases hb <;> simp [ValueRange.aboveMax, le_iff_lt_or_eq, eq_comm]
  have := performs_nothrow (performs_get (f := fun w => compareOp T (w.bounds.aboveMax x)) (performs_compare T w (w.bounds.aboveMax x)))
  rw [h] at this
  exact this

private theorem performs_contains (T : Throws α) (w : World α lb hb) (x : α) :
    Performs T (containsV T x) w (containsOperations w.bounds x)
      (decide ((w.bounds.lo < x ∨ lb = .closed ∧ x = w.bounds.lo) ∧ (x < w.bounds.hi ∨ hb = .closed ∧ x = w.bounds.hi)))
      (later w (containsOperations w.bounds x).length) := by
  by_cases hx : x < w.bounds.lo ∨ lb = .opened ∧ x = w.bounds.lo
  · have hn : ¬(w.bounds.lo < x ∨ lb = .closed ∧ x = w.bounds.lo) := by
      rcases hx with h | ⟨h, h'⟩
      · rintro (g | ⟨_, g⟩)
        · exact lt_asymm h g
        · exact absurd h (g ▸ lt_irrefl _)
      · rintro (g | ⟨g, _⟩)
        · exact absurd g (h' ▸ lt_irrefl _)
        · rw [h] at g; cases g
    have h1 := performs_bind (performs_op T w .copy) (f := fun _ => belowMinV T x >>= fun c =>
      if c then pure false else op T .copy >>= fun _ => aboveMaxV T x >>= fun d => pure (!d))
      (performs_bind (performs_below T (later w 1) x) (c := false) (l' := []) (w' := later w 2) (by
        simp only [later, hx, decide_true, if_true]
        exact performs_pure T _ false))
    have h2 := performs_nothrow h1
    simp only [containsOperations, hx, if_true, hn, false_and, decide_false]
    exact h2
  · have hn : (w.bounds.lo < x ∨ lb = .closed ∧ x = w.bounds.lo) := by
      push Not at hx
      rcases lt_trichotomy x w.bounds.lo with h | h | h
      · exact absurd h (not_lt.mpr hx.1)
      · right
        refine ⟨?_, h⟩
        cases lb
        · rfl
        · exact absurd h (hx.2 rfl)
      · exact Or.inl h
    have hb' : (decide (x < w.bounds.hi ∨ hb = .closed ∧ x = w.bounds.hi)) =
        !(decide (w.bounds.hi < x ∨ hb = .opened ∧ x = w.bounds.hi)) := by
      rw [← decide_not, decide_eq_decide]
      rcases lt_trichotomy x w.bounds.hi with h | h | h
      · simp [h, not_lt_of_gt h, ne_of_lt h]
      · cases hb <;> simp [h]
      · simp [h, not_lt_of_gt h, ne_of_gt h]
    have h1 := performs_bind (performs_op T w .copy) (f := fun _ => belowMinV T x >>= fun c =>
      if c then pure false else op T .copy >>= fun _ => aboveMaxV T x >>= fun d => pure (!d))
      (performs_bind (performs_below T (later w 1) x)
        (c := !(decide (w.bounds.hi < x ∨ hb = .opened ∧ x = w.bounds.hi))) (l' := [(.copy, false), (.compare, true)]) (w' := later w 4) (by
        simp only [later, hx, decide_false]
        exact performs_bind (performs_op T _ .copy) (performs_bind (performs_above T _ x) (performs_pure T _ _))))
    have h2 := performs_nothrow h1
    simp only [containsOperations, hx, if_false, hn, true_and, hb']
    exact h2

private theorem performs_eq (T : Throws α) (w : World α lb hb) (s : ValueRange α lb hb) :
    Performs T (eqV T s) w ([(.compare, true)] ++ if w.bounds.lo = s.lo then [(.compare, true)] else [])
      (decide (w.bounds.lo = s.lo ∧ w.bounds.hi = s.hi))
      (later w ([(Ev.compare, true)] ++ if w.bounds.lo = s.lo then [(Ev.compare, true)] else []).length) := by
  by_cases h : w.bounds.lo = s.lo
  · have h1 := performs_nothrow (performs_bind (performs_compare T w (w.bounds.lo == s.lo)) (f := fun c =>
      if c then compareOp T (w.bounds.hi == s.hi) else pure false) (l' := [(.compare, false)]) (w' := later w 2) (c := w.bounds.hi == s.hi)
      (by simp only [h, beq_self_eq_true, if_true]; exact performs_compare T _ _))
    simp only [h, if_true, true_and]
    have h2 : (w.bounds.hi == s.hi) = decide (w.bounds.hi = s.hi) := by
      rw [Bool.eq_iff_iff]; simp
    rw [h2] at h1
    exact h1
  · have h1 := performs_nothrow (performs_bind (performs_compare T w (w.bounds.lo == s.lo)) (f := fun c =>
      if c then compareOp T (w.bounds.hi == s.hi) else pure false) (l' := []) (w' := later w 1) (c := false)
      (by simp only [beq_eq_false_iff_ne.mpr h]; exact performs_pure T _ _))
    simp only [h, if_false, false_and, decide_false]
    exact h1

private theorem performs_clamp (T : Throws α) (w : World α lb hb) (x : α) (hw : w.bounds.lo ≤ w.bounds.hi) :
    Performs T (clampV T x) w (clampOperations w.bounds x) (max w.bounds.lo (min x w.bounds.hi))
      (later w (clampOperations w.bounds x).length) := by
  have hu : ¬ w.bounds.hi < w.bounds.lo := not_lt.mpr hw
  unfold clampV
  by_cases hx : x < w.bounds.lo
  · have hm : max w.bounds.lo (min x w.bounds.hi) = w.bounds.lo := max_eq_left ((min_le_left _ _).trans hx.le)
    refine performs_inside (l := [(.compare, false), (.copy, false)]) (performs_get ?_) (by simp [clampOperations, hx])
    rw [if_neg hu, hm]
    refine performs_bind (l' := [(.copy, false)]) (performs_compare T w _) ?_
    simp only [hx, decide_true, if_true, clampOperations]
    exact performs_bind (performs_op T _ .copy) (performs_pure T _ _)
  · refine performs_inside (l := [(.compare, false), (.compare, false), (.copy, false)]) (performs_get ?_) (by simp [clampOperations, hx])
    rw [if_neg hu]
    refine performs_bind (l' := [(.compare, false), (.copy, false)]) (performs_compare T w _) ?_
    simp only [hx, decide_false, if_false, clampOperations]
    refine performs_bind (l' := [(.copy, false)]) (performs_compare T _ _) ?_
    by_cases hy : w.bounds.hi < x
    · have hm : max w.bounds.lo (min x w.bounds.hi) = w.bounds.hi := by rw [min_eq_right hy.le, max_eq_right hw]
      simp only [hy, decide_true, if_true, hm]
      exact performs_bind (performs_op T _ .copy) (performs_pure T _ _)
    · have hm : max w.bounds.lo (min x w.bounds.hi) = x := by rw [min_eq_left (not_lt.mp hy), max_eq_right (not_lt.mp hx)]
      simp only [hy, decide_false, hm]
      exact performs_bind (performs_op T _ .copy) (performs_pure T _ _)

def asserted : Build → List (Ev × Bool)
  | .release => []
  | .debug => [(.compare, false)]
  | .aborting => [(.compare, false)]

theorem performs_assert (T : Throws α) (w : World α lb hb) (b : Build) (p : Bool) (hp : p = true) (msg : String) :
    Performs T (assertCompare T b p msg) w (asserted b) ⟨⟩ (later w (asserted b).length) := by
  subst hp
  cases b
  · exact performs_bind (performs_compare T w true) (performs_pure T _ _)
  · exact performs_bind (performs_compare T w true) (performs_pure T _ _)
  · exact performs_pure T _ _

private theorem performs_make (T : Throws α) (w : World α lb hb) (b : Build) (x y : α) (h : x ≤ y) :
    Performs T (makeV T b x y : St (World α lb hb) _) w ([(.copy, sealed b), (.copy, sealed b)] ++ checks b) ⟨x, y⟩
      (later w ([(Ev.copy, sealed b), (Ev.copy, sealed b)] ++ checks b).length) := by
  have h1 : Performs T (op T .copy >>= fun _ => op T .copy >>= fun _ =>
      assertCompare T b (decide (x ≤ y)) "value_range min should be <= max" >>= fun _ => pure (⟨x, y⟩ : ValueRange α lb hb)) w
      ([(.copy, false)] ++ ([(.copy, false)] ++ (asserted b ++ []))) ⟨x, y⟩
      (later (later (later (later w 1) 1) (asserted b).length) 0) :=
    performs_bind (performs_op T w .copy) (performs_bind (performs_op T _ .copy)
      (performs_bind (performs_assert T _ b _ (decide_eq_true h) _) (performs_pure T _ _)))
  have h2 := performs_release b h1
  cases b <;> exact h2

private theorem std_max (x y : α) : stdMax x y = max x y := by
  unfold stdMax
  split
  · rename_i h; exact (max_eq_right h.le).symm
  · rename_i h; exact (max_eq_left (not_lt.mp h)).symm

private theorem std_min (x y : α) : stdMin x y = min x y := by
  unfold stdMin
  split
  · rename_i h; exact (min_eq_right h.le).symm
  · rename_i h; exact (min_eq_left (not_lt.mp h)).symm

private theorem performs_overlap (T : Throws α) (w : World α lb hb) (b : Build) (s : ValueRange α lb hb)
    (hw : w.bounds.lo ≤ w.bounds.hi) (hs : s.lo ≤ s.hi) :
    Performs T (overlapV T b s) w (operations b w.bounds w.value (.overlap s))
      (if max w.bounds.lo s.lo ≤ min w.bounds.hi s.hi then some ⟨max w.bounds.lo s.lo, min w.bounds.hi s.hi⟩ else none)
      (later w (operations b w.bounds w.value (.overlap s)).length) := by
  have key : ∀ l o, Performs T (do
      if ← compareOp T (decide (s.hi < w.bounds.lo)) then
        pure none
      else if ← compareOp T (decide (w.bounds.hi < s.lo)) then
        pure none
      else do
        op T .compare
        op T .copy
        op T .compare
        op T .copy
        let o ← makeV T b (stdMax w.bounds.lo s.lo) (stdMin w.bounds.hi s.hi)
        nothrow do
          op T .move
          op T .move
        pure (some o)) (later (later w (asserted b).length) (asserted b).length) l o
        (later (later (later w (asserted b).length) (asserted b).length) l.length) →
      Performs T (overlapV T b s) w ((asserted b ++ (asserted b ++ l)).map fun p => (p.1, p.2 || sealed b)) o
        (later (later (later w (asserted b).length) (asserted b).length) l.length) := by
    intro l o h
    exact performs_release b (performs_get (performs_bind (performs_assert T w b _ (decide_eq_true hw) _)
      (performs_bind (performs_assert T _ b _ (decide_eq_true hs) _) h)))
  by_cases h1 : s.hi < w.bounds.lo
  · have hn : ¬ max w.bounds.lo s.lo ≤ min w.bounds.hi s.hi := by
      intro h
      exact absurd ((le_max_left _ _).trans (h.trans (min_le_right _ _))) (not_le.mpr h1)
    rw [if_neg hn]
    have h2 := key [(.compare, false)] none (by
      refine performs_bind (l' := []) (performs_compare T _ _) ?_
      simp only [h1, decide_true, if_true]
      exact performs_pure T _ _)
    simp only [operations, h1, if_true]
    cases b <;> exact h2
  · by_cases h2 : w.bounds.hi < s.lo
    · have hn : ¬ max w.bounds.lo s.lo ≤ min w.bounds.hi s.hi := by
        intro h
        exact absurd ((le_max_right _ _).trans (h.trans (min_le_left _ _))) (not_le.mpr h2)
      rw [if_neg hn]
      have h3 := key [(.compare, false), (.compare, false)] none (by
        refine performs_bind (l' := [(.compare, false)]) (performs_compare T _ _) ?_
        simp only [h1, decide_false]
        refine performs_bind (l' := []) (performs_compare T _ _) ?_
        simp only [h2, decide_true, if_true]
        exact performs_pure T _ _)
      simp only [operations, h1, h2, if_true, if_false]
      cases b <;> exact h3
    · have hp : max w.bounds.lo s.lo ≤ min w.bounds.hi s.hi :=
        max_le (le_min hw (not_lt.mp h1)) (le_min (not_lt.mp h2) hs)
      rw [if_pos hp]
      have h3 := key ([(.compare, false)] ++ ([(.compare, false)] ++ ([(.compare, false)] ++ ([(.copy, false)] ++ ([(.compare, false)] ++
          ([(.copy, false)] ++ (([(.copy, sealed b), (.copy, sealed b)] ++ checks b) ++ ([(.move, true), (.move, true)] ++ []))))))))
        (some ⟨max w.bounds.lo s.lo, min w.bounds.hi s.hi⟩) (by
        rw [std_max, std_min]
        refine performs_bind (performs_compare T _ _) ?_
        simp only [h1, decide_false]
        refine performs_bind (performs_compare T _ _) ?_
        simp only [h2, decide_false]
        refine performs_bind (performs_op T _ _) (performs_bind (performs_op T _ _) (performs_bind (performs_op T _ _)
          (performs_bind (performs_op T _ _) (performs_bind (performs_make T _ b _ _ hp) (performs_bind (performs_inside
            (performs_bind (performs_op T _ .move) (performs_op T _ .move)) rfl) ?_)))))
        cases b <;> exact performs_pure T _ _)
      simp only [operations, h1, h2, if_false]
      cases b <;> exact h3

private theorem performs_assignValue (T : Throws α) (w : World α lb hb) (x : α) :
    Performs T (nothrow (assignValue T x)) w [(.moveAssign, true)] ⟨⟩ { later w 1 with value := x } := by
  simp only [Performs, firstFailure]
  cases h : T.fails .moveAssign w.done <;> simp [nothrow, assignValue, h, St.run, noexcept]

omit [LinearOrder α] in
private theorem nothrow_bind {β γ : Type} (x : St (World α lb hb) β) (f : β → St (World α lb hb) γ) :
    nothrow (x >>= f) = nothrow (x >>= fun a => nothrow (f a)) := by
  funext w
  show (noexcept ((x >>= f).run w).1, ((x >>= f).run w).2) = (noexcept ((x >>= fun a => nothrow (f a)).run w).1, _)
  simp only [St.run_bind]
  rcases x.run w with ⟨a | _ | _ | _ | _, w'⟩
  · show (noexcept (f a w').1, _) = (noexcept (noexcept (f a w').1), (f a w').2)
    show (noexcept (f a w').1, (f a w').2) = _
    rcases f a w' with ⟨_ | _ | _ | _ | _, w''⟩ <;> rfl
  all_goals rfl

private theorem performs_clampValue (T : Throws α) (w : World α lb hb) (hw : w.bounds.lo ≤ w.bounds.hi) :
    Performs T (clampValueV T) w (((.copy, true) :: clampOperations w.bounds w.value) ++ [(.moveAssign, true)]) ⟨⟩
      { later w (((Ev.copy, true) :: clampOperations w.bounds w.value).length + 1) with value := max w.bounds.lo (min w.value w.bounds.hi) } := by
  show Performs T (nothrow (op T .copy >>= fun _ => clampV T w.value >>= assignValue T)) w _ _ _
  rw [nothrow_bind, show (fun _ : PUnit => nothrow (clampV T w.value >>= assignValue T)) = fun _ =>
    (nothrow (clampV T w.value >>= fun y => nothrow (assignValue T y)) : St (World α lb hb) PUnit) from
      funext fun _ => nothrow_bind _ _]
  have h1 := performs_clamp T (later w 1) w.value hw
  have h2 := performs_nothrow (performs_bind (performs_op T w .copy) (f := fun _ => nothrow (clampV T w.value >>= fun y => nothrow (assignValue T y)))
    (performs_nothrow (performs_bind h1 (performs_assignValue T _ _))))
  have h3 : (([(Ev.copy, false)] ++ (clampOperations w.bounds w.value ++ [(Ev.moveAssign, true)]).map fun p => (p.1, true)).map
      fun p => (p.1, true)) =
      ((.copy, true) :: clampOperations w.bounds w.value) ++ [(.moveAssign, true)] := by
    unfold clampOperations; split <;> rfl
  erw [h3, later_later, later_later] at h2
  rw [Nat.add_comm _ 1]
  exact h2

/-- C195, exactly what happens in a call: it performs the `operations` one after another and returns the `answer` if none throws; an
exception of an argument's copy reaches the caller, in debug builds with exceptions also those of the constructor and of `overlap`, and then
the bounds and the value are as before; every other exception ends the program. -/
theorem c195_exact_partial (T : Throws α) (b : Build) (c : Call α lb hb) (w : World α lb hb) (h : inOrder w.bounds c) :
    Performs T (c.run T b) w (operations b w.bounds w.value c) (answer w.bounds w.value c)
      { done := w.done + (operations b w.bounds w.value c).length, bounds := w.bounds, value := valueAfter w.bounds w.value c } := by
  cases c with
  | make x y =>
    have := performs_copied (w := w) (performs_copied (performs_bind_end Ret.range (performs_make T _ b x y h)))
    cases b <;> exact this
  | getMin =>
    exact performs_bind_end (Ret.val (lb := lb) (hb := hb)) (performs_inside (l := [(.copy, false)]) (performs_get (performs_bind (performs_op T w .copy)
      (performs_pure T _ _))) rfl)
  | getMax =>
    exact performs_bind_end (Ret.val (lb := lb) (hb := hb)) (performs_inside (l := [(.copy, false)]) (performs_get (performs_bind (performs_op T w .copy)
      (performs_pure T _ _))) rfl)
  | eq s => exact performs_bind_end (Ret.truth (α := α) (lb := lb) (hb := hb)) (performs_eq T w s)
  | ne s =>
    have h1 := performs_nothrow (performs_bind_end Bool.not (performs_eq T w s))
    have h2 : (([(.compare, true)] ++ if w.bounds.lo = s.lo then [(.compare, true)] else []) : List (Ev × Bool)).map (fun p => (p.1, true)) =
        [(.compare, true)] ++ if w.bounds.lo = s.lo then [(.compare, true)] else [] := by split <;> rfl
    rw [h2, ← decide_not] at h1
    exact performs_bind_end (Ret.truth (α := α) (lb := lb) (hb := hb)) h1
  | empty =>
    have h1 := performs_inside (l' := [(.compare, true)]) (performs_get (f := fun w => compareOp T (w.bounds.lo == w.bounds.hi))
      (performs_compare T w (w.bounds.lo == w.bounds.hi))) rfl
    have h2 : (w.bounds.lo == w.bounds.hi) = decide (w.bounds.lo = w.bounds.hi) := by rw [Bool.eq_iff_iff]; simp
    rw [h2] at h1
    exact performs_bind_end (Ret.truth (α := α) (lb := lb) (hb := hb)) h1
  | belowMin x => exact performs_copied (performs_bind_end (Ret.truth (α := α) (lb := lb) (hb := hb)) (performs_below T _ x))
  | aboveMax x => exact performs_copied (performs_bind_end (Ret.truth (α := α) (lb := lb) (hb := hb)) (performs_above T _ x))
  | contains x =>
    have h1 := performs_copied (performs_bind_end (Ret.truth (α := α) (lb := lb) (hb := hb)) (performs_contains T (later w 1) x))
    rw [later_later] at h1
    exact h1
  | clamp x =>
    have h1 := performs_copied (performs_bind_end (Ret.val (lb := lb) (hb := hb)) (performs_clamp T (later w 1) x h))
    rw [later_later] at h1
    exact h1
  | overlap s => exact performs_bind_end Ret.maybe (performs_overlap T w b s h.1 h.2)
  | inBounds =>
    have h1 := performs_nothrow (performs_get (f := fun w => op T .copy >>= fun _ => containsV T w.value)
      (performs_copied (performs_contains T (later w 1) w.value)))
    rw [later_later] at h1
    have h2 : ((.copy, false) :: containsOperations w.bounds w.value).map (fun p => (p.1, true)) = (.copy, true) :: containsOperations w.bounds w.value := by
      unfold containsOperations; split <;> rfl
    erw [h2] at h1
    exact performs_bind_end (Ret.truth (α := α) (lb := lb) (hb := hb)) h1
  | clampValue =>
    have h1 := performs_clampValue T w h
    have h2 := performs_bind_end (fun _ => Ret.nothing (α := α) (lb := lb) (hb := hb)) h1
    have h3 : (((Ev.copy, true) :: clampOperations w.bounds w.value).length + 1) =
        (operations b w.bounds w.value Call.clampValue).length := by simp [operations]
    rw [h3] at h2
    exact h2

/-- C195, what holds: a call that throws changes neither bounds nor value, in every build. -/
theorem c195_unchanged_partial (T : Throws α) (b : Build) (c : Call α lb hb) (w : World α lb hb) (h : inOrder w.bounds c) (e : Exc)
    (he : ((c.run T b).run w).1 = .throw e) :
    ((c.run T b).run w).2.bounds = w.bounds ∧ ((c.run T b).run w).2.value = w.value ∧ ∃ o n, T.fails o n = some e := by
  have h1 := c195_exact_partial T b c w h
  have hf : ∀ l n q, firstFailure T n l = some q → ∃ o, T.fails o q.1 = some q.2.1 := by
    intro l
    induction l with
    | nil => intro n q h; cases h
    | cons p l ih =>
      obtain ⟨o, t⟩ := p
      intro n q h
      simp only [firstFailure] at h
      cases ho : T.fails o n with
      | none => rw [ho] at h; exact ih _ _ h
      | some x => rw [ho] at h; cases h; exact ⟨o, ho⟩
  simp only [Performs] at h1
  cases h2 : firstFailure T w.done (operations b w.bounds w.value c) with
  | none =>
    simp only [h2] at h1
    rw [h1] at he
    cases he
  | some q =>
    obtain ⟨n, x, t⟩ := q
    simp only [h2] at h1
    obtain ⟨o, ho⟩ := hf _ _ _ h2
    cases t with
    | true => rw [h1] at he; cases he
    | false =>
      simp only at h1
      rw [h1] at he
      cases he
      rw [h1]
      exact ⟨rfl, rfl, o, n, ho⟩

/-- Whether a call takes a value as an argument. -/
def takesValue : Call α lb hb → Bool
  | .make _ _ => true
  | .belowMin _ => true
  | .aboveMax _ => true
  | .contains _ => true
  | .clamp _ => true
  | _ => false

/-- C195, arguments: if copying an argument throws, the exception reaches the caller. -/
theorem c195_arguments_partial (T : Throws α) (b : Build) (c : Call α lb hb) (w : World α lb hb) (e : Exc) (hc : takesValue c = true)
    (h : inOrder w.bounds c) (he : T.fails .copy w.done = some e) : (c.run T b).run w = (.throw e, { w with done := w.done + 1 }) := by
  have h1 := c195_exact_partial T b c w h
  cases c <;> cases hc <;> simpa [Performs, operations, firstFailure, he] using h1

/-- Whether a call compares in every build. -/
def compares : Call α lb hb → Bool
  | .make _ _ => false
  | .getMin => false
  | .getMax => false
  | _ => true

/-- C195 is false: if comparing values throws, every call that compares ends the program, in every build; only the exceptions that
`overlap` meets in a debug build reach the caller. -/
theorem c195_refuted (T : Throws α) (b : Build) (c : Call α lb hb) (w : World α lb hb) (h : inOrder w.bounds c)
    (hcopy : ∀ n, T.fails .copy n = none) (hcmp : ∀ n, T.fails .compare n ≠ none) (hc : compares c = true) :
    (((c.run T b).run w).1 = .terminate ↔ ¬(b = .debug ∧ ∃ s, c = .overlap s)) ∧
    ((∃ e, ((c.run T b).run w).1 = .throw e) ↔ b = .debug ∧ ∃ s, c = .overlap s) := by
  have h1 := c195_exact_partial T b c w h
  have hx : ∀ n, ∃ e, T.fails .compare n = some e := fun n => Option.ne_none_iff_exists'.mp (hcmp n)
  obtain ⟨e0, he0⟩ := hx w.done
  obtain ⟨e1, he1⟩ := hx (w.done + 1)
  obtain ⟨e2, he2⟩ := hx (w.done + 1 + 1)
  cases c <;> cases hc <;>
    simp only [Performs, operations, containsOperations, clampOperations, List.cons_append, List.nil_append, firstFailure, hcopy, he0, he1, he2] at h1
  case overlap s =>
    cases b <;> simp only [checks, sealed, List.cons_append, List.nil_append, firstFailure, he0] at h1 <;> simp [h1]
  all_goals simp [h1]

/-- C195 is false for the functions that only read: if copying a value throws, `min()` and `max()` end the program in every build, and so do
`is_in_bounds()` and `clamp()` of a `bounded_value`. -/
theorem c195_refuted_getters (T : Throws α) (b : Build) (w : World α lb hb) (hw : w.bounds.lo ≤ w.bounds.hi)
    (h : T.fails .copy w.done ≠ none) (c : Call α lb hb) (hc : c ∈ [Call.getMin, .getMax, .inBounds, .clampValue]) :
    ((c.run T b).run w).1 = .terminate := by
  obtain ⟨e, he⟩ := Option.ne_none_iff_exists'.mp h
  have h1 := c195_exact_partial T b c w (by
    simp only [List.mem_cons, List.not_mem_nil, or_false] at hc
    rcases hc with rfl | rfl | rfl | rfl <;> first | exact trivial | exact hw)
  simp only [List.mem_cons, List.not_mem_nil, or_false] at hc
  rcases hc with rfl | rfl | rfl | rfl <;> simpa [Performs, operations, firstFailure, he] using h1

/-- What a setter does before the assignment: the argument is copied by the caller, and the assertion copies and compares. -/
def setterOperations (b : Build) : List (Ev × Bool) :=
  match b with
  | .release => [(.copy, false)]
  | .debug => [(.copy, false), (.copy, false), (.compare, true)]
  | .aborting => [(.copy, false), (.copy, true), (.compare, true)]

omit [LinearOrder α] in
theorem op_run (T : Throws α) (e : Ev) (v : World α lb hb) : (op T e).run v = (match T.fails e v.done with
    | none => (.ok ⟨⟩, { v with done := v.done + 1 })
    | some x => (.throw x, { v with done := v.done + 1 })) := rfl

omit [LinearOrder α] in
theorem nothrow_run {β : Type} (x : St (World α lb hb) β) (v : World α lb hb) :
    (nothrow x).run v = (noexcept (x.run v).1, (x.run v).2) := rfl

omit [LinearOrder α] in
theorem assignMin_run (T : Throws α) (x : α) (v : World α lb hb) : (assignMin T x).run v = (match T.fails .assign v.done with
    | none => (.ok ⟨⟩, { v with done := v.done + 1, bounds := { v.bounds with lo := x } })
    | some e => (.throw e, { v with done := v.done + 1, bounds := { v.bounds with lo := T.torn v.bounds.lo x } })) := rfl

omit [LinearOrder α] in
theorem assignMax_run (T : Throws α) (x : α) (v : World α lb hb) : (assignMax T x).run v = (match T.fails .assign v.done with
    | none => (.ok ⟨⟩, { v with done := v.done + 1, bounds := { v.bounds with hi := x } })
    | some e => (.throw e, { v with done := v.done + 1, bounds := { v.bounds with hi := T.torn v.bounds.hi x } })) := rfl

/-- C195, the setter `min(x)` of a range closed below, where the new bound keeps the range in order: exceptions of the argument's copy reach
the caller and change nothing; an exception of the assignment reaches the caller only in debug builds, and leaves whatever the assignment
leaves of the bound; all others end the program. -/
theorem c195_set_min_partial (T : Throws α) (b : Build) (x : α) (w : World α .closed hb)
    (h : x < w.bounds.hi ∨ hb = .closed ∧ x = w.bounds.hi) :
    match firstFailure T w.done (setterOperations b) with
    | some (_, _, true) => ((callSetMin T b x).run w).1 = .terminate
    | some (n, e, false) => (callSetMin T b x).run w = (.throw e, { w with done := n + 1 })
    | none =>
      match T.fails .assign (w.done + (setterOperations b).length) with
      | none => (callSetMin T b x).run w =
          (.ok ⟨⟩, { w with done := w.done + (setterOperations b).length + 1, bounds := { w.bounds with lo := x } })
      | some e =>
        if b = .debug then (callSetMin T b x).run w =
          (.throw e, { w with done := w.done + (setterOperations b).length + 1, bounds := { w.bounds with lo := T.torn w.bounds.lo x } })
        else ((callSetMin T b x).run w).1 = .terminate := by
  have ha : w.bounds.aboveMax x = false := by
    rcases h with h | ⟨rfl, h⟩
    · cases hb <;> simp [ValueRange.aboveMax, h.le, h]
    · simp [ValueRange.aboveMax, h]
  cases b <;> simp only [setterOperations, firstFailure] <;> cases h0 : T.fails .copy w.done
  case release.none =>
    cases h3 : T.fails .assign (w.done + 1) <;>
      simp [callSetMin, setMinV, releaseNoexcept, nothrow_run, St.run_bind, op_run, assignMin_run, noexcept, h0, h3]
  case debug.none =>
    cases h1 : T.fails .copy (w.done + 1)
    case some => simp [callSetMin, setMinV, releaseNoexcept, St.run_bind, op_run, h0, h1]
    case none =>
      cases h2 : T.fails .compare (w.done + 1 + 1)
      case some => simp [callSetMin, setMinV, releaseNoexcept, aboveMaxV, compareOp, nothrow_run, St.run_bind, op_run, noexcept, h0, h1, h2]
      case none =>
        cases h3 : T.fails .assign (w.done + 1 + 1 + 1) <;>
          simp [callSetMin, setMinV, releaseNoexcept, aboveMaxV, compareOp, nothrow_run, St.run_bind, op_run, assignMin_run, noexcept,
            debugAssert, ha, h0, h1, h2, h3]
  case aborting.none =>
    cases h1 : T.fails .copy (w.done + 1)
    case some => simp [callSetMin, setMinV, releaseNoexcept, nothrow_run, St.run_bind, op_run, noexcept, h0, h1]
    case none =>
      cases h2 : T.fails .compare (w.done + 1 + 1)
      case some => simp [callSetMin, setMinV, releaseNoexcept, aboveMaxV, compareOp, nothrow_run, St.run_bind, op_run, noexcept, h0, h1, h2]
      case none =>
        cases h3 : T.fails .assign (w.done + 1 + 1 + 1) <;>
          simp [callSetMin, setMinV, releaseNoexcept, aboveMaxV, compareOp, nothrow_run, St.run_bind, op_run, assignMin_run, noexcept,
            debugAssert, ha, h0, h1, h2, h3]
  all_goals simp [callSetMin, St.run_bind, op_run, h0]

/-- C195, the setter `max(x)` of a range closed above, where the new bound keeps the range in order: exceptions of the argument's copy reach
the caller and change nothing; an exception of the assignment reaches the caller only in debug builds, and leaves whatever the assignment
leaves of the bound; all others end the program. -/
theorem c195_set_max_partial (T : Throws α) (b : Build) (x : α) (w : World α lb .closed)
    (h : w.bounds.lo < x ∨ lb = .closed ∧ x = w.bounds.lo) :
    match firstFailure T w.done (setterOperations b) with
    | some (_, _, true) => ((callSetMax T b x).run w).1 = .terminate
    | some (n, e, false) => (callSetMax T b x).run w = (.throw e, { w with done := n + 1 })
    | none =>
      match T.fails .assign (w.done + (setterOperations b).length) with
      | none => (callSetMax T b x).run w =
          (.ok ⟨⟩, { w with done := w.done + (setterOperations b).length + 1, bounds := { w.bounds with hi := x } })
      | some e =>
        if b = .debug then (callSetMax T b x).run w =
          (.throw e, { w with done := w.done + (setterOperations b).length + 1, bounds := { w.bounds with hi := T.torn w.bounds.hi x } })
        else ((callSetMax T b x).run w).1 = .terminate := by
  have ha : w.bounds.belowMin x = false := by
    rcases h with h | ⟨rfl, h⟩
    · cases lb <;> simp [ValueRange.belowMin, h.le, h]
    · simp [ValueRange.belowMin, h]
  cases b <;> simp only [setterOperations, firstFailure] <;> cases h0 : T.fails .copy w.done
  case release.none =>
    cases h3 : T.fails .assign (w.done + 1) <;>
      simp [callSetMax, setMaxV, releaseNoexcept, nothrow_run, St.run_bind, op_run, assignMax_run, noexcept, h0, h3]
  case debug.none =>
    cases h1 : T.fails .copy (w.done + 1)
    case some => simp [callSetMax, setMaxV, releaseNoexcept, St.run_bind, op_run, h0, h1]
    case none =>
      cases h2 : T.fails .compare (w.done + 1 + 1)
      case some => simp [callSetMax, setMaxV, releaseNoexcept, belowMinV, compareOp, nothrow_run, St.run_bind, op_run, noexcept, h0, h1, h2]
      case none =>
        cases h3 : T.fails .assign (w.done + 1 + 1 + 1) <;>
          simp [callSetMax, setMaxV, releaseNoexcept, belowMinV, compareOp, nothrow_run, St.run_bind, op_run, assignMax_run, noexcept,
            debugAssert, ha, h0, h1, h2, h3]
  case aborting.none =>
    cases h1 : T.fails .copy (w.done + 1)
    case some => simp [callSetMax, setMaxV, releaseNoexcept, nothrow_run, St.run_bind, op_run, noexcept, h0, h1]
    case none =>
      cases h2 : T.fails .compare (w.done + 1 + 1)
      case some => simp [callSetMax, setMaxV, releaseNoexcept, belowMinV, compareOp, nothrow_run, St.run_bind, op_run, noexcept, h0, h1, h2]
      case none =>
        cases h3 : T.fails .assign (w.done + 1 + 1 + 1) <;>
          simp [callSetMax, setMaxV, releaseNoexcept, belowMinV, compareOp, nothrow_run, St.run_bind, op_run, assignMax_run, noexcept,
            debugAssert, ha, h0, h1, h2, h3]
  all_goals simp [callSetMax, St.run_bind, op_run, h0]

/-- C195 is false: in debug builds a setter whose assignment throws leaves the range with what the assignment leaves of the bound, which may
be any value `y`, also one above the maximum. -/
theorem c195_refuted_torn (T : Throws α) (x y : α) (w : World α .closed .closed) (e : Exc) (h : x ≤ w.bounds.hi)
    (hcopy : ∀ n, T.fails .copy n = none) (hcmp : ∀ n, T.fails .compare n = none) (hassign : ∀ n, T.fails .assign n = some e)
    (hy : T.torn w.bounds.lo x = y) :
    ((callSetMin T .debug x).run w).1 = .throw e ∧ ((callSetMin T .debug x).run w).2.bounds = ⟨y, w.bounds.hi⟩ := by
  have h1 := c195_set_min_partial T .debug x w (by rcases lt_or_eq_of_le h with h | h; exacts [Or.inl h, Or.inr ⟨rfl, h⟩])
  simp only [setterOperations, firstFailure, hcopy, hcmp, hassign, if_true] at h1
  rw [h1, hy]
  exact ⟨rfl, rfl⟩

private def noCompare : Throws Int := ⟨fun e n => if e = .compare ∧ n ≥ 3 then some (.user 7) else none, fun _ _ => 99⟩
private def aRange : World Int .closed .closed := ⟨0, ⟨1, 5⟩, 3⟩

/- The value is above the minimum, so the second comparison is made, which is the fifth operation and throws inside `contains`. The value
below the minimum needs no second comparison. -/
example : ((Call.run noCompare .debug (.contains 3)).run aRange).1 = .terminate ∧
    (Call.run noCompare .debug (.contains 0)).run aRange = (.ok (.truth false), ⟨3, ⟨1, 5⟩, 3⟩) := by decide

/- `overlap` in the two debug builds. -/
example : ((Call.run noCompare .debug (.overlap ⟨2, 9⟩)).run aRange).1 = .throw (.user 7) ∧
    ((Call.run noCompare .aborting (.overlap ⟨2, 9⟩)).run aRange).1 = .terminate ∧
    ((Call.run ⟨fun _ _ => none, fun a _ => a⟩ .debug (.overlap ⟨2, 9⟩)).run aRange).1 = .ok (.maybe (some ⟨2, 5⟩)) := by decide

private def noAssign : Throws Int := ⟨fun e _ => if e = .assign then some (.user 7) else none, fun _ _ => 99⟩

/- The range from 1 to 5 has the minimum 99 after the exception. -/
example : (callSetMin noAssign .debug 2).run aRange = (.throw (.user 7), ⟨4, ⟨99, 5⟩, 3⟩) ∧
    ((callSetMin noAssign .release 2).run aRange).1 = .terminate := by decide

end Wite.Props
