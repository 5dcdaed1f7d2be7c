import Verif.Model.ConstEval
import Verif.Lemmas.StaticVector
import Verif.Props.FragmentString

/-!
# Property C203: what is declared constexpr can be evaluated at compile time
-/

namespace Wite.Props

open Wite Wite.Str Wite.Collections Wite.ConstEval

private theorem out_bind {α β : Type} (x : Ev α) (f : α → Ev β) : (x >>= f).out = x.out >>= fun a => (f a).out := by
  show (Ev.bind x f).out = _
  unfold Ev.bind
  cases x.out <;> rfl

private theorem out_compileTime {α : Type} (o : Outcome α) : (compileTime o).out = o := rfl
private theorem out_runTime {α : Type} (o : Outcome α) : (runTime o).out = o := rfl
private theorem out_pure {α : Type} (a : α) : (pure a : Ev α).out = .ok a := rfl
private theorem out_noexcept {α : Type} (x : Ev α) : x.noexcept.out = Wite.noexcept x.out := rfl
private theorem out_ite {α : Type} {p : Prop} [Decidable p] (x y : Ev α) : (if p then x else y).out = if p then x.out else y.out := by split <;> rfl

private theorem const_bind {α β : Type} (x : Ev α) (f : α → Ev β) : (x >>= f).IsConstant ↔ ∃ a, x.allowed = true ∧ x.out = .ok a ∧ (f a).IsConstant := by
  show (Ev.bind x f).IsConstant ↔ _
  unfold Ev.bind Ev.IsConstant
  cases h : x.out <;> simp [Outcome.returns, and_assoc]

private theorem const_compileTime {α : Type} (o : Outcome α) : (compileTime o).IsConstant ↔ o.returns := by simp [compileTime, Ev.IsConstant]
private theorem const_pure {α : Type} (a : α) : (pure a : Ev α).IsConstant := ⟨rfl, trivial⟩
private theorem const_runTime {α : Type} (o : Outcome α) : ¬(runTime o).IsConstant := by simp [runTime, Ev.IsConstant]
private theorem const_noexcept {α : Type} (x : Ev α) : x.noexcept.IsConstant ↔ x.IsConstant := by
  unfold Ev.IsConstant Ev.noexcept Wite.noexcept
  cases x.out <;> simp [Outcome.returns]

private theorem run_bind {α β : Type} (o : Outcome α) (f : α → Ev β) : ¬(runTime o >>= f).IsConstant := by
  rw [const_bind]; rintro ⟨a, h, -⟩; cases h

private theorem not_bind {α β : Type} {x : Ev α} (h : ¬x.IsConstant) (f : α → Ev β) : ¬(x >>= f).IsConstant := by
  rw [const_bind]; rintro ⟨a, h1, h2, -⟩
  exact h ⟨h1, by rw [h2]; trivial⟩

private theorem not_begin {C : Type} (fs : FragStr C) : ¬(fsBegin fs).IsConstant := by
  unfold fsBegin; rw [const_bind]; rintro ⟨a, -, -, h⟩; exact const_runTime _ h

private theorem not_end {C : Type} (fs : FragStr C) : ¬(fsEnd fs).IsConstant := by
  unfold fsEnd; rw [const_bind]; rintro ⟨a, -, -, h⟩; exact const_runTime _ h

private theorem begin_out {C : Type} (fs : FragStr C) : (fsBegin fs).out = begin' fs := by
  unfold fsBegin makeIter; rw [out_bind, out_compileTime]; cases begin' fs <;> rfl

private theorem end_out {C : Type} (fs : FragStr C) : (fsEnd fs).out = end' fs := by
  unfold fsEnd makeIter; rw [out_bind, out_compileTime]; cases end' fs <;> rfl

/-! ## Evaluation at compile time gives what evaluation at run time gives -/

/-- C203, the evaluations meant here are the calls the other claims about fragment_string are about. -/
theorem c203_same_string_partial {C : Type} [LinearOrder C] (b : Build) (fs gs : FragStr C) (s : List C) (c : C) (pos count : Nat) :
    (fsIndex b fs pos).out = Str.index b fs pos ∧ (fsAt b fs pos).out = at' b fs pos ∧
    (fsCompare b fs s).out = compareView b fs s ∧ (fsCompareFs b fs gs).out = compareFs b fs gs ∧
    (fsStartsWithChar b fs c).out = startsWithChar b fs c ∧ (fsEndsWithChar b fs c).out = endsWithChar b fs c ∧
    (fsStartsWith b fs s).out = startsWithView b fs s ∧ (fsEndsWith b fs s).out = endsWithView b fs s ∧
    (fsStartsWithFs b fs gs).out = startsWithFs b fs gs ∧ (fsEndsWithFs b fs gs).out = endsWithFs b fs gs ∧
    (fsFindChar fs c pos).out = findChar fs c pos ∧ (fsFind b fs s pos).out = findView b fs s pos ∧
    (fsContains b fs s).out = containsView b fs s ∧ (fsContainsFs b fs gs).out = containsFs b fs gs ∧
    (fsSubstr b fs pos count).out = substr b fs pos count ∧ (fsCopy b fs count pos).out = copy b fs count pos := by
  have hi : (fsIndex b fs pos).out = Str.index b fs pos := by
    simp only [fsIndex, Str.index, out_noexcept, out_bind, begin_out, out_runTime, out_compileTime]
  have hf : ∀ p, (fsFind b fs s p).out = findView b fs s p := by
    intro p
    simp only [fsFind, findView, out_noexcept, out_ite, out_bind, end_out, out_runTime, out_pure, makeIter, Outcome.pure_eq, Outcome.bind_ok]
  refine ⟨hi, ?_, ?_, ?_, ?_, ?_, ?_, ?_, ?_, ?_, ?_, hf pos, ?_, ?_, ?_, ?_⟩
  · simp only [fsAt, at', out_ite, out_compileTime, hi]
  · simp only [fsCompare, compareView, compareIter, out_bind, begin_out, end_out, out_runTime]
  · simp only [fsCompareFs, compareFs, compareIter, out_bind, begin_out, end_out, out_runTime]
  · simp only [fsStartsWithChar, startsWithChar, out_noexcept, out_ite, out_bind, out_pure, fsFront, out_compileTime, Outcome.pure_eq]
  · simp only [fsEndsWithChar, endsWithChar, out_noexcept, out_ite, out_bind, out_pure, fsBack, out_compileTime, Outcome.pure_eq]
  · simp only [fsStartsWith, startsWithView, out_noexcept, out_bind, begin_out, out_runTime]
  · simp only [fsEndsWith, endsWithView, out_noexcept, out_bind, end_out, out_runTime]
  · simp only [fsStartsWithFs, startsWithFs, out_noexcept, out_bind, begin_out, end_out, out_runTime]
  · simp only [fsEndsWithFs, endsWithFs, out_noexcept, out_bind, begin_out, end_out, out_runTime]
  · simp only [fsFindChar, findChar, out_ite, out_bind, out_runTime, out_pure, Outcome.pure_eq]
  · simp only [fsContains, containsView, out_bind, hf, out_pure, Outcome.pure_eq]
  · simp only [fsContainsFs, containsFs, out_noexcept, out_ite, out_bind, begin_out, end_out, out_runTime, out_pure, Outcome.pure_eq]
  · simp only [fsSubstr, substr, out_ite, out_bind, begin_out, end_out, out_runTime, out_compileTime]
  · simp only [fsCopy, copy, out_ite, out_bind, begin_out, out_runTime, out_compileTime, out_pure, Outcome.pure_eq]

private theorem advance_out (b : Build) : (advance b).out = .ok () := by cases b <;> rfl

private theorem equalFrom_out {α : Type} (b : Build) (eq : α → α → Bool) (v w : StaticVector α) (n : Nat) :
    ∀ i, (svEqualFrom b eq v w i n).out = StaticVector.equalFrom eq v w i n := by
  induction n with
  | zero => intro i; rfl
  | succ n ih =>
    intro i
    simp only [svEqualFrom, StaticVector.equalFrom, out_bind, out_compileTime, out_ite, out_pure, advance_out, Outcome.bind_ok, ih, Outcome.pure_eq]

private theorem readFrom_out {α : Type} (b : Build) (v : StaticVector α) (n : Nat) : ∀ i, (svReadFrom b v i n).out = StaticVector.readFrom v i n := by
  induction n with
  | zero => intro i; rfl
  | succ n ih =>
    intro i
    simp only [svReadFrom, StaticVector.readFrom, out_bind, out_compileTime, out_pure, advance_out, Outcome.bind_ok, ih, Outcome.pure_eq]

private theorem unsafeResize_out {α : Type} (n : Nat) (x : α) (v : StaticVector α) : (svUnsafeResize n x v).out = StaticVector.unsafeResize n x v := by
  simp only [svUnsafeResize, StaticVector.unsafeResize, out_bind, out_ite, out_compileTime, out_runTime, out_pure, Outcome.pure_eq]

/-- C203, the same for static_vector. -/
theorem c203_same_vector_partial {α : Type} (b : Build) (eq : α → α → Bool) (v w : StaticVector α) (n : Nat) (x : α) :
    (svEqual b eq v w).out = v.equal eq w ∧ (svNotEqual b eq v w).out = v.notEqual eq w ∧ (svIterate b v).out = v.iterate ∧
    (StaticVector.resize n x).run v = (match (svResize n x v).out with
      | .ok v' => (.ok (), v')
      | .throw e => (.throw e, v)
      | .ub => (.ub, v)
      | .terminate => (.terminate, v)
      | .diverge => (.diverge, v)) := by
  have he : (svEqual b eq v w).out = v.equal eq w := by
    simp only [svEqual, StaticVector.equal, out_ite, out_pure, equalFrom_out]
  refine ⟨he, ?_, readFrom_out b v v.count 0, ?_⟩
  · simp only [svNotEqual, StaticVector.notEqual, out_bind, he, out_pure, Outcome.pure_eq]
  · simp only [svResize, out_ite, out_compileTime, unsafeResize_out]
    show StaticVector.resize n x v = _
    unfold StaticVector.resize
    split <;> rfl

/-! ## Strings -/

/-- C203 fails for most functions of fragment_string: whatever the string and the arguments and in every build, none of these calls is ever a constant expression. -/
theorem c203_refuted_string {C : Type} [LinearOrder C] (b : Build) (fs gs : FragStr C) (s : List C) (pos count : Nat) :
    ¬(fsBegin fs).IsConstant ∧ ¬(fsEnd fs).IsConstant ∧ ¬(fsIndex b fs pos).IsConstant ∧ ¬(fsAt b fs pos).IsConstant ∧ ¬(fsCompare b fs s).IsConstant ∧
    ¬(fsCompareFs b fs gs).IsConstant ∧ ¬(fsStartsWith b fs s).IsConstant ∧ ¬(fsEndsWith b fs s).IsConstant ∧ ¬(fsStartsWithFs b fs gs).IsConstant ∧
    ¬(fsEndsWithFs b fs gs).IsConstant ∧ ¬(fsSubstr b fs pos count).IsConstant ∧ ¬(fsCopy b fs count pos).IsConstant := by
  have hi : ¬(fsIndex b fs pos).IsConstant := by
    rw [fsIndex, const_noexcept]; exact not_bind (not_begin fs) _
  refine ⟨not_begin fs, not_end fs, hi, ?_, not_bind (not_begin fs) _, not_bind (not_begin gs) _, ?_, ?_, ?_, ?_, ?_, ?_⟩
  · rw [fsAt]; split
    · rw [const_compileTime]; exact fun h => h
    · exact hi
  · rw [fsStartsWith, const_noexcept]; exact not_bind (not_begin fs) _
  · rw [fsEndsWith, const_noexcept]; exact not_bind (not_end fs) _
  · rw [fsStartsWithFs, const_noexcept]; exact not_bind (not_begin fs) _
  · rw [fsEndsWithFs, const_noexcept]; exact not_bind (not_end fs) _
  · rw [fsSubstr]; split
    · rw [const_compileTime]; exact fun h => h
    · exact not_bind (not_begin fs) _
  · rw [fsCopy]; split
    · rw [const_compileTime]; exact fun h => h
    · exact not_bind (not_begin fs) _

/-- C203, in particular: indexing returns normally at run time for every position of a string whose fragments are not empty, and never at compile time. -/
theorem c203_refuted_index {C : Type} [LinearOrder C] (b : Build) (fs : FragStr C) (h0 : fs ≠ []) (h : ∀ f ∈ fs, f.chars ≠ [])
    (hsz : length fs < 2 ^ 63) (i : Nat) (hi : i < length fs) :
    (fsIndex b fs i).out.returns ∧ (fsAt b fs i).out.returns ∧ ¬(fsIndex b fs i).IsConstant ∧ ¬(fsAt b fs i).IsConstant := by
  obtain ⟨c, -, h1, h2⟩ := c87_index_partial b fs h0 (fun f hf => h f (List.dropLast_subset _ hf)) hsz i hi
  have hs := c203_same_string_partial b fs fs [] c i 0
  have hn := c203_refuted_string b fs fs [] i 0
  exact ⟨by rw [hs.1, h1]; trivial, by rw [hs.2.1, h2]; trivial, hn.2.2.1, hn.2.2.2.1⟩

/-- C203 fails for searching too: a search is a constant expression exactly if it does not begin, because the position is past the end or what is looked for is too
long. -/
theorem c203_refuted_search {C : Type} [LinearOrder C] (b : Build) (fs gs : FragStr C) (s : List C) (c : C) (pos : Nat) :
    ((fsFindChar fs c pos).IsConstant ↔ length fs ≤ pos) ∧
    ((fsFind b fs s pos).IsConstant ↔ length fs < (pos + s.length) % 2 ^ 64 ∨ length fs < s.length) ∧
    (s.length < 2 ^ 64 → ((fsContains b fs s).IsConstant ↔ length fs < s.length)) ∧
    ((fsContainsFs b fs gs).IsConstant ↔ length fs < length gs) := by
  have hf : ∀ p, (fsFind b fs s p).IsConstant ↔ length fs < (p + s.length) % 2 ^ 64 ∨ length fs < s.length := by
    intro p
    rw [fsFind, const_noexcept]
    by_cases h1 : length fs < (p + s.length) % 2 ^ 64
    · rw [if_pos h1]; exact ⟨fun _ => Or.inl h1, fun _ => const_pure _⟩
    · rw [if_neg h1]
      by_cases h2 : length fs < s.length
      · rw [if_pos h2]; exact ⟨fun _ => Or.inr h2, fun _ => const_pure _⟩
      · rw [if_neg h2]
        exact ⟨fun h => absurd h (not_bind (not_end fs) _), fun h => absurd h (by rintro (h | h) <;> contradiction)⟩
  refine ⟨?_, hf pos, ?_, ?_⟩
  · rw [fsFindChar]
    by_cases h : length fs ≤ pos
    · rw [if_pos h]; exact ⟨fun _ => h, fun _ => const_pure _⟩
    · rw [if_neg h]; exact ⟨fun hc => absurd hc (run_bind _ _), fun h' => absurd h' h⟩
  · intro hs
    rw [fsContains, const_bind]
    constructor
    · rintro ⟨a, h1, h2, -⟩
      have := (hf 0).mp ⟨h1, by rw [h2]; trivial⟩
      rw [Nat.zero_add, Nat.mod_eq_of_lt hs] at this
      exact this.elim (fun h => h) (fun h => h)
    · intro h
      obtain ⟨h1, h2⟩ := (hf 0).mpr (Or.inr h)
      cases ho : (fsFind b fs s 0).out with
      | ok a => exact ⟨a, h1, rfl, const_pure _⟩
      | throw e => rw [ho] at h2; exact h2.elim
      | ub => rw [ho] at h2; exact h2.elim
      | terminate => rw [ho] at h2; exact h2.elim
      | diverge => rw [ho] at h2; exact h2.elim
  · rw [fsContainsFs, const_noexcept]
    by_cases h : length fs < length gs
    · rw [if_pos h]; exact ⟨fun _ => h, fun _ => const_pure _⟩
    · rw [if_neg h]; exact ⟨fun hc => absurd hc (not_bind (not_begin gs) _), fun h' => absurd h' h⟩

private theorem bind_returns {α β : Type} (o : Outcome α) (f : α → β) : (o >>= fun a => Outcome.ok (f a)).returns ↔ o.returns := by
  cases o <;> simp [Outcome.returns]

/-- C203, what holds for strings: the length, the first and the last character and questions about single characters are constant expressions whenever they return
normally at run time. -/
theorem c203_string_partial {C : Type} [LinearOrder C] (b : Build) (fs : FragStr C) (c : C) :
    (fsLength fs).IsConstant ∧ ((fsFront b fs).IsConstant ↔ (front b fs).returns) ∧ ((fsBack b fs).IsConstant ↔ (back b fs).returns) ∧
    ((fsStartsWithChar b fs c).IsConstant ↔ (startsWithChar b fs c).returns) ∧ ((fsEndsWithChar b fs c).IsConstant ↔ (endsWithChar b fs c).returns) ∧
    (fsContainsChar fs c).IsConstant := by
  have key : ∀ (o : Outcome C), ((do let x ← compileTime o; pure (decide (x = c))) : Ev Bool).allowed = true := by
    intro o; cases o <;> rfl
  have hs := c203_same_string_partial b fs fs [] c 0 0
  refine ⟨⟨rfl, trivial⟩, const_compileTime _, const_compileTime _, ?_, ?_, ⟨rfl, trivial⟩⟩
  · rw [← hs.2.2.2.2.1]
    refine ⟨fun h => h.2, fun h => ⟨?_, h⟩⟩
    unfold fsStartsWithChar Ev.noexcept
    split
    · rfl
    · exact key _
  · rw [← hs.2.2.2.2.2.1]
    refine ⟨fun h => h.2, fun h => ⟨?_, h⟩⟩
    unfold fsEndsWithChar Ev.noexcept
    split
    · rfl
    · exact key _

/-! ## Vectors -/

/-- The vector holds these elements. -/
def VectorHolds {α : Type} (v : StaticVector α) (l : List α) : Prop := v.count = l.length ∧ ∃ rest, v.data = l.map some ++ rest

private theorem advance_const (b : Build) : (advance b).IsConstant ↔ b = .release := by
  cases b <;> simp [advance, compileTime, runTime, Ev.IsConstant, Outcome.returns]

private theorem readFrom_const {α : Type} (b : Build) (v : StaticVector α) (n : Nat) :
    ∀ i, (svReadFrom b v i n).IsConstant ↔ (n = 0 ∨ b = .release) ∧ (StaticVector.readFrom v i n).returns := by
  induction n with
  | zero => intro i; exact ⟨fun _ => ⟨Or.inl rfl, trivial⟩, fun _ => const_pure _⟩
  | succ n ih =>
    intro i
    refine ⟨fun h => ⟨Or.inr ?_, by rw [← readFrom_out b]; exact h.2⟩, ?_⟩
    · rw [svReadFrom, const_bind] at h
      obtain ⟨x, -, -, h⟩ := h
      rw [const_bind] at h
      obtain ⟨u, h1, h2, -⟩ := h
      exact (advance_const b).mp ⟨h1, by rw [h2]; trivial⟩
    · rintro ⟨hb, hr⟩
      have hb : b = .release := hb.resolve_left (by omega)
      rw [StaticVector.readFrom] at hr
      rw [svReadFrom, const_bind]
      cases hx : v.index i with
      | ok x =>
        rw [hx, Outcome.bind_ok] at hr
        refine ⟨x, rfl, rfl, ?_⟩
        rw [const_bind]
        refine ⟨(), by subst hb; rfl, advance_out b, ?_⟩
        rw [const_bind]
        have hr' : (StaticVector.readFrom v (i + 1) n).returns := (bind_returns _ _).mp hr
        obtain ⟨h1, h2⟩ := (ih (i + 1)).mpr ⟨Or.inr hb, hr'⟩
        cases ho : (svReadFrom b v (i + 1) n).out with
        | ok a => exact ⟨a, h1, rfl, const_pure _⟩
        | throw e => rw [ho] at h2; exact h2.elim
        | ub => rw [ho] at h2; exact h2.elim
        | terminate => rw [ho] at h2; exact h2.elim
        | diverge => rw [ho] at h2; exact h2.elim
      | throw e => rw [hx] at hr; exact hr.elim
      | ub => rw [hx] at hr; exact hr.elim
      | terminate => rw [hx] at hr; exact hr.elim
      | diverge => rw [hx] at hr; exact hr.elim

private theorem equalFrom_release {α : Type} (eq : α → α → Bool) (v w : StaticVector α) (l l' : List α) (hv : ∃ rest, v.data = l.map some ++ rest)
    (hw : ∃ rest, w.data = l'.map some ++ rest) (hl : l.length = l'.length) (n : Nat) :
    ∀ i, i + n = l.length → (svEqualFrom .release eq v w i n).IsConstant := by
  obtain ⟨r, hv⟩ := hv
  obtain ⟨r', hw⟩ := hw
  induction n with
  | zero => intro i _; exact const_pure _
  | succ n ih =>
    intro i hi
    rw [svEqualFrom, const_bind]
    refine ⟨l[i], rfl, StaticVector.index_eq hv (by omega), ?_⟩
    rw [const_bind]
    refine ⟨l'[i], rfl, StaticVector.index_eq hw (by omega), ?_⟩
    split
    · rw [const_bind]; exact ⟨(), rfl, rfl, ih (i + 1) (by omega)⟩
    · exact const_pure _

/-- C203 for static_vector, exactly: in release builds comparisons and loops are constant expressions; in debug builds loops are only over no elements, and comparisons
only if the answer is known from the sizes or from the first elements.  In every build `resize` is if it does not shrink the vector. -/
theorem c203_vector_exact {α : Type} (b : Build) (eq : α → α → Bool) (v w : StaticVector α) (l l' : List α) (n : Nat) (x : α) (hv : VectorHolds v l)
    (hw : VectorHolds w l') :
    ((svEqual b eq v w).IsConstant ↔ b = .release ∨ l.length ≠ l'.length ∨ l = [] ∨ ∃ y z, l.head? = some y ∧ l'.head? = some z ∧ eq y z = false) ∧
    ((svNotEqual b eq v w).IsConstant ↔ (svEqual b eq v w).IsConstant) ∧
    ((svIterate b v).IsConstant ↔ b = .release ∨ l = []) ∧
    ((svResize n x v).IsConstant ↔ l.length ≤ n ∧ n ≤ v.capacity) := by
  have hne : (svNotEqual b eq v w).IsConstant ↔ (svEqual b eq v w).IsConstant := by
    rw [svNotEqual, const_bind]
    constructor
    · rintro ⟨a, h1, h2, -⟩; exact ⟨h1, by rw [h2]; trivial⟩
    · rintro ⟨h1, h2⟩
      cases ho : (svEqual b eq v w).out with
      | ok a => exact ⟨a, h1, rfl, const_pure _⟩
      | throw e => rw [ho] at h2; exact h2.elim
      | ub => rw [ho] at h2; exact h2.elim
      | terminate => rw [ho] at h2; exact h2.elim
      | diverge => rw [ho] at h2; exact h2.elim
  obtain ⟨hc, r, hd⟩ := hv
  obtain ⟨hc', r', hd'⟩ := hw
  refine ⟨?_, hne, ?_, ?_⟩
  · rw [svEqual]
    by_cases hlen : l.length = l'.length
    · rw [if_neg (by rw [hc, hc', not_not]; exact hlen)]
      by_cases hb : b = .release
      · subst hb
        exact ⟨fun _ => Or.inl rfl, fun _ => equalFrom_release eq v w l l' ⟨r, hd⟩ ⟨r', hd'⟩ hlen v.count 0 (by omega)⟩
      · cases l with
        | nil =>
          rw [hc]
          exact ⟨fun _ => Or.inr (Or.inr (Or.inl rfl)), fun _ => const_pure _⟩
        | cons y l =>
          cases l' with
          | nil => cases hlen
          | cons z l' =>
            rw [hc, List.length_cons, svEqualFrom, const_bind]
            constructor
            · rintro ⟨a, -, h1, h⟩
              rw [const_bind] at h
              obtain ⟨a', -, h2, h⟩ := h
              have e1 : a = y := by
                have := StaticVector.index_eq hd (i := 0) (by simp)
                exact (Outcome.ok.inj (this.symm.trans h1)).symm
              have e2 : a' = z := by
                have := StaticVector.index_eq hd' (i := 0) (by simp)
                exact (Outcome.ok.inj (this.symm.trans h2)).symm
              subst e1; subst e2
              by_cases he : eq a a' = true
              · rw [if_pos he, const_bind] at h
                obtain ⟨u, h3, h4, -⟩ := h
                exact absurd ((advance_const b).mp ⟨h3, by rw [h4]; trivial⟩) hb
              · exact Or.inr (Or.inr (Or.inr ⟨a, a', rfl, rfl, by simpa using he⟩))
            · rintro (h | h | h | ⟨y', z', h1, h2, h3⟩)
              · exact absurd h hb
              · exact absurd hlen h
              · cases h
              · cases h1; cases h2
                refine ⟨y, rfl, StaticVector.index_eq hd (i := 0) (by simp), ?_⟩
                rw [const_bind]
                refine ⟨z, rfl, StaticVector.index_eq hd' (i := 0) (by simp), ?_⟩
                rw [if_neg (by rw [h3]; decide)]
                exact const_pure _
    · rw [if_pos (by rw [hc, hc']; exact hlen)]
      exact ⟨fun _ => Or.inr (Or.inl hlen), fun _ => const_pure _⟩
  · rw [svIterate, readFrom_const, hc]
    have hr : ∀ n i, i + n = l.length → (StaticVector.readFrom v i n).returns := by
      intro n
      induction n with
      | zero => intro i _; trivial
      | succ n ih =>
        intro i hi
        rw [StaticVector.readFrom, StaticVector.index_eq hd (by omega), Outcome.bind_ok]
        exact (bind_returns _ _).mpr (ih (i + 1) (by omega))
    rw [List.length_eq_zero_iff, or_comm]
    exact ⟨fun h => h.1, fun h => ⟨h, hr _ 0 (by omega)⟩⟩
  · rw [svResize]
    by_cases hn : n > v.capacity
    · rw [if_pos hn, const_compileTime]
      exact ⟨fun h => h.elim, fun h => absurd hn (by omega)⟩
    · rw [if_neg hn, svUnsafeResize]
      have hs : v.size = l.length := hc
      have hcap : v.capacity = l.length + r.length := by rw [StaticVector.capacity, hd]; simp
      rw [hs]
      by_cases h1 : n > l.length
      · rw [if_pos h1, const_bind]
        refine ⟨fun _ => ⟨by omega, by omega⟩, fun _ => ?_⟩
        have := StaticVector.generate_eq [] x (n - l.length) r (by omega) (l.map some)
        rw [← hd, List.length_map, ← hc] at this
        refine ⟨{ v with data := l.map some ++ List.replicate (n - v.count) (some x) ++ r.drop (n - v.count) }, rfl, ?_, const_pure _⟩
        · show StaticVector.alloc _ _ _ = _
          rw [StaticVector.alloc, ← hc, this]; rfl
      · rw [if_neg h1]
        by_cases h2 : n < l.length
        · rw [if_pos h2]
          exact ⟨fun h => absurd h (run_bind _ _), fun h => absurd h2 (by omega)⟩
        · rw [if_neg h2]
          exact ⟨fun _ => ⟨by omega, by omega⟩, fun _ => (const_bind _ _).mpr ⟨v, rfl, rfl, const_pure _⟩⟩

/-- C203 fails for static_vector in debug builds: two equal vectors that are not empty compare without trouble in every build, and as a constant expression in release
builds only. -/
theorem c203_refuted_builds {α : Type} (b : Build) (eq : α → α → Bool) (v : StaticVector α) (l : List α) (hv : VectorHolds v l) (hl : l ≠ [])
    (he : ∀ x ∈ l, eq x x = true) :
    (svEqual b eq v v).out = .ok true ∧ ((svEqual b eq v v).IsConstant ↔ b = .release) ∧ ((svIterate b v).IsConstant ↔ b = .release) := by
  obtain ⟨y, l', rfl⟩ := List.exists_cons_of_ne_nil hl
  have h := c203_vector_exact b eq v v _ _ 0 y hv hv
  refine ⟨?_, ?_, ?_⟩
  · obtain ⟨hc, r, hd⟩ := hv
    rw [svEqual, if_neg (by simp)]
    have : ∀ n i, i + n = (y :: l').length → (svEqualFrom b eq v v i n).out = .ok true := by
      intro n
      induction n with
      | zero => intro i _; rfl
      | succ n ih =>
        intro i hi
        have hix : v.index i = .ok (y :: l')[i] := StaticVector.index_eq hd (by omega)
        rw [svEqualFrom, out_bind, out_compileTime, hix, Outcome.bind_ok, out_bind, out_compileTime, Outcome.bind_ok,
          if_pos (he _ (List.getElem_mem _)), out_bind, advance_out, Outcome.bind_ok]
        exact ih (i + 1) (by omega)
    exact this _ 0 (by omega)
  · rw [h.1]
    constructor
    · rintro (h | h | h | ⟨a, c, h1, h2, h3⟩)
      · exact h
      · exact absurd rfl h
      · cases h
      · cases h1; cases h2
        rw [he y (by simp)] at h3; cases h3
    · exact Or.inl
  · rw [h.2.2.1]
    constructor
    · rintro (h | h)
      · exact h
      · cases h
    · exact Or.inl

/-- C203 fails for `resize`: making a vector smaller succeeds at run time, in every build, and is never a constant expression. -/
theorem c203_refuted_shrink {α : Type} (v : StaticVector α) (l : List α) (n : Nat) (x : α) (hv : VectorHolds v l) (hn : n < l.length) :
    (svResize n x v).out.returns ∧ ¬(svResize n x v).IsConstant := by
  have hv' := hv
  obtain ⟨hc, r, hd⟩ := hv'
  refine ⟨?_, fun h => ?_⟩
  · have hcap : v.capacity = l.length + r.length := by rw [StaticVector.capacity, hd]; simp
    obtain ⟨v', h, -⟩ := StaticVector.unsafeResize_eq (cap := v.capacity) ⟨r, hd, hc, rfl⟩ (n := n) (by omega) x
    rw [svResize, if_neg (by omega), unsafeResize_out, h]
    trivial
  · have := (c203_vector_exact .release (fun _ _ => true) v v l l n x hv hv).2.2.2.mp h
    omega

/-! ## The others -/

/-- C203, what holds for the others: element access and making a vector from a list, and both lookups of a static_lookup, are constant expressions exactly if they
return normally; and a guard that always runs decides so at compile time. -/
theorem c203_others_partial {α κ ν : Type} (v : StaticVector α) (pos cap : Nat) (init : List α) (eqk : κ → κ → Bool) (eqv : ν → ν → Bool) (t : StaticLookup κ ν)
    (k : κ) (y : ν) (u : Nat) :
    ((svAt v pos).IsConstant ↔ (v.at' pos).returns) ∧ ((svOfList cap init).IsConstant ↔ (StaticVector.ofList cap init).returns) ∧
    ((slAt eqk t k).IsConstant ↔ (t.at' eqk k).returns) ∧ ((slWith eqv t y).IsConstant ↔ (t.with' eqv y).returns) ∧ (checkExitCondition .all u).IsConstant :=
  ⟨const_compileTime _, const_compileTime _, const_compileTime _, const_compileTime _, const_pure _⟩

/-- C203 fails for the others: asking whether a character is no white space and the check of a guard for success or failure are declared `constexpr` and are never constant
expressions. -/
theorem c203_refuted_others {C : Type} (isspace : C → Outcome Bool) (c : C) (u : Nat) :
    ¬(isNotWhitespace isspace c).IsConstant ∧ ¬(checkExitCondition .success u).IsConstant ∧ ¬(checkExitCondition .fail u).IsConstant := by
  exact ⟨run_bind _ _, run_bind _ _, run_bind _ _⟩

/-! ## Examples -/

private def twoFragments : FragStr Nat := [some [104, 105], some [33]]
private def oneTwo : StaticVector Nat := { data := [some 1, some 2, none], count := 2 }
private def oneThree : StaticVector Nat := { data := [some 1, some 3, none], count := 2 }
private def threeTwo : StaticVector Nat := { data := [some 3, some 2, none], count := 2 }

example : (fsLength twoFragments).allowed = true ∧ (fsFront .debug twoFragments).out = .ok 104 ∧ (fsFront .debug twoFragments).allowed = true := by decide
example : (fsIndex .release twoFragments 2).out = .ok 33 ∧ (fsIndex .release twoFragments 2).allowed = false := by decide
example : (svEqual .release (· == ·) oneTwo oneThree).allowed = true ∧ (svEqual .debug (· == ·) oneTwo oneThree).allowed = false ∧
    (svEqual .debug (· == ·) oneTwo threeTwo).allowed = true := by decide
example : VectorHolds oneTwo [1, 2] := ⟨rfl, [none], rfl⟩
example : (svResize 3 0 oneTwo).allowed = true ∧ (svResize 1 0 oneTwo).allowed = false := by decide

end Wite.Props
