import Verif.Model.SplitViews
import Verif.Lemmas.Strings
import Mathlib.Tactic.ByContra

/-!
# C154: the views `split_to` makes
-/

namespace Wite.Props

open Wite.SplitViews Wite.Split

universe u
variable {α : Type u} [DecidableEq α]

/-- The characters a view shows. -/
def shown (mem : List α) (v : View) : List α := (mem.drop v.start).take (v.stop - v.start)

private theorem find_spec (mem : List α) (delim : α) (n first : Nat) (h : first + n ≤ mem.length) :
    ∃ e, SplitViews.find mem delim n first = .ok e ∧ first ≤ e ∧ e ≤ first + n ∧
      (∀ i, first ≤ i → i < e → mem[i]? ≠ some delim) ∧ (e < first + n → mem[e]? = some delim) := by
  induction n generalizing first with
  | zero => exact ⟨first, rfl, by omega, by omega, by intro i h1 h2; omega, by intro h; omega⟩
  | succ n ih =>
    have hg : mem[first]? = some mem[first] := List.getElem?_eq_getElem (by omega)
    by_cases hc : mem[first] = delim
    · refine ⟨first, by simp [SplitViews.find, hg, hc], by omega, by omega, by intro i h1 h2; omega, ?_⟩
      intro _; rw [hg, hc]
    · obtain ⟨e, h1, h2, h3, h4, h5⟩ := ih (first + 1) (by omega)
      refine ⟨e, by simp [SplitViews.find, hg, hc, h1], by omega, by omega, ?_, fun h => h5 (by omega)⟩
      intro i hi hie
      by_cases he : i = first
      · subst he; rw [hg]; simpa using hc
      · exact h4 i (by omega) hie

private theorem findNot_spec (mem : List α) (delim : α) (n first : Nat) (h : first + n ≤ mem.length) :
    ∃ e, SplitViews.findNot mem delim n first = .ok e ∧ first ≤ e ∧ e ≤ first + n ∧
      (∀ i, first ≤ i → i < e → mem[i]? = some delim) ∧ (e < first + n → mem[e]? ≠ some delim) := by
  induction n generalizing first with
  | zero => exact ⟨first, rfl, by omega, by omega, by intro i h1 h2; omega, by intro h; omega⟩
  | succ n ih =>
    have hg : mem[first]? = some mem[first] := List.getElem?_eq_getElem (by omega)
    by_cases hc : mem[first] = delim
    · obtain ⟨e, h1, h2, h3, h4, h5⟩ := ih (first + 1) (by omega)
      refine ⟨e, by simp [SplitViews.findNot, hg, hc, h1], by omega, by omega, ?_, fun h => h5 (by omega)⟩
      intro i hi hie
      by_cases he : i = first
      · subst he; rw [hg, hc]
      · exact h4 i (by omega) hie
    · refine ⟨first, by simp [SplitViews.findNot, hg, hc], by omega, by omega, by intro i h1 h2; omega, ?_⟩
      intro _; rw [hg]; simpa using hc

/-- What is left of a shown text in front of and behind an offset. -/
private theorem shown_split (mem : List α) (a e z : Nat) (h1 : a ≤ e) (h2 : e ≤ z) :
    shown mem ⟨a, z⟩ = shown mem ⟨a, e⟩ ++ shown mem ⟨e, z⟩ := by
  simp only [shown]
  rw [show z - a = (e - a) + (z - e) by omega, List.take_add, List.drop_drop, show a + (e - a) = e by omega]

private theorem shown_all (mem : List α) (p : α → Prop) (a e : Nat) (he : e ≤ mem.length)
    (h : ∀ i, a ≤ i → i < e → ∀ c, mem[i]? = some c → p c) : ∀ c ∈ shown mem ⟨a, e⟩, p c := by
  intro c hc
  simp only [shown] at hc
  obtain ⟨i, hi, rfl⟩ := List.mem_iff_getElem.1 hc
  simp only [List.length_take, List.length_drop] at hi
  apply h (a + i) (by omega) (by omega)
  rw [List.getElem_take, List.getElem_drop]
  exact List.getElem?_eq_getElem (by omega)

private theorem shown_head (mem : List α) (e z : Nat) (h : e < z) : (shown mem ⟨e, z⟩).head? = mem[e]? := by
  simp only [shown]
  rw [List.head?_take, if_neg (by omega), List.head?_drop]

private theorem takeWhile_eq_of {p : α → Bool} {a b : List α} (ha : ∀ c ∈ a, p c = true)
    (hb : ∀ c, b.head? = some c → p c = false) : (a ++ b).takeWhile p = a ∧ (a ++ b).dropWhile p = b := by
  induction a with
  | nil =>
    cases b with
    | nil => simp
    | cons x xs => have := hb x rfl; simp [this]
  | cons x xs ih =>
    have hx := ha x (by simp)
    have := ih (fun c hc => ha c (by simp [hc]))
    simp [hx, this.1, this.2]

/-- `first_token` on views is `first_token` on the text shown. -/
private theorem firstToken_spec (mem : List α) (v : View) (h1 : v.start ≤ v.stop) (h2 : v.stop ≤ mem.length) (delim : α)
    (b : Behaviour) :
    ∃ e next, SplitViews.firstToken mem v delim b = .ok (⟨v.start, e⟩, ⟨next, v.stop⟩, e != v.stop) ∧
      v.start ≤ e ∧ e ≤ next ∧ next ≤ v.stop ∧ (e ≠ v.stop → e < next) ∧
      (∀ i, v.start ≤ i → i < e → mem[i]? ≠ some delim) ∧ (∀ i, e ≤ i → i < next → mem[i]? = some delim) ∧
      Split.firstToken (shown mem v) delim b = (shown mem ⟨v.start, e⟩, shown mem ⟨next, v.stop⟩, e != v.stop) := by
  obtain ⟨a, z⟩ := v
  dsimp only at h1 h2 ⊢
  obtain ⟨e, f1, f2, f3, f4, f5⟩ := find_spec mem delim (z - a) a (by omega)
  have hez : e ≤ z := by omega
  have htok : ∀ c ∈ shown mem ⟨a, e⟩, (!(c == delim)) = true := by
    apply shown_all mem (fun c => (!(c == delim)) = true) a e (by omega)
    intro i hi hie c hc
    have := f4 i hi hie
    rw [hc] at this
    simpa using this
  have hrest : ∀ c, (shown mem ⟨e, z⟩).head? = some c → (!(c == delim)) = false := by
    intro c hc
    by_cases he : e < z
    · rw [shown_head mem e z he, f5 (by omega)] at hc
      cases hc
      simp
    · have : shown mem ⟨e, z⟩ = [] := by simp [shown, show z - e = 0 by omega]
      rw [this] at hc; cases hc
  have hT := takeWhile_eq_of htok hrest
  rw [← shown_split mem a e z f2 hez] at hT
  have hemp : (shown mem ⟨e, z⟩).isEmpty = !(e != z) := by
    by_cases he : e = z
    · subst he; simp [shown]
    · have hne : shown mem ⟨e, z⟩ ≠ [] := by
        intro hn
        have := congrArg List.length hn
        simp only [shown, List.length_take, List.length_drop, List.length_nil] at this
        omega
      cases hs : shown mem ⟨e, z⟩ with
      | nil => exact absurd hs hne
      | cons x xs => simp [he]
  cases b with
  | keepEmpty =>
    refine ⟨e, if e = z then e else e + 1, ?_, f2, ?_, ?_, ?_, f4, ?_, ?_⟩
    · simp [SplitViews.firstToken, f1, advance]
    · split <;> omega
    · split <;> omega
    · intro h; rw [if_neg h]; omega
    · intro i hi hlt
      split at hlt
      · omega
      · have : i = e := by omega
        subst this
        exact f5 (by omega)
    · simp only [Split.firstToken, hT.1, hT.2, hemp, advancePastDelimiter, Bool.not_not]
      congr 2
      by_cases he : e = z
      · subst he; simp [shown]
      · rw [if_neg he]
        have hs : shown mem ⟨e, z⟩ = shown mem ⟨e, e + 1⟩ ++ shown mem ⟨e + 1, z⟩ :=
          shown_split mem e (e + 1) z (by omega) (by omega)
        have h1 : shown mem ⟨e, e + 1⟩ = [delim] := by
          have hg := f5 (by omega)
          obtain ⟨hlt, hg⟩ := List.getElem?_eq_some_iff.1 hg
          simp only [shown, show e + 1 - e = 1 by omega, List.drop_eq_getElem_cons hlt, hg]
          rfl
        rw [hs, h1]
        rfl
  | dropEmpty =>
    obtain ⟨n, g1, g2, g3, g4, g5⟩ := findNot_spec mem delim (z - e) e (by omega)
    refine ⟨e, n, ?_, f2, g2, by omega, ?_, f4, g4, ?_⟩
    · simp [SplitViews.firstToken, f1, advance, g1]
    · intro hne
      by_contra hc
      have : n = e := by omega
      subst this
      exact g5 (by omega) (f5 (by omega))
    · simp only [Split.firstToken, hT.1, hT.2, hemp, advancePastDelimiter, Bool.not_not]
      congr 2
      have hd : ∀ c ∈ shown mem ⟨e, n⟩, (!(c != delim)) = true := by
        apply shown_all mem (fun c => (!(c != delim)) = true) e n (by omega)
        intro i hi hie c hc
        have := g4 i hi hie
        rw [hc] at this
        cases this
        simp
      have hr : ∀ c, (shown mem ⟨n, z⟩).head? = some c → (!(c != delim)) = false := by
        intro c hc
        by_cases he : n < z
        · rw [shown_head mem n z he] at hc
          have := g5 (by omega)
          rw [hc] at this
          simpa using this
        · have : shown mem ⟨n, z⟩ = [] := by simp [shown, show z - n = 0 by omega]
          rw [this] at hc; cases hc
      have := takeWhile_eq_of hd hr
      rw [← shown_split mem e n z g2 (by omega)] at this
      exact this.2

private theorem loop_spec (mem : List α) (delim : α) (b : Behaviour) (n : Nat) : ∀ v : View,
    v.start ≤ v.stop → v.stop ≤ mem.length → v.stop - v.start < n →
    ∃ vs, loop mem delim b n v = .ok vs ∧ vs.map (shown mem) = Split.splitTo (shown mem v) delim b ∧
      (∀ w ∈ vs, v.start ≤ w.start ∧ w.start ≤ w.stop ∧ w.stop ≤ v.stop) ∧
      vs.Pairwise (fun w w' => w.stop < w'.start) ∧
      (∀ i, v.start ≤ i → i < v.stop → ((∃ w ∈ vs, w.start ≤ i ∧ i < w.stop) ↔ mem[i]? ≠ some delim)) := by
  induction n with
  | zero => intro v _ _ h; omega
  | succ n ih =>
    intro v h1 h2 hn
    obtain ⟨e, next, ft, a1, a2, a3, a4, a5, a6, a7⟩ := firstToken_spec mem v h1 h2 delim b
    have hne : (shown mem ⟨v.start, e⟩ ≠ []) ↔ v.start ≠ e := by
      have hl : (shown mem ⟨v.start, e⟩).length = e - v.start := by
        simp only [shown, List.length_take, List.length_drop]; omega
      constructor
      · intro h he
        apply h
        apply List.eq_nil_of_length_eq_zero
        omega
      · intro h hn
        rw [hn] at hl
        simp at hl
        omega
    rw [Split.splitTo, a7]
    simp only [dite_eq_ite]
    rw [loop, ft]
    simp only [Outcome.bind_ok, hne]
    have hcov : ∀ i, v.start ≤ i → i < e →
        (∃ w ∈ (if b = .keepEmpty ∨ (b = .dropEmpty ∧ v.start ≠ e) then [(⟨v.start, e⟩ : View)] else []),
          w.start ≤ i ∧ i < w.stop) := by
      intro i hi hie
      refine ⟨⟨v.start, e⟩, ?_, hi, hie⟩
      rw [if_pos]
      · simp
      · cases b
        · exact .inl rfl
        · exact .inr ⟨rfl, by omega⟩
    have hmem : ∀ w ∈ (if b = .keepEmpty ∨ (b = .dropEmpty ∧ v.start ≠ e) then [(⟨v.start, e⟩ : View)] else []),
        w = ⟨v.start, e⟩ := by
      intro w hw
      split at hw
      · simpa using hw
      · cases hw
    have hmap : (if b = .keepEmpty ∨ (b = .dropEmpty ∧ v.start ≠ e) then [(⟨v.start, e⟩ : View)] else []).map
        (shown mem) = if b = .keepEmpty ∨ (b = .dropEmpty ∧ v.start ≠ e) then [shown mem ⟨v.start, e⟩] else [] := by
      split <;> rfl
    by_cases hp : e = v.stop
    · simp only [hp, bne_self_eq_false, Bool.false_eq_true, if_false, Outcome.pure_eq]
      rw [hp] at hcov hmem hmap
      refine ⟨_, rfl, hmap, ?_, ?_, ?_⟩
      · intro w hw
        rw [hmem w hw]
        exact ⟨Nat.le_refl _, h1, Nat.le_refl _⟩
      · split <;> simp
      · intro i hi hiz
        constructor
        · intro _; exact a5 i hi (by omega)
        · intro _; exact hcov i hi hiz
    · have hb : (e != v.stop) = true := by simpa using hp
      have hlt := a4 hp
      obtain ⟨vs, r1, r2, r3, r4, r5⟩ := ih ⟨next, v.stop⟩ a3 h2 (by simp only; omega)
      simp only at r3 r5
      simp only [hb, if_true, r1, Outcome.bind_ok, Outcome.pure_eq]
      refine ⟨_, rfl, ?_, ?_, ?_, ?_⟩
      · rw [List.map_append, r2, hmap]
      · intro w hw
        rcases List.mem_append.1 hw with hw | hw
        · rw [hmem w hw]; exact ⟨Nat.le_refl _, a1, by simp only; omega⟩
        · obtain ⟨q1, q2, q3⟩ := r3 w hw
          exact ⟨by omega, q2, q3⟩
      · rw [List.pairwise_append]
        refine ⟨by split <;> simp, r4, ?_⟩
        intro w hw w' hw'
        rw [hmem w hw]
        have := (r3 w' hw').1
        simp only
        omega
      · intro i hi hiz
        rcases Nat.lt_or_ge i e with hie | hie
        · constructor
          · intro _; exact a5 i hi hie
          · intro _
            obtain ⟨w, hw, hx⟩ := hcov i hi hie
            exact ⟨w, List.mem_append_left _ hw, hx⟩
        · rcases Nat.lt_or_ge i next with hin | hin
          · constructor
            · rintro ⟨w, hw, q1, q2⟩
              rcases List.mem_append.1 hw with hw | hw
              · rw [hmem w hw] at q2; simp only at q2; omega
              · have := (r3 w hw).1; omega
            · intro h; exact absurd (a6 i hie hin) h
          · rw [← r5 i hin hiz]
            constructor
            · rintro ⟨w, hw, q1, q2⟩
              rcases List.mem_append.1 hw with hw | hw
              · rw [hmem w hw] at q2; simp only at q2; omega
              · exact ⟨w, hw, q1, q2⟩
            · rintro ⟨w, hw, q⟩
              exact ⟨w, List.mem_append_right _ hw, q⟩

/-! ## C154 -/

/-- C154: the views show the pieces, in order, that `split` returns as strings. -/
theorem c154_same_pieces (mem : List α) (v : View) (h1 : v.start ≤ v.stop) (h2 : v.stop ≤ mem.length) (delim : α)
    (b : Behaviour) :
    ∃ vs, SplitViews.splitTo mem v delim b = .ok vs ∧ vs.map (shown mem) = Split.split (shown mem v) delim b := by
  obtain ⟨vs, r1, r2, -⟩ := loop_spec mem delim b (v.stop - v.start + 1) v h1 h2 (by omega)
  exact ⟨vs, r1, r2⟩

/-- C154: the views are parts of the argument, one behind the other with at least one character between them, and
together they cover exactly the characters of the argument that are not the delimiter. -/
theorem c154_parts (mem : List α) (v : View) (h1 : v.start ≤ v.stop) (h2 : v.stop ≤ mem.length) (delim : α)
    (b : Behaviour) (vs : List View) (h : SplitViews.splitTo mem v delim b = .ok vs) :
    (∀ w ∈ vs, v.start ≤ w.start ∧ w.start ≤ w.stop ∧ w.stop ≤ v.stop) ∧
    vs.Pairwise (fun w w' => w.stop < w'.start) ∧
    (∀ i, v.start ≤ i → i < v.stop → ((∃ w ∈ vs, w.start ≤ i ∧ i < w.stop) ↔ mem[i]? ≠ some delim)) := by
  obtain ⟨vs', r1, -, r3, r4, r5⟩ := loop_spec mem delim b (v.stop - v.start + 1) v h1 h2 (by omega)
  have : vs' = vs := by
    rw [SplitViews.splitTo, r1] at h
    exact Outcome.ok.inj h
  subst this
  exact ⟨r3, r4, r5⟩

/-- C154: nothing outside of the argument is read: with other memory around it the views are the same. -/
theorem c154_local (mem mem' : List α) (v : View) (h1 : v.start ≤ v.stop) (h2 : v.stop ≤ mem.length)
    (he : ∀ i, v.start ≤ i → i < v.stop → mem[i]? = mem'[i]?) (delim : α) (b : Behaviour) :
    SplitViews.splitTo mem v delim b = SplitViews.splitTo mem' v delim b := by
  have hfind : ∀ n first, v.start ≤ first → first + n ≤ v.stop →
      SplitViews.find mem delim n first = SplitViews.find mem' delim n first := by
    intro n
    induction n with
    | zero => intros; rfl
    | succ n ih =>
      intro first hf hn
      simp only [SplitViews.find, he first hf (by omega), ih (first + 1) (by omega) (by omega)]
  have hfindNot : ∀ n first, v.start ≤ first → first + n ≤ v.stop →
      SplitViews.findNot mem delim n first = SplitViews.findNot mem' delim n first := by
    intro n
    induction n with
    | zero => intros; rfl
    | succ n ih =>
      intro first hf hn
      simp only [SplitViews.findNot, he first hf (by omega), ih (first + 1) (by omega) (by omega)]
  have hloop : ∀ n (w : View), v.start ≤ w.start → w.start ≤ w.stop → w.stop = v.stop →
      loop mem delim b n w = loop mem' delim b n w := by
    intro n
    induction n with
    | zero => intros; rfl
    | succ n ih =>
      intro w hw1 hw2 hw3
      have hft : SplitViews.firstToken mem w delim b = SplitViews.firstToken mem' w delim b := by
        obtain ⟨e, f1, f2, f3, -⟩ := find_spec mem delim (w.stop - w.start) w.start (by omega)
        have f1' := f1
        rw [hfind _ _ hw1 (by omega)] at f1'
        simp only [SplitViews.firstToken, f1, f1', Outcome.bind_ok]
        cases b with
        | keepEmpty => rfl
        | dropEmpty => simp only [advance, hfindNot _ _ (show v.start ≤ e by omega) (show e + (w.stop - e) ≤ v.stop by omega)]
      obtain ⟨e, next, ft, a1, a2, a3, -⟩ := firstToken_spec mem w hw2 (by omega) delim b
      rw [loop, loop, ← hft, ft]
      simp only [Outcome.bind_ok]
      rw [ih ⟨next, w.stop⟩ (by simp only; omega) a3 hw3]
  exact hloop _ v (Nat.le_refl _) h1 rfl

example : SplitViews.splitTo [9, 1, 2, 0, 0, 3, 9, 9] ⟨1, 6⟩ 0 .dropEmpty = .ok [⟨1, 3⟩, ⟨5, 6⟩] := by decide +kernel
example : SplitViews.splitTo [9, 1, 2, 0, 0, 3, 9, 9] ⟨1, 6⟩ 0 .keepEmpty = .ok [⟨1, 3⟩, ⟨4, 4⟩, ⟨5, 6⟩] := by
  decide +kernel
example : (shown [9, 1, 2, 0, 0, 3, 9, 9] ⟨1, 3⟩) = [1, 2] := by decide

end Wite.Props
