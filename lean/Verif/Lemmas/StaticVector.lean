import Mathlib.Data.List.Basic
import Verif.Spec.StaticVector

/-!
# Lemmas about `static_vector`
-/

namespace Wite.Collections.StaticVector

open Wite.Spec.StaticVector

variable {α : Type}

/-- The vector holds the list: the first slots are engaged with the elements, the rest is arbitrary. -/
def Holds (cap : Nat) (v : StaticVector α) (l : List α) : Prop :=
  ∃ rest, v.data = l.map some ++ rest ∧ v.count = l.length ∧ v.data.length = cap

theorem index_eq {v : StaticVector α} {l : List α} {rest : List (Option α)} (h : v.data = l.map some ++ rest)
    {i : Nat} (hi : i < l.length) : v.index i = .ok l[i] := by
  have : v.data[i]? = some (some l[i]) := by
    rw [h, List.getElem?_append_left (by simpa using hi), List.getElem?_map, List.getElem?_eq_getElem hi]; rfl
  simp only [index, this]

theorem generate_eq (pre : List (Option α)) (x : α) (n : Nat) : ∀ (rest : List (Option α)), n ≤ rest.length →
    ∀ pre : List (Option α), generate (pre ++ rest) pre.length x n = .ok (pre ++ List.replicate n (some x) ++ rest.drop n) := by
  induction n with
  | zero => intro rest _ pre; simp [generate]
  | succ n ih =>
    intro rest hn pre
    cases rest with
    | nil => simp at hn
    | cons r rest =>
      rw [generate, if_pos (by simp)]
      have h1 : (pre ++ r :: rest).set pre.length (some x) = (pre ++ [some x]) ++ rest := by
        rw [List.set_append_right _ _ (Nat.le_refl _)]; simp
      rw [h1]
      have h2 := ih rest (by simpa using hn) (pre ++ [some x])
      rw [List.length_append] at h2
      simp only [List.length_cons, List.length_nil, Nat.zero_add] at h2
      rw [h2]
      simp [List.replicate_succ]

theorem resetBefore_eq (n : Nat) : ∀ (mid : List (Option α)), mid.length = n → ∀ pre rest : List (Option α),
    resetBefore (pre ++ mid ++ rest) (pre.length + n) n = .ok (pre ++ List.replicate n none ++ rest) := by
  induction n with
  | zero => intro mid hm pre rest; simp [resetBefore, List.length_eq_zero_iff.1 hm]
  | succ n ih =>
    intro mid hm pre rest
    rcases List.eq_nil_or_concat mid with rfl | ⟨mid', m, rfl⟩
    · simp at hm
    · have hm' : mid'.length = n := by simpa using hm
      rw [resetBefore, if_pos (by simp; omega)]
      have h1 : (pre ++ mid'.concat m ++ rest).set (pre.length + (n + 1) - 1) none = pre ++ mid' ++ (none :: rest) := by
        have : pre.length + (n + 1) - 1 = (pre ++ mid').length := by simp [hm']
        rw [this]
        have e : pre ++ mid'.concat m ++ rest = (pre ++ mid') ++ (m :: rest) := by simp [List.concat_eq_append]
        rw [e, List.set_append_right _ _ (Nat.le_refl _)]
        simp
      rw [h1]
      have h2 := ih mid' hm' pre (none :: rest)
      have : pre.length + (n + 1) - 1 = pre.length + n := by omega
      rw [this, h2]
      simp [List.replicate_succ']

theorem unsafeResize_eq {cap : Nat} {v : StaticVector α} {l : List α} (h : Holds cap v l) {n : Nat} (hn : n ≤ cap)
    (x : α) : ∃ v', unsafeResize n x v = .ok v' ∧ Holds cap v' (resized l n x) := by
  obtain ⟨rest, h1, h2, h3⟩ := h
  have hlen : l.length + rest.length = cap := by rw [← h3, h1]; simp
  unfold unsafeResize
  have hsz : v.size = v.count := rfl
  by_cases hgt : n > v.size
  · rw [if_pos hgt]
    simp only [alloc, h1, hsz]
    have hc : v.count = (l.map some).length := by simp [h2]
    rw [hc, generate_eq [] x _ rest (by simp; omega) (l.map some)]
    refine ⟨_, rfl, rest.drop (n - l.length), ?_, ?_, ?_⟩
    · simp [resized, List.take_of_length_le (by omega : l.length ≤ n)]
    · simp [resized, List.take_of_length_le (by omega : l.length ≤ n)]; omega
    · simp; omega
  · rw [if_neg hgt]
    by_cases hlt : n < v.size
    · rw [if_pos hlt]
      simp only [destroyLastN, hsz]
      have hsplit : v.data = (l.take n).map some ++ (l.drop n).map some ++ rest := by
        rw [h1, ← List.map_append, List.take_append_drop]
      have hpos : v.count = ((l.take n).map some).length + (v.count - n) := by simp [h2]; omega
      have := resetBefore_eq (v.count - n) ((l.drop n).map some) (by simp; omega) ((l.take n).map some) rest
      rw [← hpos, ← hsplit] at this
      rw [this]
      refine ⟨_, rfl, List.replicate (v.count - n) none ++ rest, ?_, ?_, ?_⟩
      · simp [resized, (by omega : n - l.length = 0)]
      · simp [resized, (by omega : n - l.length = 0)]; omega
      · simp; omega
    · rw [if_neg hlt]
      have hnl : n = l.length := by omega
      refine ⟨_, rfl, rest, ?_, ?_, h3⟩
      · simp [resized, hnl, h1]
      · simp [resized, hnl]

theorem holds_shows {cap : Nat} (hcap : cap < 2 ^ 64) {v : StaticVector α} {l : List α} (h : Holds cap v l) :
    Shows cap v l := by
  obtain ⟨rest, h1, h2, h3⟩ := h
  have hlen : l.length ≤ cap := by rw [← h3, h1]; simp
  have hat : ∀ i, v.at' i = match l[i]? with
      | some x => .ok x
      | none => .throw (.outOfRange "Static vector access violation") := by
    intro i
    unfold at'
    by_cases hi : i < l.length
    · rw [if_neg (by omega), index_eq h1 hi, List.getElem?_eq_getElem hi]
    · rw [if_pos (by omega), List.getElem?_eq_none (by omega)]
  have hread : ∀ n i, i + n = l.length → v.readFrom i n = .ok (l.drop i) := by
    intro n
    induction n with
    | zero => intro i hi; rw [readFrom, List.drop_eq_nil_of_le (by omega)]
    | succ n ih =>
      intro i hi
      rw [readFrom, index_eq h1 (by omega : i < l.length), Outcome.bind_ok, ih (i + 1) (by omega), Outcome.bind_ok,
        Outcome.pure_eq, ← List.drop_eq_getElem_cons (by omega)]
  refine ⟨h2, h3, ?_, ?_, hat, ?_, ?_, ?_⟩
  · cases l <;> simp [isEmpty, h2]
  · rw [iterate, h2, hread l.length 0 (by omega), List.drop_zero]
  · intro i x hx
    obtain ⟨hi, rfl⟩ := List.getElem?_eq_some_iff.1 hx
    exact index_eq h1 hi
  · rw [front, hat]; cases l <;> rfl
  · rw [back, hat]
    simp only [size, h2]
    rcases List.eq_nil_or_concat l with rfl | ⟨l', x, rfl⟩
    · rfl
    · have hl : (l'.concat x).length = l'.length + 1 := by simp
      have : ((l'.concat x).length + (2 ^ 64 - 1)) % 2 ^ 64 = l'.length := by rw [hl] at hlen ⊢; omega
      rw [this]
      simp

theorem holds_empty (cap : Nat) : Holds cap (empty cap : StaticVector α) [] :=
  ⟨List.replicate cap none, by simp [empty], rfl, by simp [empty]⟩

theorem resize_eq {cap : Nat} {v : StaticVector α} {l : List α} (h : Holds cap v l) (n : Nat) (x : α) :
    if n ≤ cap then ∃ v', resize n x v = (.ok (), v') ∧ Holds cap v' (resized l n x)
    else resize n x v = (tooLong, v) := by
  have hc : v.capacity = cap := h.choose_spec.2.2
  unfold resize
  split
  · rename_i hn
    rw [if_neg (by omega)]
    obtain ⟨v', h1, h2⟩ := unsafeResize_eq h hn x
    exact ⟨v', by rw [h1], h2⟩
  · rw [if_pos (by omega)]; rfl

theorem resizeDefault_eq_resize (d : α) (n : Nat) : resizeDefault d n = resize n d := rfl

/-- Every call does to the vectors what it does to the lists. -/
theorem step_refines {cap : Nat} (hcap : cap < 2 ^ 64 - 1) (d : α) (mv : α → α) (op : Op α)
    (σ : Nat → StaticVector α) (ls : Nat → List α) (h : ∀ k, Holds cap (σ k) (ls k)) :
    (StaticVector.step cap d mv op σ).1 = (Spec.StaticVector.step cap d mv op ls).1 ∧
    ∀ k, Holds cap ((StaticVector.step cap d mv op σ).2 k) ((Spec.StaticVector.step cap d mv op ls).2 k) := by
  have hone : ∀ (i : Nat) (call : St (StaticVector α) Unit) (o : Outcome Unit) (v' : StaticVector α) (l : List α),
      call (σ i) = (o, v') → Holds cap v' l →
      (onOne i call σ).1 = o ∧ ∀ k, Holds cap ((onOne i call σ).2 k) (if k = i then l else ls k) := by
    intro i call o v' l hc hl
    refine ⟨by simp [onOne, hc], fun k => ?_⟩
    simp only [onOne, hc, assign]
    split
    · exact hl
    · exact h k
  have hsame : ∀ (i : Nat) (call : St (StaticVector α) Unit) (o : Outcome Unit),
      call (σ i) = (o, σ i) → (onOne i call σ).1 = o ∧ ∀ k, Holds cap ((onOne i call σ).2 k) (ls k) := by
    intro i call o hc
    refine ⟨by simp [onOne, hc], fun k => ?_⟩
    simp only [onOne, hc, assign]
    split
    · rename_i hk; rw [hk]; exact h i
    · exact h k
  have hput : ∀ (i : Nat) (v : StaticVector α) (l : List α), Holds cap v l →
      ∀ k, Holds cap (assign σ i v k) (if k = i then l else ls k) := by
    intro i v l hl k
    simp only [assign]
    split
    · exact hl
    · exact h k
  have hlen : ∀ i, (ls i).length ≤ cap := by
    intro i
    obtain ⟨rest, h1, _, h3⟩ := h i
    rw [← h3, h1]; simp
  cases op with
  | make i => exact ⟨rfl, hput i _ _ (holds_empty cap)⟩
  | ofList i init =>
    simp only [step, StaticVector.ofList, Spec.StaticVector.step]
    by_cases hi : init.length ≤ cap
    · rw [if_neg (by omega), if_pos hi]
      refine ⟨rfl, hput i _ _ ⟨List.replicate (cap - init.length) none, rfl, rfl, ?_⟩⟩
      simp; omega
    · rw [if_pos (by omega), if_neg hi]
      exact ⟨rfl, h⟩
  | pushBack i x =>
    have hr := resize_eq (h i) ((ls i).length + 1) x
    have hsz : ((σ i).size + 1) % 2 ^ 64 = (ls i).length + 1 := by
      have := hlen i
      have h2 : (σ i).size = (ls i).length := (h i).choose_spec.2.1
      rw [h2]; omega
    simp only [step, Spec.StaticVector.step]
    by_cases hlt : (ls i).length < cap
    · rw [if_pos (by omega)] at hr
      rw [if_pos hlt]
      obtain ⟨v', h1, h2⟩ := hr
      refine hone i _ _ v' _ ?_ ?_
      · simp only [pushBack, hsz, h1]
      · have : resized (ls i) ((ls i).length + 1) x = ls i ++ [x] := by
          rw [resized, List.take_of_length_le (by omega)]; simp
        rw [← this]; exact h2
    · rw [if_neg (by omega)] at hr
      rw [if_neg hlt]
      refine hsame i _ _ ?_
      simp only [pushBack, hsz, hr]
  | resize i n x =>
    have hr := resize_eq (h i) n x
    simp only [step, Spec.StaticVector.step]
    by_cases hn : n ≤ cap
    · rw [if_pos hn] at hr ⊢
      obtain ⟨v', h1, h2⟩ := hr
      exact hone i _ _ v' _ h1 h2
    · rw [if_neg hn] at hr ⊢
      exact hsame i _ _ hr
  | resizeDefault i n =>
    have hr := resize_eq (h i) n d
    simp only [step, Spec.StaticVector.step, resizeDefault_eq_resize]
    by_cases hn : n ≤ cap
    · rw [if_pos hn] at hr ⊢
      obtain ⟨v', h1, h2⟩ := hr
      exact hone i _ _ v' _ h1 h2
    · rw [if_neg hn] at hr ⊢
      exact hsame i _ _ hr
  | clear i =>
    refine ⟨rfl, hput i _ _ ⟨(σ i).data, by simp [clear], rfl, (h i).choose_spec.2.2⟩⟩
  | setAt i pos x =>
    obtain ⟨rest, h1, h2, h3⟩ := h i
    simp only [step, Spec.StaticVector.step]
    by_cases hp : pos < (ls i).length
    · rw [if_pos hp]
      have hat : (σ i).at' pos = .ok (ls i)[pos] := by
        rw [at', if_neg (by omega), index_eq h1 hp]
      refine hone i _ _ { σ i with data := (σ i).data.set pos (some x) } _ (by simp only [setAt, hat]) ⟨rest, ?_, ?_, ?_⟩
      · simp only [h1]
        rw [List.set_append_left _ _ (by simpa using hp), List.map_set]
      · simp [h2]
      · simp [h3]
    · rw [if_neg hp]
      have hat : (σ i).at' pos = .throw (.outOfRange "Static vector access violation") := by
        rw [at', if_pos (by omega)]
      refine hsame i _ _ ?_
      simp only [setAt, hat]
  | swap i j =>
    refine ⟨rfl, fun k => ?_⟩
    simp only [step, Spec.StaticVector.step, assign, swap]
    split
    · exact h i
    · split
      · exact h j
      · exact h k
  | copy i j => exact ⟨rfl, hput i _ _ (h j)⟩
  | move i j =>
    refine ⟨rfl, fun k => ?_⟩
    simp only [step, Spec.StaticVector.step, assign]
    split
    · obtain ⟨rest, h1, h2, h3⟩ := h j
      refine ⟨rest.map (·.map mv), ?_, by simp [movedFrom, h2], by simp [movedFrom, h3]⟩
      simp [movedFrom, h1, Function.comp_def]
    · split
      · exact h j
      · exact h k

theorem outcomes_refines {cap : Nat} (hcap : cap < 2 ^ 64 - 1) (d : α) (mv : α → α) (ops : List (Op α)) :
    ∀ (σ : Nat → StaticVector α) (ls : Nat → List α), (∀ k, Holds cap (σ k) (ls k)) →
    (St.outcomes (StaticVector.step cap d mv) ops σ).1 = (Spec.StaticVector.history cap d mv ops ls).1 ∧
    ∀ k, Holds cap ((St.outcomes (StaticVector.step cap d mv) ops σ).2 k) ((Spec.StaticVector.history cap d mv ops ls).2 k) := by
  induction ops with
  | nil => intro σ ls h; exact ⟨rfl, h⟩
  | cons op ops ih =>
    intro σ ls h
    obtain ⟨h1, h2⟩ := step_refines hcap d mv op σ ls h
    obtain ⟨h3, h4⟩ := ih _ _ h2
    simp only [St.outcomes, Spec.StaticVector.history]
    exact ⟨by rw [h1, h3], h4⟩

end Wite.Collections.StaticVector
