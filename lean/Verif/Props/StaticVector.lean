import Verif.Lemmas.StaticVector

/-!
# Properties C58–C62: `static_vector`
-/

namespace Wite.Props

open Wite Wite.Collections Wite.Spec.StaticVector

variable {α : Type}

/-- A program over static vectors, all of which start empty. -/
private abbrev sv (cap : Nat) (d : α) (mv : α → α) (ops : List (StaticVector.Op α)) :
    List (Outcome Unit) × (Nat → StaticVector α) :=
  St.outcomes (StaticVector.step cap d mv) ops fun _ => StaticVector.empty cap

/-- The same program over lists. -/
private abbrev lists (cap : Nat) (d : α) (mv : α → α) (ops : List (StaticVector.Op α)) :
    List (Outcome Unit) × (Nat → List α) :=
  Spec.StaticVector.history cap d mv ops fun _ => []

private theorem holds_all {cap : Nat} (hcap : cap < 2 ^ 64 - 1) (d : α) (mv : α → α) (ops : List (StaticVector.Op α)) :
    (sv cap d mv ops).1 = (lists cap d mv ops).1 ∧
    ∀ k, StaticVector.Holds cap ((sv cap d mv ops).2 k) ((lists cap d mv ops).2 k) :=
  StaticVector.outcomes_refines hcap d mv ops _ _ fun _ => StaticVector.holds_empty cap

/-! ## C58 -/

/-- C58: for every capacity, every program of calls on any number of vectors has the same outcomes as on
ordinary lists, and the vectors show the lists at the end (and so at every moment). -/
theorem c58_list (cap : Nat) (hcap : cap < 2 ^ 64 - 1) (d : α) (mv : α → α) (ops : List (StaticVector.Op α)) :
    (sv cap d mv ops).1 = (lists cap d mv ops).1 ∧
    ∀ k, Shows cap ((sv cap d mv ops).2 k) ((lists cap d mv ops).2 k) :=
  ⟨(holds_all hcap d mv ops).1, fun k => StaticVector.holds_shows (by omega) ((holds_all hcap d mv ops).2 k)⟩

/-- C58: in particular a call that throws leaves every vector as it was. -/
theorem c58_unchanged (cap : Nat) (hcap : cap < 2 ^ 64 - 1) (d : α) (mv : α → α) (ops : List (StaticVector.Op α))
    (op : StaticVector.Op α) (e : Exc)
    (h : (StaticVector.step cap d mv op (sv cap d mv ops).2).1 = .throw e) (k : Nat) :
    Shows cap ((StaticVector.step cap d mv op (sv cap d mv ops).2).2 k) ((lists cap d mv ops).2 k) := by
  obtain ⟨h1, h2⟩ := StaticVector.step_refines hcap d mv op _ _ (holds_all hcap d mv ops).2
  have hs : (Spec.StaticVector.step cap d mv op (lists cap d mv ops).2).2 = (lists cap d mv ops).2 := by
    rw [h1] at h
    cases op <;> simp only [Spec.StaticVector.step] at h ⊢ <;> first
      | (simp at h; done)
      | (split at h
         · simp at h
         · rw [if_neg (by assumption)])
  have := h2 k
  rw [hs] at this
  exact StaticVector.holds_shows (by omega) this

example : (sv 3 0 id [.pushBack 0 7, .pushBack 0 8, .resize 0 3 1, .pushBack 0 9, .clear 0, .resizeDefault 0 2,
      .ofList 1 [4, 5, 6, 7], .ofList 1 [4, 5], .swap 0 1, .setAt 1 1 3, .setAt 1 2 3]).1 =
    [.ok (), .ok (), .ok (), tooLong, .ok (), .ok (), .throw (.invalidArgument "Too many initialisation elements"),
      .ok (), .ok (), .ok (), .throw (.outOfRange "Static vector access violation")] := by decide

/-! ## C59 -/

/-- C59 is false: the size constructor accepts any 8-bit size, beyond the capacity too: for every capacity below 255 some
size leaves the vector with more elements than it has room for, namely each whose low 8 bits exceed the capacity … -/
theorem c59_refuted_capacity (cap : Nat) : ((∃ size, (StaticVector.ofSize cap size : StaticVector α).size >
      (StaticVector.ofSize cap size : StaticVector α).capacity) ↔ cap < 255) ∧
    ∀ size, (StaticVector.ofSize cap size : StaticVector α).size >
      (StaticVector.ofSize cap size : StaticVector α).capacity ↔ cap < size % 256 := by
  have key : ∀ size, (StaticVector.ofSize cap size : StaticVector α).size >
      (StaticVector.ofSize cap size : StaticVector α).capacity ↔ cap < size % 256 := by
    intro size
    simp [StaticVector.ofSize, StaticVector.size, StaticVector.capacity]
  refine ⟨⟨fun ⟨size, h⟩ => ?_, fun h => ⟨255, (key 255).2 (by omega)⟩⟩, key⟩
  have := (key size).1 h
  omega

/-- C59 is false: … and creates no elements, so reading below `size()` is undefined, for every capacity and
every size but 0. -/
theorem c59_refuted_live (cap size pos : Nat) (h : pos < size % 256) :
    (StaticVector.ofSize cap size : StaticVector α).at' pos = .ub ∧
    (StaticVector.ofSize cap size : StaticVector α).iterate = .ub := by
  have hi : ∀ pos, (StaticVector.ofSize cap size : StaticVector α).index pos = .ub := by
    intro pos
    simp only [StaticVector.index, StaticVector.ofSize, List.getElem?_replicate]
    split
    · split at * <;> simp_all
    · rfl
  constructor
  · rw [StaticVector.at', if_neg (by simp [StaticVector.ofSize]; omega), hi]
  · rw [StaticVector.iterate]
    have : (StaticVector.ofSize cap size : StaticVector α).count = (size % 256 - 1) + 1 := by
      simp [StaticVector.ofSize]; omega
    rw [this, StaticVector.readFrom, hi]; rfl

/-- C59, what holds: starting from the other constructors, after every program the size is at most the
capacity and every element below it is live. -/
theorem c59_other_constructors_partial (cap : Nat) (hcap : cap < 2 ^ 64 - 1) (d : α) (mv : α → α)
    (ops : List (StaticVector.Op α)) (k : Nat) :
    let v := (sv cap d mv ops).2 k
    v.size ≤ v.capacity ∧ v.capacity = cap ∧ ∀ i, i < v.size → ∃ x, v.data[i]? = some (some x) := by
  obtain ⟨rest, h1, h2, h3⟩ := (holds_all hcap d mv ops).2 k
  refine ⟨?_, h3, ?_⟩
  · simp only [StaticVector.size, StaticVector.capacity, h2, h1]; simp
  · intro i hi
    simp only [StaticVector.size, h2] at hi
    refine ⟨((lists cap d mv ops).2 k)[i], ?_⟩
    rw [h1, List.getElem?_append_left (by simpa using hi), List.getElem?_map, List.getElem?_eq_getElem hi]; rfl

example : (StaticVector.ofSize 4 10 : StaticVector Nat).at' 0 = .ub := by decide

/-! ## C60 -/

/-- C60: `at` throws `out_of_range` exactly for positions not below the size, in every state. -/
theorem c60_at (v : StaticVector α) (i : Nat) :
    v.at' i = .throw (.outOfRange "Static vector access violation") ↔ i ≥ v.size := by
  simp only [StaticVector.at', StaticVector.size]
  split
  · simpa
  · rename_i h
    simp only [StaticVector.index]
    split <;> simp <;> omega

/-- C60: `front` and `back` throw exactly for the empty vector; `back` computes `size() - 1` in `size_t`. -/
theorem c60_front_back (v : StaticVector α) (h : v.size < 2 ^ 64) :
    (v.front = .throw (.outOfRange "Static vector access violation") ↔ v.size = 0) ∧
    (v.back = .throw (.outOfRange "Static vector access violation") ↔ v.size = 0) := by
  rw [StaticVector.front, StaticVector.back, c60_at, c60_at]
  constructor <;> omega

/-- C60: after every program the accesses that do not throw return. -/
theorem c60_returns (cap : Nat) (hcap : cap < 2 ^ 64 - 1) (d : α) (mv : α → α)
    (ops : List (StaticVector.Op α)) (k i : Nat) :
    ((sv cap d mv ops).2 k).at' i = .throw (.outOfRange "Static vector access violation") ∨
    (((sv cap d mv ops).2 k).at' i).returns := by
  have := ((c58_list cap hcap d mv ops).2 k).2.2.2.2.1 i
  rw [this]
  split
  · exact Or.inr trivial
  · exact Or.inl rfl

example : (StaticVector.empty 3 : StaticVector Nat).back = .throw (.outOfRange "Static vector access violation") := by decide

/-! ## C61 -/

/-- C61: two vectors showing lists `l` and `m`, by whatever history, compare equal exactly if the lists are
equal element by element. -/
theorem c61_equal_shown (cap cap' : Nat) (v w : StaticVector α) (l m : List α) (hv : Shows cap v l) (hw : Shows cap' w m)
    (eq : α → α → Bool) :
    v.equal eq w = .ok (l.length == m.length && (l.zip m).all fun p => eq p.1 p.2) ∧
    v.notEqual eq w = .ok !(l.length == m.length && (l.zip m).all fun p => eq p.1 p.2) := by
  have key : v.equal eq w = .ok (l.length == m.length && (l.zip m).all fun p => eq p.1 p.2) := by
    have h1 : v.count = l.length := hv.1
    have h2 : w.count = m.length := hw.1
    unfold StaticVector.equal
    by_cases hlen : l.length = m.length
    · rw [if_neg (by omega)]
      have hloop : ∀ n i, i + n = l.length →
          StaticVector.equalFrom eq v w i n = .ok (((l.drop i).zip (m.drop i)).all fun p => eq p.1 p.2) := by
        intro n
        induction n with
        | zero => intro i hi; rw [StaticVector.equalFrom, List.drop_eq_nil_of_le (by omega)]; rfl
        | succ n ih =>
          intro i hi
          have a := hv.2.2.2.2.2.1 i l[i] (List.getElem?_eq_getElem (by omega))
          have b := hw.2.2.2.2.2.1 i m[i] (List.getElem?_eq_getElem (by omega))
          rw [StaticVector.equalFrom, a, Outcome.bind_ok, b, Outcome.bind_ok,
            List.drop_eq_getElem_cons (by omega : i < l.length), List.drop_eq_getElem_cons (by omega : i < m.length),
            List.zip_cons_cons, List.all_cons]
          cases heq : eq l[i] m[i] with
          | true => simp [ih (i + 1) (by omega)]
          | false => simp
      rw [h1, hloop l.length 0 (by omega)]
      simp [hlen]
    · rw [if_pos (by omega)]
      have : (l.length == m.length) = false := by simpa using hlen
      rw [this]; rfl
  exact ⟨key, by rw [StaticVector.notEqual, key]; rfl⟩

/-- C61: hence, after every program, comparing two vectors is comparing the lists, whatever was stored in
them earlier. -/
theorem c61_equal [DecidableEq α] (cap : Nat) (hcap : cap < 2 ^ 64 - 1) (d : α) (mv : α → α)
    (ops : List (StaticVector.Op α)) (i j : Nat) :
    ((sv cap d mv ops).2 i).equal (fun x y => decide (x = y)) ((sv cap d mv ops).2 j) =
      .ok (decide ((lists cap d mv ops).2 i = (lists cap d mv ops).2 j)) := by
  have h := (c58_list cap hcap d mv ops).2
  rw [(c61_equal_shown cap cap _ _ _ _ (h i) (h j) _).1]
  congr 1
  generalize (lists cap d mv ops).2 i = l
  generalize (lists cap d mv ops).2 j = m
  induction l generalizing m with
  | nil => cases m <;> simp
  | cons a l ih =>
    cases m with
    | nil => simp
    | cons b m =>
      have := ih m
      simp only [List.length_cons, List.zip_cons_cons, List.all_cons, List.cons.injEq]
      by_cases hab : a = b
      · simp only [hab, decide_true, Bool.true_and, true_and]
        rw [← this]
        congr 1
        simp [Bool.eq_iff_iff]
      · simp [hab]

example : (let s := (sv 3 0 id [.ofList 0 [1, 2, 3], .clear 0, .pushBack 0 5, .pushBack 1 5]).2
    (s 0).equal (fun x y => decide (x = y)) (s 1)) = .ok true := by decide

/-! ## C62 -/

/-- C62 is false for `clear()`: after it every element is still there, its destructor has not run, for every
vector. -/
theorem c62_refuted_clear (v : StaticVector α) (i : Nat) : v.clear.data[i]? = v.data[i]? := rfl

/-- C62: for instance the elements of a full vector survive. -/
theorem c62_refuted_example : ∃ v : StaticVector Nat, StaticVector.ofList 2 [4, 5] = .ok v ∧
    v.clear.size = 0 ∧ v.clear.data = [some 4, some 5] := ⟨_, rfl, rfl, rfl⟩

/-- C62, what holds: `resize` to a smaller size destroys exactly the removed elements, after every program. -/
theorem c62_resize_partial (cap : Nat) (hcap : cap < 2 ^ 64 - 1) (d : α) (mv : α → α)
    (ops : List (StaticVector.Op α)) (k n : Nat) (x : α) (hn : n < ((sv cap d mv ops).2 k).size) :
    let v := (sv cap d mv ops).2 k
    ∃ v', StaticVector.resize n x v = (.ok (), v') ∧ v'.size = n ∧
      (∀ i, n ≤ i → i < v.size → v'.data[i]? = some none) ∧
      (∀ i, i < n ∨ v.size ≤ i → v'.data[i]? = v.data[i]?) := by
  obtain ⟨rest, h1, h2, h3⟩ := (holds_all hcap d mv ops).2 k
  simp only [StaticVector.size] at hn
  generalize hv : (sv cap d mv ops).2 k = v at *
  generalize (lists cap d mv ops).2 k = l at *
  have hlen : l.length + rest.length = cap := by rw [← h3, h1]; simp
  have hsplit : v.data = (l.take n).map some ++ (l.drop n).map some ++ rest := by
    rw [h1, ← List.map_append, List.take_append_drop]
  have hpos : v.count = ((l.take n).map some).length + (v.count - n) := by simp [h2]; omega
  have hreset := StaticVector.resetBefore_eq (v.count - n) ((l.drop n).map some) (by simp; omega) ((l.take n).map some) rest
  rw [← hpos, ← hsplit] at hreset
  have hsz : v.size = v.count := rfl
  have hun : StaticVector.unsafeResize n x v =
      .ok ⟨(l.take n).map some ++ List.replicate (v.count - n) none ++ rest, n⟩ := by
    unfold StaticVector.unsafeResize
    rw [if_neg (by omega), if_pos (by omega)]
    simp only [StaticVector.destroyLastN, hsz, hreset, Outcome.bind_ok, Outcome.pure_eq]
  refine ⟨⟨(l.take n).map some ++ List.replicate (v.count - n) none ++ rest, n⟩, ?_, rfl, ?_, ?_⟩
  · unfold StaticVector.resize
    rw [if_neg (by simp only [StaticVector.capacity, h3]; omega), hun]
  · intro i hi1 hi2
    simp only
    rw [List.append_assoc, List.getElem?_append_right (by simp; omega),
      List.getElem?_append_left (by simp; omega), List.getElem?_replicate, if_pos (by simp; omega)]
  · intro i hi
    simp only
    rw [hsplit]
    rcases hi with hi | hi
    · rw [List.append_assoc, List.append_assoc, List.getElem?_append_left (by simp; omega),
        List.getElem?_append_left (by simp; omega)]
    · rw [List.getElem?_append_right (by simp; omega), List.getElem?_append_right (by simp; omega)]
      congr 1; simp; omega

example : (StaticVector.resize 1 0 (⟨[some 4, some 5, some 6, none], 3⟩ : StaticVector Nat)).2 =
    ⟨[some 4, none, none, none], 1⟩ := by decide

end Wite.Props
