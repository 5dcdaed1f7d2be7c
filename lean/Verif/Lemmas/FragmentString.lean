import Mathlib.Tactic.Conv
import Verif.Model.FragmentString

/-! # Lemmas about fragment strings: positions of iterators -/

namespace Wite.Str

variable {C : Type}

/-- The concatenation of the fragments. -/
def text : FragStr C → List C
  | [] => []
  | f :: fs => f.chars ++ text fs

/-- There is a fragment, and every fragment but the last has a character. -/
def Regular (fs : FragStr C) : Prop := fs ≠ [] ∧ ∀ f ∈ fs.dropLast, f.chars ≠ []

theorem text_append (xs ys : FragStr C) : text (xs ++ ys) = text xs ++ text ys := by
  induction xs with
  | nil => rfl
  | cons f fs ih => simp [text, ih]

theorem length_text (fs : FragStr C) : length fs = (text fs).length := by
  induction fs with
  | nil => rfl
  | cons f fs ih => simp [length, text, ih]

theorem length_append (xs ys : FragStr C) : length (xs ++ ys) = length xs + length ys := by
  simp [length_text, text_append]

theorem length_take_succ {fs : FragStr C} {i : Nat} {s : Frag C} (h : fs[i]? = some s) :
    length (fs.take (i + 1)) = length (fs.take i) + s.chars.length := by
  rw [List.take_succ, h]
  simp [length_append, length]

theorem length_take_le (fs : FragStr C) (i : Nat) : length (fs.take i) ≤ length fs := by
  conv_rhs => rw [← List.take_append_drop i fs]
  rw [length_append]; omega

theorem length_take_mono (fs : FragStr C) {i j : Nat} (h : i ≤ j) : length (fs.take i) ≤ length (fs.take j) := by
  have := length_take_le (fs.take j) i
  rwa [List.take_take, Nat.min_eq_left h] at this

theorem length_take_all (fs : FragStr C) {i : Nat} (h : fs.length ≤ i) : length (fs.take i) = length fs := by
  rw [List.take_of_length_le h]

/-- The iterator is a valid one at offset `p` of the text: inside its fragment, or at the end of the last one. -/
def At (fs : FragStr C) (it : It) (p : Nat) : Prop :=
  ∃ s, fs[it.frag]? = some s ∧
    (it.cur < s.chars.length ∨ (it.frag + 1 = fs.length ∧ it.cur = s.chars.length)) ∧
    p = length (fs.take it.frag) + it.cur

theorem At.le {fs : FragStr C} {it : It} {p : Nat} (h : At fs it p) : p ≤ length fs := by
  obtain ⟨s, hs, hc, rfl⟩ := h
  have h1 := length_take_succ hs
  have h2 := length_take_le fs (it.frag + 1)
  omega

theorem At.frag_lt {fs : FragStr C} {it : It} {p : Nat} (h : At fs it p) : it.frag < fs.length := by
  obtain ⟨s, hs, _, _⟩ := h
  exact (List.getElem?_eq_some_iff.mp hs).1

theorem At.lt_of_frag_lt {fs : FragStr C} {x y : It} {p q : Nat} (hx : At fs x p) (hy : At fs y q)
    (h : x.frag < y.frag) : p < q := by
  have hl := hy.frag_lt
  obtain ⟨s, hs, hc, rfl⟩ := hx
  obtain ⟨t, ht, hd, rfl⟩ := hy
  have h1 := length_take_succ hs
  have h2 := length_take_mono fs (i := x.frag + 1) (j := y.frag) h
  rcases hc with hc | ⟨hc, _⟩ <;> omega

theorem At.unique {fs : FragStr C} {x y : It} {p : Nat} (hx : At fs x p) (hy : At fs y p) : x = y := by
  rcases Nat.lt_trichotomy x.frag y.frag with h | h | h
  · exact absurd (hx.lt_of_frag_lt hy h) (by omega)
  · obtain ⟨s, hs, hc, hp⟩ := hx
    obtain ⟨t, ht, hd, hq⟩ := hy
    rw [h] at hp
    have : x.cur = y.cur := by omega
    cases x; cases y; simp_all
  · exact absurd (hy.lt_of_frag_lt hx h) (by omega)

theorem At.eq_iff {fs : FragStr C} {x y : It} {p q : Nat} (hx : At fs x p) (hy : At fs y q) :
    x.eq y = true ↔ p = q := by
  have : x.eq y = true ↔ x = y := by
    cases x; cases y; simp [It.eq]
  rw [this]
  constructor
  · rintro rfl
    obtain ⟨_, _, _, rfl⟩ := hx
    obtain ⟨_, _, _, rfl⟩ := hy
    rfl
  · rintro rfl
    exact hx.unique hy

theorem At.threeWay {fs : FragStr C} {x y : It} {p q : Nat} (hx : At fs x p) (hy : At fs y q) :
    x.threeWay y = compare p q := by
  rcases Nat.lt_trichotomy x.frag y.frag with h | h | h
  · have := hx.lt_of_frag_lt hy h
    rw [It.threeWay, Nat.compare_eq_lt.mpr h, Nat.compare_eq_lt.mpr this]
  · obtain ⟨s, hs, hc, rfl⟩ := hx
    obtain ⟨t, ht, hd, rfl⟩ := hy
    rw [It.threeWay, h, Nat.compare_eq_eq.mpr rfl]
    simp only
    rcases Nat.lt_trichotomy x.cur y.cur with h' | h' | h'
    · rw [Nat.compare_eq_lt.mpr h', Nat.compare_eq_lt.mpr (by omega)]
    · rw [Nat.compare_eq_eq.mpr h', Nat.compare_eq_eq.mpr (by omega)]
    · rw [Nat.compare_eq_gt.mpr h', Nat.compare_eq_gt.mpr (by omega)]
  · have := hy.lt_of_frag_lt hx h
    rw [It.threeWay, Nat.compare_eq_gt.mpr h, Nat.compare_eq_gt.mpr this]

theorem sublength_eq (fs : FragStr C) {lo hi : Nat} (h : lo ≤ hi) :
    length (fs.take hi) = length (fs.take lo) + sublength fs lo hi := by
  rw [sublength, ← length_append]
  congr 1
  rw [show hi = lo + (hi - lo) by omega, List.take_add, show lo + (hi - lo) - lo = hi - lo by omega]

theorem At.diff {fs : FragStr C} {x y : It} {p q : Nat} (hx : At fs x p) (hy : At fs y q) :
    diff fs x y = (p : Int) - q := by
  obtain ⟨s, hs, hc, rfl⟩ := hx
  obtain ⟨t, ht, hd, rfl⟩ := hy
  unfold Str.diff distance
  split
  · have := sublength_eq fs (lo := y.frag) (hi := x.frag) (by omega); push_cast; omega
  · split
    · have := sublength_eq fs (lo := x.frag) (hi := y.frag) (by omega); push_cast; omega
    · have : x.frag = y.frag := by omega
      rw [this]; push_cast; omega

theorem Regular.next {fs : FragStr C} (hr : Regular fs) {i : Nat} {s : Frag C} (hs : fs[i]? = some s)
    (h : i + 1 ≠ fs.length) : s.chars ≠ [] := by
  have hi := (List.getElem?_eq_some_iff.mp hs).1
  apply hr.2
  rw [List.mem_iff_getElem?]
  refine ⟨i, ?_⟩
  rw [List.getElem?_dropLast, if_pos (by omega), hs]

/-- The beginning of a fragment of a regular string is a valid iterator. -/
theorem Regular.start {fs : FragStr C} (hr : Regular fs) {i : Nat} (h : i < fs.length) :
    At fs ⟨i, 0⟩ (length (fs.take i)) := by
  refine ⟨fs[i], List.getElem?_eq_getElem h, ?_, rfl⟩
  by_cases hl : i + 1 = fs.length
  · by_cases he : fs[i].chars.length = 0
    · right; exact ⟨hl, he.symm⟩
    · left; show 0 < _; omega
  · left
    exact List.length_pos_iff.mpr (hr.next (List.getElem?_eq_getElem h) hl)

theorem fragAt_of {fs : FragStr C} {i : Nat} {s : Frag C} (h : fs[i]? = some s) : fragAt fs i = .ok s.chars := by
  simp [fragAt, h]

theorem begin_at {fs : FragStr C} (hr : Regular fs) : begin' fs = .ok ⟨0, 0⟩ ∧ At fs ⟨0, 0⟩ 0 := by
  have := hr.start (i := 0) (List.length_pos_iff.mpr hr.1)
  refine ⟨?_, by simpa [length] using this⟩
  obtain ⟨h, _⟩ := hr
  cases fs with
  | nil => exact absurd rfl h
  | cons => rfl

theorem end_at {fs : FragStr C} (h : fs ≠ []) : ∃ it, end' fs = .ok it ∧ At fs it (length fs) := by
  have hp := List.length_pos_iff.mpr h
  have hs : fs[fs.length - 1]? = some (fs[fs.length - 1]) := List.getElem?_eq_getElem (by omega)
  refine ⟨⟨fs.length - 1, fs[fs.length - 1].chars.length⟩, ?_, ?_⟩
  · rw [end', List.getLast?_eq_getElem?, hs]
  · refine ⟨_, hs, ?_, ?_⟩
    · right; exact ⟨by show fs.length - 1 + 1 = _; omega, rfl⟩
    · have := length_take_succ hs
      rw [length_take_all fs (by omega)] at this
      exact this

theorem text_get {fs : FragStr C} {i k : Nat} {s : Frag C} (hs : fs[i]? = some s) (hk : k < s.chars.length) :
    (text fs)[length (fs.take i) + k]? = s.chars[k]? := by
  have hi := (List.getElem?_eq_some_iff.mp hs)
  have hd : fs = fs.take i ++ s :: fs.drop (i + 1) := by
    rw [← hi.2, ← List.drop_eq_getElem_cons hi.1, List.take_append_drop]
  have ht : text fs = text (fs.take i) ++ (s.chars ++ text (fs.drop (i + 1))) := by
    conv_lhs => rw [hd, text_append, text]
  rw [ht, length_text, List.getElem?_append_right (by omega), Nat.add_sub_cancel_left, List.getElem?_append_left hk]

theorem At.deref {fs : FragStr C} {it : It} {p : Nat} (h : At fs it p) (b : Build) (hp : p < (text fs).length) :
    deref b fs it = .ok (text fs)[p] := by
  obtain ⟨s, hs, hc, rfl⟩ := h
  rw [← length_text] at hp
  have hlt : it.cur < s.chars.length := by
    rcases hc with hc | ⟨hc, hd⟩
    · exact hc
    · have h1 := length_take_succ hs
      rw [length_take_all fs (by omega)] at h1
      omega
  have ht := text_get hs hlt
  rw [List.getElem?_eq_getElem (by rwa [← length_text])] at ht
  rw [Str.deref, fragAt_of hs, Outcome.bind_ok]
  have : debugAssert b (decide (it.cur < s.chars.length)) "fragment_string: dereference iterator out-of-range" = .ok () := by
    cases b <;> simp [debugAssert, hlt]
  rw [this, Outcome.bind_ok, ← ht]
  rfl

theorem At.incr {fs : FragStr C} (hr : Regular fs) {it : It} {p : Nat} (h : At fs it p) (b : Build)
    (hp : p < length fs) : ∃ it', incr b fs it = .ok it' ∧ At fs it' (p + 1) := by
  have hf := h.frag_lt
  obtain ⟨s, hs, hc, rfl⟩ := h
  have h1 := length_take_succ hs
  have hlt : it.cur < s.chars.length := by
    rcases hc with hc | ⟨hc, hd⟩
    · exact hc
    · rw [length_take_all fs (by omega)] at h1
      omega
  have ha : debugAssert b (!(decide (it.frag + 1 = fs.length) && decide (it.cur = s.chars.length)))
      "fragment_string::operator++: already at end" = .ok () := by
    have : decide (it.cur = s.chars.length) = false := by simp; omega
    cases b <;> simp [debugAssert, this]
  rw [Str.incr, fragAt_of hs, Outcome.bind_ok, ha, Outcome.bind_ok, if_pos hlt]
  by_cases he : it.cur + 1 = s.chars.length
  · rw [if_pos he]
    by_cases hl : it.frag + 1 = fs.length
    · rw [if_pos hl]
      exact ⟨_, rfl, s, hs, Or.inr ⟨hl, rfl⟩, by dsimp only; omega⟩
    · rw [if_neg hl]
      refine ⟨_, rfl, ?_⟩
      have := hr.start (i := it.frag + 1) (by omega)
      rwa [h1, ← he] at this
  · rw [if_neg he]
    exact ⟨_, rfl, s, hs, Or.inl (by show it.cur + 1 < _; omega), by dsimp only; omega⟩

theorem At.decr {fs : FragStr C} (hr : Regular fs) {it : It} {p : Nat} (h : At fs it (p + 1)) (b : Build) :
    ∃ it', decr b fs it = .ok it' ∧ At fs it' p := by
  have hf := h.frag_lt
  obtain ⟨s, hs, hc, hp⟩ := h
  have ha : debugAssert b (!(decide (it.frag = 0) && decide (it.cur = 0)))
      "fragment_string::operator--: already at beginning" = .ok () := by
    have : (decide (it.frag = 0) && decide (it.cur = 0)) = false := by
      rw [Bool.and_eq_false_iff]
      simp only [decide_eq_false_iff_not]
      by_cases h0 : it.frag = 0
      · right; intro h1
        rw [h0, h1] at hp; simp [length] at hp
      · exact Or.inl h0
    cases b <;> simp [debugAssert, this]
  rw [Str.decr, ha, Outcome.bind_ok]
  by_cases h0 : it.cur = 0
  · have hne : it.frag ≠ 0 := by
      intro h1; rw [h0, h1] at hp; simp [length] at hp
    have ht : fs[it.frag - 1]? = some (fs[it.frag - 1]) := List.getElem?_eq_getElem (by omega)
    have hn := hr.next ht (by omega)
    have hlen := List.length_pos_iff.mpr hn
    have h1 := length_take_succ ht
    rw [show it.frag - 1 + 1 = it.frag by omega] at h1
    rw [if_pos h0, if_neg hne, fragAt_of ht, Outcome.bind_ok, if_neg (by omega)]
    exact ⟨_, rfl, _, ht, Or.inl (by show _ - 1 < _; omega), by dsimp only; omega⟩
  · rw [if_neg h0]
    exact ⟨_, rfl, s, hs, Or.inl (by show it.cur - 1 < _; rcases hc with hc | ⟨_, hc⟩ <;> omega),
      by dsimp only; omega⟩

theorem At.seekForward {fs : FragStr C} (hr : Regular fs) (b : Build) :
    ∀ (n i cur p off : Nat), fs.length - i = n → At fs ⟨i, cur⟩ p → p + off ≤ length fs →
      ∃ it', seekForward b i (fs.drop i) cur off = .ok it' ∧ At fs it' (p + off) := by
  intro n
  induction n with
  | zero =>
    intro i cur p off hn h _
    have := h.frag_lt
    simp only at this; omega
  | succ n ih =>
    intro i cur p off hn h hoff
    have hf := h.frag_lt
    simp only at hf
    obtain ⟨s, hs, hc, hp⟩ := id h
    simp only at hs hc hp
    have h1 := length_take_succ hs
    have hd : fs.drop i = s :: fs.drop (i + 1) := by
      rw [List.drop_eq_getElem_cons hf, (List.getElem?_eq_some_iff.mp hs).2]
    rw [hd]
    have hcl : cur ≤ s.chars.length := by omega
    by_cases hl : i + 1 = fs.length
    · rw [List.drop_of_length_le (by omega), Str.seekForward]
      rw [length_take_all fs (by omega)] at h1
      by_cases h0 : off = 0
      · rw [if_pos h0]; exact ⟨_, rfl, by rw [h0]; exact h⟩
      · rw [if_neg h0]
        by_cases hlt : off < s.chars.length - cur
        · simp only [if_pos hlt]
          exact ⟨_, rfl, s, hs, Or.inl (by show cur + off < _; omega), by dsimp only; omega⟩
        · have he : off = s.chars.length - cur := by omega
          simp only [if_neg hlt]
          have ha : debugAssert b (decide (off = s.chars.length - cur))
              "fragment_string::_seek_forward: trying to seek beyond end of range" = .ok () := by
            cases b <;> simp [debugAssert, he]
          rw [ha, Outcome.bind_ok, if_pos (by omega)]
          exact ⟨_, rfl, s, hs, Or.inr ⟨hl, rfl⟩, by dsimp only; omega⟩
    · have hd' : fs.drop (i + 1) = fs[i + 1] :: fs.drop (i + 1 + 1) := List.drop_eq_getElem_cons (by omega)
      rw [hd', Str.seekForward, ← hd']
      by_cases h0 : off = 0
      · rw [if_pos h0]; exact ⟨_, rfl, by rw [h0]; exact h⟩
      · rw [if_neg h0]
        by_cases hlt : off < s.chars.length - cur
        · simp only [if_pos hlt]
          exact ⟨_, rfl, s, hs, Or.inl (by show cur + off < _; omega), by dsimp only; omega⟩
        · simp only [if_neg hlt]
          have hst := hr.start (i := i + 1) (by omega)
          obtain ⟨it', e, h'⟩ := ih (i + 1) 0 _ (off - (s.chars.length - cur)) (by omega) hst (by omega)
          refine ⟨it', e, ?_⟩
          rwa [h1, show length (fs.take i) + s.chars.length + (off - (s.chars.length - cur)) = p + off by omega] at h'

theorem At.seekBackward {fs : FragStr C} (b : Build) :
    ∀ (i cur p off : Nat) (s : Frag C), fs[i]? = some s → cur ≤ s.chars.length →
      (0 < off ∨ cur < s.chars.length ∨ (i + 1 = fs.length ∧ cur = s.chars.length)) →
      p = length (fs.take i) + cur → off ≤ p →
      ∃ it', seekBackward b fs i cur off = .ok it' ∧ At fs it' (p - off) := by
  intro i
  induction i with
  | zero =>
    intro cur p off s hs hc hcan hp hoff
    have : p = cur := by rw [hp]; simp [length]
    rw [Str.seekBackward, if_pos (by omega)]
    refine ⟨_, rfl, s, hs, ?_, by dsimp only; simp [length]; omega⟩
    show cur - off < _ ∨ _
    rcases Nat.eq_zero_or_pos off with h0 | h0
    · rw [h0]; rcases hcan with h | h | ⟨h, h'⟩
      · omega
      · left; omega
      · right; exact ⟨h, by show cur - 0 = _; omega⟩
    · left; omega
  | succ i ih =>
    intro cur p off s hs hc hcan hp hoff
    rw [Str.seekBackward]
    by_cases hle : off ≤ cur
    · rw [if_pos hle]
      refine ⟨_, rfl, s, hs, ?_, by dsimp only; omega⟩
      show cur - off < _ ∨ _
      rcases Nat.eq_zero_or_pos off with h0 | h0
      · rw [h0]; rcases hcan with h | h | ⟨h, h'⟩
        · omega
        · left; omega
        · right; exact ⟨h, by show cur - 0 = _; omega⟩
      · left; omega
    · rw [if_neg hle]
      have hi := (List.getElem?_eq_some_iff.mp hs).1
      have ht : fs[i]? = some (fs[i]) := List.getElem?_eq_getElem (by omega)
      have h1 := length_take_succ ht
      rw [fragAt_of ht, Outcome.bind_ok]
      obtain ⟨it', e, h'⟩ := ih fs[i].chars.length (length (fs.take i) + fs[i].chars.length) (off - cur) _ ht
        (Nat.le_refl _) (Or.inl (by omega)) rfl (by omega)
      refine ⟨it', e, ?_⟩
      rwa [show length (fs.take i) + fs[i].chars.length - (off - cur) = p - off by omega] at h'

theorem At.plus {fs : FragStr C} (hr : Regular fs) {it : It} {p : Nat} (h : At fs it p) (b : Build) (d : Int)
    (hd : -(2 ^ 63) < d) (h0 : 0 ≤ (p : Int) + d) (h1 : (p : Int) + d ≤ length fs) :
    ∃ it', plus b fs it d = .ok it' ∧ At fs it' ((p : Int) + d).toNat := by
  rw [Str.plus, seek]
  by_cases hp : 0 < d
  · rw [if_pos hp]
    obtain ⟨it', e, h'⟩ := At.seekForward hr b _ it.frag it.cur p d.toNat rfl h (by omega)
    exact ⟨it', e, by rwa [show p + d.toNat = ((p : Int) + d).toNat by omega] at h'⟩
  · rw [if_neg hp, negDiff, if_neg (by omega), Outcome.bind_ok]
    obtain ⟨s, hs, hc, hq⟩ := h
    obtain ⟨it', e, h'⟩ := At.seekBackward b it.frag it.cur p (-d).toNat s hs (by omega) (Or.inr hc) hq (by omega)
    exact ⟨it', e, by rwa [show p - (-d).toNat = ((p : Int) + d).toNat by omega] at h'⟩

theorem At.minus {fs : FragStr C} (hr : Regular fs) {it : It} {p : Nat} (h : At fs it p) (b : Build) (d : Int)
    (hd : -(2 ^ 63) < d) (hd' : d < 2 ^ 63) (h0 : 0 ≤ (p : Int) - d) (h1 : (p : Int) - d ≤ length fs) :
    ∃ it', minus b fs it d = .ok it' ∧ At fs it' ((p : Int) - d).toNat := by
  rw [Str.minus, negDiff, if_neg (by omega), Outcome.bind_ok]
  exact h.plus hr b (-d) (by omega) (by omega) (by omega)

/-! ## Iterators over a list, and the algorithms on them -/

/-- `rel i p` says that the iterator `i` stands at offset `p` of `t`; moves, distances and
comparisons agree with the offsets, and dereferencing gives the character there. -/
structure Tracks {σ : Type} (I : Iter σ C) (rel : σ → Nat → Prop) (t : List C) : Prop where
  le : ∀ {i p}, rel i p → p ≤ t.length
  deref : ∀ {i p}, rel i p → ∀ (h : p < t.length), I.deref i = .ok t[p]
  next : ∀ {i p}, rel i p → p < t.length → ∃ j, I.next i = .ok j ∧ rel j (p + 1)
  plus : ∀ {i p}, rel i p → ∀ d : Int, -(2 ^ 63) < d → d < 2 ^ 63 → 0 ≤ (p : Int) + d → (p : Int) + d ≤ t.length →
    ∃ j, I.plus i d = .ok j ∧ rel j ((p : Int) + d).toNat
  diff : ∀ {i p j q}, rel i p → rel j q → I.diff i j = (p : Int) - q
  eq : ∀ {i p j q}, rel i p → rel j q → (I.eq i j = true ↔ p = q)

theorem fwd_tracks {fs : FragStr C} (hr : Regular fs) (b : Build) : Tracks (fwd b fs) (At fs) (text fs) where
  le h := by rw [← length_text]; exact h.le
  deref h hp := h.deref b hp
  next h hp := h.incr hr b (by rwa [length_text])
  plus h d h1 h2 h3 h4 := h.plus hr b d h1 h3 (by rwa [length_text])
  diff h h' := h.diff h'
  eq h h' := h.eq_iff h'

theorem rev_tracks {fs : FragStr C} (hr : Regular fs) (b : Build) :
    Tracks (rev b fs) (fun it p => p ≤ length fs ∧ At fs it (length fs - p)) (text fs).reverse where
  le h := by rw [List.length_reverse, ← length_text]; exact h.1
  deref {i p} h hp := by
    rw [List.length_reverse, ← length_text] at hp
    have h2 := h.2
    rw [show length fs - p = length fs - (p + 1) + 1 by omega] at h2
    obtain ⟨j, e, hj⟩ := h2.decr hr b
    simp only [rev, e, Outcome.bind_ok]
    rw [hj.deref b (by rw [← length_text]; omega), List.getElem_reverse]
    congr 2
    rw [← length_text]; omega
  next {i p} h hp := by
    rw [List.length_reverse, ← length_text] at hp
    have h2 := h.2
    rw [show length fs - p = length fs - (p + 1) + 1 by omega] at h2
    obtain ⟨j, e, hj⟩ := h2.decr hr b
    exact ⟨j, e, by omega, hj⟩
  plus {i p} h d h1 h2 h3 h4 := by
    rw [List.length_reverse, ← length_text] at h4
    obtain ⟨h5, h6⟩ := h
    obtain ⟨j, e, hj⟩ := h6.minus hr b d h1 h2 (by omega) (by omega)
    refine ⟨j, e, by omega, ?_⟩
    rwa [show (((length fs - p : Nat) : Int) - d).toNat = length fs - ((p : Int) + d).toNat by omega] at hj
  diff {i p j q} h h' := by
    show Str.diff fs j i = _
    rw [h'.2.diff h.2]
    have h1 := h.1
    have h2 := h'.1
    omega
  eq {i p j q} h h' := by
    show i.eq j = true ↔ _
    rw [h.2.eq_iff h'.2]
    have h1 := h.1
    have h2 := h'.1
    omega

theorem view_tracks (s : List C) : Tracks (view s) (fun i p => i = p ∧ p ≤ s.length) s where
  le h := h.2
  deref {i p} h hp := by
    obtain ⟨rfl, _⟩ := h
    simp [view, List.getElem?_eq_getElem hp]
  next {i p} h hp := by
    obtain ⟨rfl, _⟩ := h
    exact ⟨i + 1, by simp [view, hp], rfl, hp⟩
  plus {i p} h d _ _ h3 h4 := by
    obtain ⟨rfl, _⟩ := h
    exact ⟨_, by simp only [view]; rw [if_pos ⟨h3, h4⟩], rfl, by omega⟩
  diff {i p j q} h h' := by obtain ⟨rfl, _⟩ := h; obtain ⟨rfl, _⟩ := h'; rfl
  eq {i p j q} h h' := by obtain ⟨rfl, _⟩ := h; obtain ⟨rfl, _⟩ := h'; simp [view]

theorem rview_tracks (s : List C) : Tracks (rview s) (fun i p => i + p = s.length) s.reverse where
  le {i p} h := by rw [List.length_reverse]; omega
  deref {i p} h hp := by
    rw [List.length_reverse] at hp
    simp only [rview]
    rw [if_pos (by omega), List.getElem?_eq_getElem (by omega), List.getElem_reverse]
    simp only
    congr 2
    omega
  next {i p} h hp := by
    rw [List.length_reverse] at hp
    exact ⟨i - 1, by simp only [rview]; rw [if_pos (by omega)], by omega⟩
  plus {i p} h d _ _ h3 h4 := by
    rw [List.length_reverse] at h4
    exact ⟨((i : Int) - d).toNat, by simp only [rview]; rw [if_pos ⟨by omega, by omega⟩], by omega⟩
  diff {i p j q} h h' := by simp only [rview]; omega
  eq {i p j q} h h' := by simp only [rview, decide_eq_true_eq]; omega

section
variable {σ τ : Type} {I : Iter σ C} {rel : σ → Nat → Prop} {t : List C}

theorem Tracks.readLoop (h : Tracks I rel t) :
    ∀ (n : Nat) (i l : σ) (p q : Nat), rel i p → rel l q → p ≤ q → q - p < n →
      Str.readLoop I n i l = .ok ((t.take q).drop p) := by
  intro n
  induction n with
  | zero => intro i l p q _ _ _ hn; omega
  | succ n ih =>
    intro i l p q hi hl hle hn
    rw [Str.readLoop]
    have hq := h.le hl
    by_cases he : p = q
    · rw [if_pos ((h.eq hi hl).mpr he), List.drop_of_length_le (by rw [List.length_take]; omega)]
    · rw [if_neg (fun hh => he ((h.eq hi hl).mp hh)), h.deref hi (by omega), Outcome.bind_ok]
      obtain ⟨j, e, hj⟩ := h.next hi (by omega)
      rw [e, Outcome.bind_ok, ih j l (p + 1) q hj hl (by omega) (by omega), Outcome.bind_ok]
      rw [List.drop_eq_getElem_cons (i := p) (by rw [List.length_take]; omega), List.getElem_take]
      rfl

theorem Tracks.readRange (h : Tracks I rel t) {i l : σ} {p q : Nat} (hi : rel i p) (hl : rel l q) (hle : p ≤ q) :
    Str.readRange I i l = .ok ((t.take q).drop p) := by
  rw [Str.readRange, h.diff hl hi, if_neg (by omega)]
  exact h.readLoop _ i l p q hi hl hle (by omega)

theorem Tracks.copyN (h : Tracks I rel t) :
    ∀ (n : Nat) (i : σ) (p : Nat), rel i p → p + n ≤ t.length → Str.copyN I n i = .ok ((t.drop p).take n) := by
  intro n
  induction n with
  | zero => intro i p _ _; simp [Str.copyN]
  | succ n ih =>
    intro i p hi hn
    obtain ⟨j, e, hj⟩ := h.next hi (by omega)
    rw [Str.copyN, h.deref hi (by omega), Outcome.bind_ok, e, Outcome.bind_ok, ih j (p + 1) hj (by omega), Outcome.bind_ok,
      List.drop_eq_getElem_cons (i := p) (by omega), List.take_succ_cons]
    rfl

variable [DecidableEq C] {J : Iter τ C} {rel' : τ → Nat → Prop} {u : List C}

theorem Tracks.equalLoop (h : Tracks I rel t) (h' : Tracks J rel' u) :
    ∀ (n : Nat) (i l : σ) (j : τ) (p q r : Nat), rel i p → rel l q → rel' j r → p ≤ q → q - p = n → r + n ≤ u.length →
      Str.equalLoop I J (n + 1) i l j = .ok (decide ((t.drop p).take n = (u.drop r).take n)) := by
  intro n
  induction n with
  | zero =>
    intro i l j p q r hi hl hj hle hn hr
    rw [Str.equalLoop, if_pos ((h.eq hi hl).mpr (by omega))]; simp
  | succ n ih =>
    intro i l j p q r hi hl hj hle hn hr
    have hq := h.le hl
    rw [Str.equalLoop, if_neg (fun hh => absurd ((h.eq hi hl).mp hh) (by omega)), h.deref hi (by omega), Outcome.bind_ok,
      h'.deref hj (by omega), Outcome.bind_ok,
      List.drop_eq_getElem_cons (i := p) (by omega), List.take_succ_cons,
      List.drop_eq_getElem_cons (i := r) (by omega), List.take_succ_cons]
    by_cases he : t[p] = u[r]
    · rw [if_pos he]
      obtain ⟨i', e, hi'⟩ := h.next hi (by omega)
      obtain ⟨j', e', hj'⟩ := h'.next hj (by omega)
      rw [e, Outcome.bind_ok, e', Outcome.bind_ok, ih i' l j' (p + 1) q (r + 1) hi' hl hj' (by omega) (by omega) (by omega)]
      simp [he]
    · rw [if_neg he]; simp [he]

theorem Tracks.stdEqual (h : Tracks I rel t) (h' : Tracks J rel' u) {i l : σ} {j m : τ} {p q r s : Nat}
    (hi : rel i p) (hl : rel l q) (hj : rel' j r) (hm : rel' m s) (hpq : p ≤ q) (hrs : r ≤ s) :
    Str.stdEqual I J i l j m = .ok (decide ((t.take q).drop p = (u.take s).drop r)) := by
  have hq := h.le hl
  have hs := h'.le hm
  rw [Str.stdEqual, h.diff hl hi, h'.diff hm hj]
  by_cases he : (q : Int) - p = (s : Int) - r
  · rw [if_pos he, h.equalLoop h' _ i l j p q r hi hl hj hpq (by omega) (by omega)]
    congr 2
    rw [List.drop_take, List.drop_take]
    rw [show ((q : Int) - p).toNat = q - p by omega, show s - r = q - p by omega]
  · rw [if_neg he]
    congr 1
    symm
    rw [decide_eq_false_iff_not]
    intro hc
    have := congrArg List.length hc
    simp only [List.length_drop, List.length_take] at this
    omega

end

end Wite.Str
