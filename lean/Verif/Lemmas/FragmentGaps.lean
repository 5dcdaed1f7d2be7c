import Verif.Lemmas.FragmentLoops
import Mathlib.Tactic.ByContra

/-!
# Lemmas about fragment strings with empty fragments

`On` describes the iterators that moving forward from `begin()` gives in any fragment string.
-/

namespace Wite.Str

variable {C : Type}

/-- A fragment that is not the last one is empty and stands at offset `p` of the text. -/
def GapAt (fs : FragStr C) (p : Nat) : Prop :=
  ∃ l f r, fs = l ++ f :: r ∧ r ≠ [] ∧ f.chars = [] ∧ length l = p

theorem gapAt_iff (fs : FragStr C) (p : Nat) :
    GapAt fs p ↔ ∃ k s, k + 1 < fs.length ∧ fs[k]? = some s ∧ s.chars = [] ∧ length (fs.take k) = p := by
  constructor
  · rintro ⟨l, f, r, rfl, hr, hf, hl⟩
    have := List.length_pos_iff.mpr hr
    exact ⟨l.length, f, by simp; omega, by simp, hf, by simpa using hl⟩
  · rintro ⟨k, s, hk, hs, he, hl⟩
    have hi := List.getElem?_eq_some_iff.mp hs
    refine ⟨fs.take k, s, fs.drop (k + 1), ?_, ?_, he, hl⟩
    · rw [← hi.2, ← List.drop_eq_getElem_cons hi.1, List.take_append_drop]
    · rw [ne_eq, List.drop_eq_nil_iff]; omega

theorem GapAt.le {fs : FragStr C} {p : Nat} (h : GapAt fs p) : p ≤ length fs := by
  obtain ⟨k, s, _, _, _, rfl⟩ := (gapAt_iff fs p).1 h
  exact length_take_le fs k

/-- The iterator that moving forward from `begin()` by `p` gives. -/
def On (fs : FragStr C) (it : It) (p : Nat) : Prop :=
  (∃ s, fs[it.frag]? = some s ∧
    (it.cur < s.chars.length ∨ (it.frag + 1 = fs.length ∧ it.cur = s.chars.length) ∨ (it.cur = 0 ∧ s.chars = []))) ∧
  p = length (fs.take it.frag) + it.cur ∧ (it.cur = 0 → ∀ k, k < it.frag → length (fs.take k) < p)

theorem On.frag_lt {fs : FragStr C} {it : It} {p : Nat} (h : On fs it p) : it.frag < fs.length := by
  obtain ⟨⟨s, hs, _⟩, _⟩ := h
  exact (List.getElem?_eq_some_iff.mp hs).1

theorem On.le {fs : FragStr C} {it : It} {p : Nat} (h : On fs it p) : p ≤ length fs := by
  obtain ⟨⟨s, hs, hc⟩, rfl, _⟩ := h
  have h1 := length_take_succ hs
  have h2 := length_take_le fs (it.frag + 1)
  have h3 : s.chars = [] → s.chars.length = 0 := fun h => by rw [h]; rfl
  rcases hc with hc | hc | hc
  · omega
  · omega
  · have := h3 hc.2; omega

theorem On.begin {fs : FragStr C} (h : fs ≠ []) : begin' fs = .ok ⟨0, 0⟩ ∧ On fs ⟨0, 0⟩ 0 := by
  cases fs with
  | nil => exact absurd rfl h
  | cons f fs =>
    refine ⟨rfl, ⟨f, rfl, ?_⟩, by simp [length], by intro _ k hk; simp at hk⟩
    by_cases hf : f.chars = []
    · exact .inr (.inr ⟨rfl, hf⟩)
    · exact .inl (List.length_pos_iff.mpr hf)

/-- At a gap the iterator stands at the empty fragment. -/
theorem On.gap {fs : FragStr C} {it : It} {p : Nat} (h : On fs it p) (hg : GapAt fs p) :
    it.cur = 0 ∧ it.frag + 1 < fs.length ∧ ∃ s, fs[it.frag]? = some s ∧ s.chars = [] := by
  have hlt := h.frag_lt
  obtain ⟨⟨s, hs, hc⟩, hp, hm⟩ := h
  obtain ⟨k, t, hk, ht, hte, hl⟩ := (gapAt_iff fs p).1 hg
  have h1 := length_take_succ hs
  have hkt := length_take_succ ht
  have ht0 : t.chars.length = 0 := by rw [hte]; rfl
  rcases Nat.lt_trichotomy k it.frag with hkf | hkf | hkf
  · have hpos : it.cur ≠ 0 := fun h0 => by have := hm h0 k hkf; omega
    have := length_take_mono fs (i := k) (j := it.frag) (by omega)
    omega
  · subst hkf
    rw [ht] at hs; cases hs
    refine ⟨by omega, hk, _, ht, hte⟩
  · have := length_take_mono fs (i := it.frag + 1) (j := k) (by omega)
    rcases hc with hc | hc | hc
    · omega
    · omega
    · exact ⟨hc.1, by omega, s, hs, hc.2⟩

/-- Away from gaps and the end it stands at a character. -/
theorem On.char {fs : FragStr C} {it : It} {p : Nat} (h : On fs it p) (hg : ¬GapAt fs p) (hp : p < length fs) :
    ∃ s, fs[it.frag]? = some s ∧ it.cur < s.chars.length := by
  have hlt := h.frag_lt
  obtain ⟨⟨s, hs, hc⟩, rfl, hm⟩ := h
  refine ⟨s, hs, ?_⟩
  have h1 := length_take_succ hs
  have last : it.frag + 1 = fs.length → length (fs.take (it.frag + 1)) = length fs := fun e =>
    length_take_all fs (by omega)
  rcases hc with hc | hc | hc
  · exact hc
  · have := last hc.1; omega
  · exfalso
    have h0 : s.chars.length = 0 := by rw [hc.2]; rfl
    by_cases hl : it.frag + 1 = fs.length
    · have := last hl; omega
    · exact hg ((gapAt_iff fs _).2 ⟨it.frag, s, by omega, hs, hc.2, by omega⟩)

theorem On.deref {fs : FragStr C} {it : It} {p : Nat} (h : On fs it p) (b : Build) (hg : ¬GapAt fs p)
    (hp : p < (text fs).length) : deref b fs it = .ok (text fs)[p] := by
  obtain ⟨s, hs, hlt⟩ := h.char hg (by rwa [length_text])
  have hp' := h.2.1
  have ht := text_get hs hlt
  rw [← hp', List.getElem?_eq_getElem hp] at ht
  rw [Str.deref, fragAt_of hs, Outcome.bind_ok]
  have : debugAssert b (decide (it.cur < s.chars.length)) "fragment_string: dereference iterator out-of-range" = .ok () := by
    cases b <;> simp [debugAssert, hlt]
  rw [this, Outcome.bind_ok, ← ht]
  rfl

/-- What using `*it` on an empty fragment does. -/
def badStar {α : Type} (b : Build) : Outcome α :=
  match b with
  | .debug => .throw (.assertion "fragment_string: dereference iterator out-of-range")
  | .aborting => .terminate
  | .release => .ub

theorem On.deref_gap {fs : FragStr C} {it : It} {p : Nat} (h : On fs it p) (b : Build) (hg : GapAt fs p) :
    Str.deref b fs it = badStar b := by
  obtain ⟨hc, _, s, hs, he⟩ := h.gap hg
  rw [Str.deref, fragAt_of hs, Outcome.bind_ok, he, hc]
  cases b <;> rfl

theorem On.incr {fs : FragStr C} {it : It} {p : Nat} (h : On fs it p) (b : Build) (hg : ¬GapAt fs p)
    (hp : p < length fs) : ∃ it', incr b fs it = .ok it' ∧ On fs it' (p + 1) := by
  have hf := h.frag_lt
  obtain ⟨s, hs, hlt⟩ := h.char hg hp
  have hp' := h.2.1
  have h1 := length_take_succ hs
  have ha : debugAssert b (!(decide (it.frag + 1 = fs.length) && decide (it.cur = s.chars.length)))
      "fragment_string::operator++: already at end" = .ok () := by
    have : decide (it.cur = s.chars.length) = false := by simp; omega
    cases b <;> simp [debugAssert, this]
  rw [Str.incr, fragAt_of hs, Outcome.bind_ok, ha, Outcome.bind_ok, if_pos hlt]
  by_cases he : it.cur + 1 = s.chars.length
  · rw [if_pos he]
    by_cases hl : it.frag + 1 = fs.length
    · rw [if_pos hl]
      refine ⟨_, rfl, ⟨s, hs, Or.inr (.inl ⟨hl, rfl⟩)⟩, by dsimp only; omega, fun h0 => ?_⟩
      dsimp only at h0; omega
    · rw [if_neg hl]
      have hn : fs[it.frag + 1]? = some fs[it.frag + 1] := List.getElem?_eq_getElem (by omega)
      refine ⟨_, rfl, ⟨_, hn, ?_⟩, by dsimp only; omega, fun _ k hk => ?_⟩
      · by_cases hx : fs[it.frag + 1].chars = []
        · exact .inr (.inr ⟨rfl, hx⟩)
        · exact .inl (List.length_pos_iff.mpr hx)
      · dsimp only at hk
        have := length_take_mono fs (i := k) (j := it.frag) (by omega)
        omega
  · rw [if_neg he]
    refine ⟨_, rfl, ⟨s, hs, Or.inl ?_⟩, by dsimp only; omega, fun h0 => ?_⟩
    · dsimp only; omega
    · dsimp only at h0; omega

theorem On.unique {fs : FragStr C} {x y : It} {p : Nat} (hx : On fs x p) (hy : On fs y p) : x = y := by
  have key : ∀ {x y : It}, On fs x p → On fs y p → ¬x.frag < y.frag := by
    intro x y hx hy h
    have hyl := hy.frag_lt
    obtain ⟨⟨s, hs, hc⟩, hp, _⟩ := hx
    obtain ⟨_, hq, hm⟩ := hy
    have h1 := length_take_succ hs
    have h2 := length_take_mono fs (i := x.frag + 1) (j := y.frag) (by omega)
    have h3 : x.cur ≠ 0 := fun h0 => by
      by_cases hy0 : y.cur = 0
      · have := hm hy0 _ h; omega
      · omega
    by_cases hy0 : y.cur = 0
    · rcases hc with hc | hc | hc <;> omega
    · rcases hc with hc | hc | hc <;> omega
  rcases Nat.lt_trichotomy x.frag y.frag with h | h | h
  · exact absurd h (key hx hy)
  · have h1 := hx.2.1
    have h2 := hy.2.1
    rw [h] at h1
    cases x; cases y
    simp_all
  · exact absurd h (key hy hx)

theorem It.eq_iff {x y : It} : x.eq y = true ↔ x = y := by
  cases x; cases y; simp [It.eq]

theorem On.eq_iff {fs : FragStr C} {x y : It} {p q : Nat} (hx : On fs x p) (hy : On fs y q) :
    x.eq y = true ↔ p = q := by
  rw [It.eq_iff]
  constructor
  · rintro rfl; rw [hx.2.1, hy.2.1]
  · rintro rfl; exact hx.unique hy

/-- When the iterator equals `end()`. -/
theorem On.eq_end {fs : FragStr C} {x l : It} {p : Nat} (hx : On fs x p) (he : end' fs = .ok l) :
    x.eq l = true ↔ p = length fs ∧ ¬GapAt fs (length fs) := by
  have hlt := hx.frag_lt
  obtain ⟨e, hn⟩ : ∃ e, fs[fs.length - 1]? = some e := ⟨_, List.getElem?_eq_getElem (by omega)⟩
  rw [end', List.getLast?_eq_getElem?, hn] at he
  injection he with he
  have hall := length_take_succ hn
  rw [length_take_all fs (by omega)] at hall
  rw [It.eq_iff, ← he]
  constructor
  · rintro rfl
    have hp := hx.2.1
    dsimp only at hp
    have : p = length fs := by omega
    refine ⟨this, fun hg => ?_⟩
    have := (hx.gap (by rwa [this])).2.1
    dsimp only at this
    omega
  · rintro ⟨rfl, hg⟩
    obtain ⟨⟨s, hs, hc⟩, hp, hm⟩ := hx
    have h1 := length_take_succ hs
    have h2 := length_take_le fs (x.frag + 1)
    have hlast : x.frag + 1 = fs.length := by
      rcases hc with hc | hc | hc
      · omega
      · exact hc.1
      · by_contra hne
        have : s.chars.length = 0 := by rw [hc.2]; rfl
        exact hg ((gapAt_iff fs _).2 ⟨x.frag, s, by omega, hs, hc.2, by omega⟩)
    have hxf : x.frag = fs.length - 1 := by omega
    have hp' : length fs = length (fs.take (fs.length - 1)) + x.cur := by rw [← hxf]; exact hp
    cases x
    simp only [It.mk.injEq]
    dsimp only at hxf hp'
    exact ⟨hxf, by omega⟩

theorem diff_of {fs : FragStr C} {x y : It} {p q : Nat} (hx : p = length (fs.take x.frag) + x.cur)
    (hy : q = length (fs.take y.frag) + y.cur) : diff fs x y = (p : Int) - q := by
  subst hx; subst hy
  unfold Str.diff distance
  split
  · have := sublength_eq fs (lo := y.frag) (hi := x.frag) (by omega); push_cast; omega
  · split
    · have := sublength_eq fs (lo := x.frag) (hi := y.frag) (by omega); push_cast; omega
    · have : x.frag = y.frag := by omega
      rw [this]; push_cast; omega

theorem On.seekForward {fs : FragStr C} (b : Build) :
    ∀ (n i p off : Nat), fs.length - i = n → i < fs.length → p = length (fs.take i) + off → p ≤ length fs →
      (∀ k, k < i → length (fs.take k) < p) →
      ∃ it', seekForward b i (fs.drop i) 0 off = .ok it' ∧ On fs it' p := by
  intro n
  induction n with
  | zero => intro i p off h1 h2; omega
  | succ n ih =>
    intro i p off hn hi hp hle hm
    have hs : fs[i]? = some fs[i] := List.getElem?_eq_getElem hi
    have h1 := length_take_succ hs
    have here : off = 0 → On fs ⟨i, 0⟩ p := by
      intro h0
      refine ⟨⟨_, hs, ?_⟩, by dsimp only; omega, fun _ => hm⟩
      by_cases hx : fs[i].chars = []
      · exact .inr (.inr ⟨rfl, hx⟩)
      · exact .inl (List.length_pos_iff.mpr hx)
    rw [List.drop_eq_getElem_cons hi]
    cases hr : fs.drop (i + 1) with
    | nil =>
      have hlast : i + 1 = fs.length := by
        have := List.drop_eq_nil_iff.1 hr; omega
      rw [length_take_all fs (by omega)] at h1
      rw [Str.seekForward]
      by_cases h0 : off = 0
      · rw [if_pos h0]; exact ⟨_, rfl, here h0⟩
      · rw [if_neg h0]
        simp only [Nat.sub_zero]
        by_cases hlt : off < fs[i].chars.length
        · rw [if_pos hlt]
          refine ⟨_, rfl, ⟨_, hs, .inl ?_⟩, ?_, fun h => ?_⟩
          · dsimp only; omega
          · dsimp only; omega
          · dsimp only at h; omega
        · rw [if_neg hlt]
          have he : off = fs[i].chars.length := by omega
          have ha : debugAssert b (decide (off = fs[i].chars.length))
              "fragment_string::_seek_forward: trying to seek beyond end of range" = .ok () := by
            cases b <;> simp [debugAssert, he]
          rw [ha, Outcome.bind_ok, if_pos (by omega)]
          refine ⟨_, rfl, ⟨_, hs, .inr (.inl ⟨hlast, rfl⟩)⟩, ?_, fun h => ?_⟩
          · dsimp only; omega
          · dsimp only at h; omega
    | cons t rest =>
      rw [Str.seekForward]
      by_cases h0 : off = 0
      · rw [if_pos h0]; exact ⟨_, rfl, here h0⟩
      · rw [if_neg h0]
        simp only [Nat.sub_zero]
        by_cases hlt : off < fs[i].chars.length
        · rw [if_pos hlt]
          refine ⟨_, rfl, ⟨_, hs, .inl ?_⟩, ?_, fun h => ?_⟩
          · dsimp only; omega
          · dsimp only; omega
          · dsimp only at h; omega
        · rw [if_neg hlt, ← hr]
          have hil : i + 1 < fs.length := by
            have : (fs.drop (i + 1)).length = rest.length + 1 := by rw [hr]; rfl
            rw [List.length_drop] at this; omega
          refine ih (i + 1) p _ (by omega) hil (by omega) hle ?_
          intro k hk
          have := length_take_mono fs (i := k) (j := i) (by omega)
          omega

/-- `begin() + p` -/
theorem On.plus {fs : FragStr C} (h0 : fs ≠ []) (b : Build) {p : Nat} (hp : p ≤ length fs) (hsz : length fs < 2 ^ 63) :
    ∃ it', plus b fs ⟨0, 0⟩ (toDiff p) = .ok it' ∧ On fs it' p := by
  rw [toDiff_small (by omega), Str.plus, seek]
  by_cases hz : 0 < (p : Int)
  · rw [if_pos hz]
    have hpos := List.length_pos_iff.mpr h0
    have := On.seekForward (fs := fs) b _ 0 p p rfl hpos (by simp [length]) hp (by intro k hk; omega)
    simpa using this
  · have : p = 0 := by omega
    subst this
    refine ⟨⟨0, 0⟩, ?_, (On.begin h0).2⟩
    simp [negDiff, seekBackward]

/-! ## Loops -/

theorem badStar_bind {α β : Type} (b : Build) (f : α → Outcome β) : (badStar b >>= f) = badStar b := by
  cases b <;> rfl

theorem On.copyN {fs : FragStr C} (b : Build) :
    ∀ (n : Nat) (it : It) (p : Nat), On fs it p → p + n ≤ length fs →
      ((∀ o, p ≤ o → o < p + n → ¬GapAt fs o) → copyN (fwd b fs) n it = .ok (((text fs).drop p).take n)) ∧
      ((∃ o, p ≤ o ∧ o < p + n ∧ GapAt fs o) → copyN (fwd b fs) n it = badStar b) := by
  intro n
  induction n with
  | zero => intro it p _ _; exact ⟨fun _ => by simp [Str.copyN], fun ⟨o, h1, h2, _⟩ => by omega⟩
  | succ n ih =>
    intro it p h hle
    have hl : p < (text fs).length := by rw [← length_text]; omega
    rw [Str.copyN]
    by_cases hg : GapAt fs p
    · have hb : (fwd b fs).deref it = badStar b := h.deref_gap b hg
      rw [hb, badStar_bind]
      exact ⟨fun hn => absurd hg (hn p (by omega) (by omega)), fun _ => rfl⟩
    · have hd : (fwd b fs).deref it = .ok (text fs)[p] := h.deref b hg hl
      obtain ⟨it', hi, h'⟩ := h.incr b hg (by omega)
      have hi' : (fwd b fs).next it = .ok it' := hi
      obtain ⟨ih1, ih2⟩ := ih it' (p + 1) h' (by omega)
      rw [hd, Outcome.bind_ok, hi', Outcome.bind_ok]
      constructor
      · intro hn
        rw [ih1 (fun o h1 h2 => hn o (by omega) (by omega)), Outcome.bind_ok]
        rw [List.drop_eq_getElem_cons hl, List.take_succ_cons]
        rfl
      · rintro ⟨o, h1, h2, ho⟩
        have : o ≠ p := fun e => hg (e ▸ ho)
        rw [ih2 ⟨o, by omega, by omega, ho⟩, badStar_bind]

/-- Reading up to an iterator `last` that stands at offset `q`, and that a loop finds there if
`found`; otherwise there is a gap at `q`. -/
theorem On.readLoop {fs : FragStr C} (b : Build) (last : It) (q : Nat) (found : Prop)
    (hlast : ∀ x p, On fs x p → (x.eq last = true ↔ p = q ∧ found)) (hgap : ¬found → GapAt fs q) (hq : q ≤ length fs) :
    ∀ (n : Nat) (it : It) (p : Nat), On fs it p → p ≤ q → q - p < n →
      (found → (∀ o, p ≤ o → o < q → ¬GapAt fs o) → readLoop (fwd b fs) n it last = .ok (((text fs).take q).drop p)) ∧
      ((¬found ∨ ∃ o, p ≤ o ∧ o < q ∧ GapAt fs o) → readLoop (fwd b fs) n it last = badStar b) := by
  intro n
  induction n with
  | zero => intro it p _ _ hn; omega
  | succ n ih =>
    intro it p h hle hn
    have heq := hlast it p h
    rw [Str.readLoop]
    by_cases hend : p = q ∧ found
    · have he : (fwd b fs).eq it last = true := heq.2 hend
      rw [if_pos he]
      refine ⟨fun _ _ => ?_, ?_⟩
      · rw [List.drop_eq_nil_of_le (by rw [List.length_take]; omega)]
      · rintro (hf | ⟨o, h1, h2, _⟩)
        · exact absurd hend.2 hf
        · omega
    · have he : ¬(fwd b fs).eq it last = true := fun e => hend (heq.1 e)
      rw [if_neg he]
      by_cases hg : GapAt fs p
      · have hb : (fwd b fs).deref it = badStar b := h.deref_gap b hg
        rw [hb, badStar_bind]
        refine ⟨fun hf hno => ?_, fun _ => rfl⟩
        exfalso
        by_cases hpq : p = q
        · exact hend ⟨hpq, hf⟩
        · exact hno p (by omega) (by omega) hg
      · have hpq : p < q := by
          rcases Nat.lt_or_ge p q with h | h
          · exact h
          · have e : p = q := by omega
            by_cases hf : found
            · exact absurd ⟨e, hf⟩ hend
            · exact absurd (e ▸ hgap hf) hg
        have hl : p < (text fs).length := by rw [← length_text]; omega
        have hd : (fwd b fs).deref it = .ok (text fs)[p] := h.deref b hg hl
        obtain ⟨it', hi, h'⟩ := h.incr b hg (by omega)
        have hi' : (fwd b fs).next it = .ok it' := hi
        obtain ⟨ih1, ih2⟩ := ih it' (p + 1) h' (by omega) (by omega)
        rw [hd, Outcome.bind_ok, hi', Outcome.bind_ok]
        constructor
        · intro hf hno
          rw [ih1 hf (fun o h1 h2 => hno o (by omega) h2), Outcome.bind_ok]
          have hl' : p < ((text fs).take q).length := by rw [List.length_take]; omega
          conv_rhs => rw [List.drop_eq_getElem_cons hl', List.getElem_take]
          rfl
        · intro hbad
          rw [ih2 ?_, badStar_bind]
          rcases hbad with hf | ⟨o, h1, h2, ho⟩
          · exact .inl hf
          · have : o ≠ p := fun e => hg (e ▸ ho)
            exact .inr ⟨o, by omega, h2, ho⟩

/-! ## Moving backward -/

/-- Decrementing works unless an empty fragment stands directly before the position. -/
theorem At.decr_gaps {fs : FragStr C} {it : It} {p : Nat} (h : At fs it p) (hp : 0 < p) (b : Build) :
    (¬GapAt fs p → ∃ it', Str.decr b fs it = .ok it' ∧ At fs it' (p - 1)) ∧ (GapAt fs p → Str.decr b fs it = .ub) := by
  have hf := h.frag_lt
  obtain ⟨s, hs, hc, hq⟩ := h
  have h1 := length_take_succ hs
  have ha : debugAssert b (!(decide (it.frag = 0) && decide (it.cur = 0)))
      "fragment_string::operator--: already at beginning" = .ok () := by
    have : (decide (it.frag = 0) && decide (it.cur = 0)) = false := by
      rw [Bool.and_eq_false_iff]
      simp only [decide_eq_false_iff_not]
      by_cases h0 : it.frag = 0
      · right; intro h1
        rw [h0, h1] at hq; simp [length] at hq; omega
      · exact Or.inl h0
    cases b <;> simp [debugAssert, this]
  rw [Str.decr, ha, Outcome.bind_ok]
  by_cases h0 : it.cur = 0
  · have hne : it.frag ≠ 0 := by
      intro h1; rw [h0, h1] at hq; simp [length] at hq; omega
    have ht : fs[it.frag - 1]? = some (fs[it.frag - 1]) := List.getElem?_eq_getElem (by omega)
    have h2 := length_take_succ ht
    rw [show it.frag - 1 + 1 = it.frag by omega] at h2
    rw [if_pos h0, if_neg hne, fragAt_of ht, Outcome.bind_ok]
    by_cases hz : fs[it.frag - 1].chars.length = 0
    · rw [if_pos hz]
      refine ⟨fun hg => absurd ?_ hg, fun _ => rfl⟩
      exact (gapAt_iff fs p).2 ⟨it.frag - 1, _, by omega, ht, List.length_eq_zero_iff.1 hz, by omega⟩
    · rw [if_neg hz]
      refine ⟨fun _ => ⟨_, rfl, _, ht, Or.inl (by show _ - 1 < _; omega), by dsimp only; omega⟩, fun hg => ?_⟩
      obtain ⟨k, t, hk, hkt, hte, hl⟩ := (gapAt_iff fs p).1 hg
      exfalso
      have h3 := length_take_succ hkt
      rw [hte, List.length_nil] at h3
      rcases Nat.lt_trichotomy k (it.frag - 1) with h | h | h
      · have := length_take_mono fs (i := k) (j := it.frag - 1) (by omega); omega
      · subst h; rw [ht] at hkt; cases hkt; rw [hte] at hz; exact hz rfl
      · rcases Nat.lt_or_ge it.frag k with h' | h'
        · have := length_take_mono fs (i := it.frag + 1) (j := k) (by omega)
          rcases hc with hc | hc <;> omega
        · have e : k = it.frag := by omega
          subst e; rw [hs] at hkt; cases hkt; rw [hte] at hc
          rcases hc with hc | hc
          · simp at hc
          · omega
  · rw [if_neg h0]
    refine ⟨fun _ => ⟨_, rfl, s, hs, Or.inl (by show it.cur - 1 < _; rcases hc with hc | ⟨_, hc⟩ <;> omega),
      by dsimp only; omega⟩, fun hg => ?_⟩
    obtain ⟨k, t, hk, hkt, hte, hl⟩ := (gapAt_iff fs p).1 hg
    exfalso
    rcases Nat.lt_or_ge it.frag k with h' | h'
    · have := length_take_mono fs (i := it.frag + 1) (j := k) (by omega)
      rcases hc with hc | hc <;> omega
    · have := length_take_mono fs (i := k) (j := it.frag) (by omega)
      omega

/-- Reading a reverse iterator. -/
theorem At.rev_gaps {fs : FragStr C} {it : It} {p : Nat} (h : At fs it p) (hp : 0 < p) (b : Build) :
    (¬GapAt fs p → (∀ hl : p - 1 < (text fs).length, (rev b fs).deref it = .ok (text fs)[p - 1]) ∧
      ∃ it', (rev b fs).next it = .ok it' ∧ At fs it' (p - 1)) ∧
    (GapAt fs p → (rev b fs).deref it = .ub) := by
  obtain ⟨h1, h2⟩ := h.decr_gaps hp b
  constructor
  · intro hg
    obtain ⟨it', e, h'⟩ := h1 hg
    refine ⟨fun hl => ?_, it', e, h'⟩
    show (Str.decr b fs it >>= fun t => Str.deref b fs t) = _
    rw [e, Outcome.bind_ok]
    exact h'.deref b hl
  · intro hg
    show (Str.decr b fs it >>= fun t => Str.deref b fs t) = _
    rw [h2 hg]
    rfl

/-! ## Comparing two ranges, of which the second has bad places -/

theorem equalLoop_bad [DecidableEq C] {σ τ : Type} {I : Iter σ C} {J : Iter τ C} {relI : σ → Nat → Prop} {relJ : τ → Nat → Prop}
    {u t : List C} (hI : Tracks I relI u) (bad : Nat → Prop) (stuck : Outcome Bool)
    (hderef : ∀ j q, relJ j q → ¬bad q → ∀ h : q < t.length, J.deref j = .ok t[q])
    (hbad : ∀ j q (f : C → Outcome Bool), relJ j q → bad q → q < t.length → (J.deref j >>= f) = stuck)
    (hnext : ∀ j q, relJ j q → ¬bad q → q < t.length → ∃ j', J.next j = .ok j' ∧ relJ j' (q + 1))
    (hut : u.length ≤ t.length) {last : σ} (hlast : relI last u.length) :
    ∀ (n : Nat) (i : σ) (j : τ) (p : Nat), relI i p → relJ j p → u.length - p < n → u.take p = t.take p →
      ((∀ o, p ≤ o → o < u.length → ¬bad o) → equalLoop I J n i last j = .ok (decide (u <+: t))) ∧
      (∀ g, p ≤ g → g < u.length → bad g → (∀ o, p ≤ o → o < g → ¬bad o) →
        (u.take g = t.take g → equalLoop I J n i last j = stuck) ∧
        (u.take g ≠ t.take g → equalLoop I J n i last j = .ok false)) := by
  intro n
  induction n with
  | zero => intro i j p _ _ hn; omega
  | succ n ih =>
    intro i j p hi hj hn heq
    have hpu := hI.le hi
    rw [equalLoop]
    by_cases hend : p = u.length
    · rw [if_pos ((hI.eq hi hlast).2 hend)]
      refine ⟨fun _ => ?_, fun g h1 h2 => by omega⟩
      have : u <+: t := by
        rw [hend, List.take_length] at heq
        rw [heq]; exact List.take_prefix _ _
      rw [decide_eq_true this]
    · rw [if_neg (fun e => hend ((hI.eq hi hlast).1 e))]
      have hpu' : p < u.length := by omega
      have hpt : p < t.length := by omega
      rw [hI.deref hi hpu', Outcome.bind_ok]
      by_cases hb : bad p
      · rw [hbad j p _ hj hb hpt]
        refine ⟨fun h => absurd hb (h p (by omega) hpu'), fun g h1 h2 h3 h4 => ?_⟩
        have e : g = p := by
          by_contra hne
          exact h4 p (by omega) (by omega) hb
        subst e
        exact ⟨fun _ => rfl, fun hne => absurd heq hne⟩
      · rw [hderef j p hj hb hpt, Outcome.bind_ok]
        by_cases hxy : u[p] = t[p]
        · rw [if_pos hxy]
          obtain ⟨i', ei, hi'⟩ := hI.next hi hpu'
          obtain ⟨j', ej, hj'⟩ := hnext j p hj hb hpt
          rw [ei, Outcome.bind_ok, ej, Outcome.bind_ok]
          obtain ⟨ih1, ih2⟩ := ih i' j' (p + 1) hi' hj' (by omega) (by
            rw [List.take_succ_eq_append_getElem hpu', List.take_succ_eq_append_getElem hpt, heq, hxy])
          refine ⟨fun h => ih1 (fun o h1 h2 => h o (by omega) h2), fun g h1 h2 h3 h4 => ?_⟩
          have : g ≠ p := fun e => hb (e ▸ h3)
          exact ih2 g (by omega) h2 h3 (fun o h5 h6 => h4 o (by omega) h6)
        · rw [if_neg hxy]
          have hnp : ¬u <+: t := fun hpre => hxy (hpre.getElem hpu')
          refine ⟨fun _ => by rw [decide_eq_false hnp]; rfl, fun g h1 h2 h3 h4 => ⟨fun he => absurd ?_ hxy, fun _ => rfl⟩⟩
          have hne : g ≠ p := fun e => hb (e ▸ h3)
          have h5 : (u.take g)[p]'(by rw [List.length_take]; omega) = (t.take g)[p]'(by rw [List.length_take]; omega) := by
            simp only [he]
          simpa using h5

end Wite.Str
