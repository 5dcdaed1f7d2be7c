import Verif.Props.FragmentEmpty
import Verif.Lemmas.FragmentTwo

/-!
# C178 for two fragment strings, both with empty fragments
-/

namespace Wite.Props

open Wite Wite.Str

variable {C : Type}

private theorem flat_text (fs : FragStr C) : fs.flatMap Frag.chars = text fs := by
  induction fs with
  | nil => rfl
  | cons f fs ih => rw [List.flatMap_cons, ih]; rfl

/-! ## Prefixes and suffixes -/

section
variable [DecidableEq C]

/-- C178, `starts_with` for a fragment string that is no longer than the text: the right answer if the argument has no empty fragment
except possibly its last, and none stands in this string before or inside the part to be compared.  Otherwise, with the first of
either at `g`, the answer is `false` if there is a difference before it, and the program is ended or undefined if there is none. -/
theorem c178_starts_with_fs_partial (b : Build) (fs gs : FragStr C) (hsz : length fs < 2 ^ 63) (hpos : 0 < length fs)
    (hg0 : gs ≠ []) (hle : length gs ≤ length fs) :
    ((∀ o, ¬GapAt gs o) → (∀ o, o < length gs → ¬GapAt fs o) →
      startsWithFs b fs gs = .ok (decide (gs.flatMap Frag.chars <+: fs.flatMap Frag.chars))) ∧
    (∀ g, (GapAt gs g ∨ (g < length gs ∧ GapAt fs g)) → (∀ o, o < g → ¬GapAt gs o ∧ ¬GapAt fs o) →
      ((gs.flatMap Frag.chars).take g = (fs.flatMap Frag.chars).take g →
        startsWithFs b fs gs = (match b with | .release => .ub | _ => .terminate)) ∧
      ((gs.flatMap Frag.chars).take g ≠ (fs.flatMap Frag.chars).take g → startsWithFs b fs gs = .ok false)) := by
  have h0 : fs ≠ [] := by rintro rfl; simp [length] at hpos
  have hlg := length_text gs
  have hlf := length_text fs
  obtain ⟨y, ey, hy⟩ := On.plus h0 b (p := length gs) hle hsz
  obtain ⟨l, el, hl⟩ := end_at hg0
  have e : startsWithFs b fs gs = noexcept (equalLoop (fwd b gs) (fwd b fs) (length gs + 1) ⟨0, 0⟩ l ⟨0, 0⟩) := by
    rw [startsWithFs, (On.begin h0).1, Outcome.bind_ok, (On.begin hg0).1, Outcome.bind_ok, el, Outcome.bind_ok, matchSubstring,
      if_neg (by omega), if_neg (by omega)]
    have : (fwd b fs).plus ⟨0, 0⟩ (toDiff (length gs)) = .ok y := ey
    rw [this, Outcome.bind_ok, stdEqual]
    have d1 : (fwd b gs).diff l ⟨0, 0⟩ = (length gs : Int) := by
      have h2 : (fwd b gs).diff l ⟨0, 0⟩ = diff gs l ⟨0, 0⟩ := rfl
      obtain ⟨s, hs, hc, hq⟩ := hl
      rw [h2, diff_of hq (On.begin hg0).2.2.1]; omega
    have d2 : (fwd b fs).diff y ⟨0, 0⟩ = (length gs : Int) := by
      have h2 : (fwd b fs).diff y ⟨0, 0⟩ = diff fs y ⟨0, 0⟩ := rfl
      rw [h2, diff_of hy.2.1 (On.begin h0).2.2.1]; omega
    rw [d1, d2, if_pos rfl, Int.toNat_natCast]
  obtain ⟨k1, k2⟩ := equalLoop_two (I := fwd b gs) (J := fwd b fs) (relI := On gs) (relJ := On fs) (u := text gs) (t := text fs)
    (GapAt gs) (GapAt fs) (badStar b) (last := l)
    (fun i p h _ => by
      have := h.eq_end el
      constructor
      · intro h'
        obtain ⟨h1, h2⟩ := this.1 h'
        exact ⟨by omega, by rw [h1]; exact h2⟩
      · rintro ⟨h1, h2⟩
        exact this.2 ⟨by omega, by rw [← show p = length gs by omega]; exact h2⟩)
    (fun i p h hb hl => h.deref b hb hl)
    (fun i p f h hb _ => by
      have : (fwd b gs).deref i = badStar b := h.deref_gap b hb
      rw [this, badStar_bind])
    (fun i p h hb hl => h.incr b hb (by omega))
    (fun j q h hb hl => h.deref b hb hl)
    (fun j q f h hb _ => by
      have : (fwd b fs).deref j = badStar b := h.deref_gap b hb
      rw [this, badStar_bind])
    (fun j q h hb hl => h.incr b hb (by omega))
    (by omega) (length gs + 1) ⟨0, 0⟩ ⟨0, 0⟩ 0 (On.begin hg0).2 (On.begin h0).2 (by omega) (by omega) rfl
  rw [e, flat_text, flat_text]
  constructor
  · intro h1 h2
    rw [k1 ?_]
    · rfl
    · rintro o - - (h | ⟨h, h'⟩)
      · exact h1 o h
      · exact h2 o (by omega) h'
  · intro g hg hmin
    have hgl : g ≤ (text gs).length := by
      rcases hg with hg | hg
      · rw [← hlg]; exact hg.le
      · omega
    obtain ⟨j1, j2⟩ := k2 g (by omega) hgl (by rw [← hlg]; exact hg) (by
      rintro o - ho (h | h)
      · exact (hmin o ho).1 h
      · exact (hmin o ho).2 h.2)
    refine ⟨fun h => ?_, fun h => by rw [j2 h]; rfl⟩
    rw [j1 h]
    cases b <;> rfl

/-- C178, `ends_with` for a fragment string that is no longer than the text: the same, from the end.  `d` counts the characters
behind the empty fragment; where the program is not right it is undefined in every build. -/
theorem c178_ends_with_fs_partial (b : Build) (fs gs : FragStr C) (hsz : length fs < 2 ^ 63) (hpos : 0 < length fs)
    (hg0 : gs ≠ []) (hle : length gs ≤ length fs) :
    ((∀ o, ¬GapAt gs o) → (∀ o, length fs - length gs < o → ¬GapAt fs o) →
      endsWithFs b fs gs = .ok (decide (gs.flatMap Frag.chars <:+ fs.flatMap Frag.chars))) ∧
    (∀ d, d ≤ length gs → (GapAt gs (length gs - d) ∨ (d < length gs ∧ GapAt fs (length fs - d))) →
      (∀ o, o < d → ¬GapAt gs (length gs - o) ∧ ¬GapAt fs (length fs - o)) →
      ((gs.flatMap Frag.chars).drop (length gs - d) = (fs.flatMap Frag.chars).drop (length fs - d) → endsWithFs b fs gs = .ub) ∧
      ((gs.flatMap Frag.chars).drop (length gs - d) ≠ (fs.flatMap Frag.chars).drop (length fs - d) →
        endsWithFs b fs gs = .ok false)) := by
  have h0 : fs ≠ [] := by rintro rfl; simp [length] at hpos
  have hlg := length_text gs
  have hlf := length_text fs
  obtain ⟨l, el, hl⟩ := end_at h0
  obtain ⟨m, em, hm⟩ := end_at hg0
  have hbl := Back.end' h0 el
  have hbm := Back.end' hg0 em
  obtain ⟨y, ey, hy⟩ : ∃ y, (rev b fs).plus l (toDiff (length gs)) = .ok y ∧ At fs y (length fs - length gs) := by
    obtain ⟨t, ht, hc, hq⟩ := id hl
    obtain ⟨y, e, h'⟩ := At.seekBackward b l.frag l.cur (length fs) (length gs) t ht (by omega) (Or.inr hc) hq hle
    refine ⟨y, ?_, h'⟩
    show minus b fs l (toDiff (length gs)) = _
    rw [toDiff_small (by omega), minus, negDiff, if_neg (by omega), Outcome.bind_ok, seek, if_neg (by omega), negDiff,
      if_neg (by omega), Outcome.bind_ok, Int.neg_neg, Int.toNat_natCast, e]
  have e : endsWithFs b fs gs = noexcept (equalLoop (rev b gs) (rev b fs) (length gs + 1) m ⟨0, 0⟩ l) := by
    rw [endsWithFs, el, Outcome.bind_ok, (On.begin hg0).1, Outcome.bind_ok, em, Outcome.bind_ok, matchSubstring, if_neg (by omega),
      if_neg (by omega), ey, Outcome.bind_ok, stdEqual]
    have d1 : (rev b gs).diff ⟨0, 0⟩ m = (length gs : Int) := by
      have h2 : (rev b gs).diff ⟨0, 0⟩ m = diff gs m ⟨0, 0⟩ := rfl
      obtain ⟨s, hs, hc, hq⟩ := hm
      rw [h2, diff_of hq (On.begin hg0).2.2.1]; omega
    have d2 : (rev b fs).diff y l = (length gs : Int) := by
      have h2 : (rev b fs).diff y l = diff fs l y := rfl
      rw [h2, hl.diff hy]; omega
    rw [d1, d2, if_pos rfl, Int.toNat_natCast]
  have hrl : (text fs).reverse.length = length fs := by rw [List.length_reverse, length_text]
  have hrg : (text gs).reverse.length = length gs := by rw [List.length_reverse, length_text]
  have hderef : ∀ (hs : FragStr C) (j : It) (q : Nat), (q ≤ length hs ∧ Back hs j (length hs - q)) → ¬GapAt hs (length hs - q) →
      ∀ h : q < (text hs).reverse.length, (rev b hs).deref j = .ok (text hs).reverse[q] := by
    intro hs j q h hb hl
    have hlh := length_text hs
    rw [List.length_reverse] at hl
    have := ((h.2.rev b).1 hb (by omega)).1 (by omega)
    rw [this, List.getElem_reverse]
    congr 2
    omega
  have hnext : ∀ (hs : FragStr C) (j : It) (q : Nat), (q ≤ length hs ∧ Back hs j (length hs - q)) → ¬GapAt hs (length hs - q) →
      q < (text hs).reverse.length →
      ∃ j', (rev b hs).next j = .ok j' ∧ (q + 1 ≤ length hs ∧ Back hs j' (length hs - (q + 1))) := by
    intro hs j q h hb hl
    have hlh := length_text hs
    rw [List.length_reverse] at hl
    obtain ⟨j', e, h'⟩ := ((h.2.rev b).1 hb (by omega)).2
    exact ⟨j', e, by omega, by rwa [Nat.sub_sub] at h'⟩
  obtain ⟨k1, k2⟩ := equalLoop_two (I := rev b gs) (J := rev b fs)
    (relI := fun it q => q ≤ length gs ∧ Back gs it (length gs - q)) (relJ := fun it q => q ≤ length fs ∧ Back fs it (length fs - q))
    (u := (text gs).reverse) (t := (text fs).reverse)
    (fun q => GapAt gs (length gs - q)) (fun q => GapAt fs (length fs - q)) .ub (last := ⟨0, 0⟩)
    (fun i p h _ => by
      have := h.2.begin_iff
      have h1 := h.1
      rw [hrg]
      constructor
      · intro h'
        obtain ⟨h1, h2⟩ := this.1 h'
        exact ⟨by omega, by rw [h1]; exact h2⟩
      · rintro ⟨h1, h2⟩
        exact this.2 ⟨by omega, by rw [← show length gs - p = 0 by omega]; exact h2⟩)
    (hderef gs)
    (fun j q f h hb _ => by rw [(h.2.rev b).2 hb]; rfl)
    (hnext gs) (hderef fs)
    (fun j q f h hb _ => by rw [(h.2.rev b).2 hb]; rfl)
    (hnext fs)
    (by omega) (length gs + 1) m l 0 ⟨by omega, by simpa using hbm⟩ ⟨by omega, by simpa using hbl⟩ (by omega) (by omega) rfl
  rw [hrg] at k1 k2
  rw [e, flat_text, flat_text]
  constructor
  · intro h1 h2
    rw [k1 ?_]
    · have : (text gs).reverse <+: (text fs).reverse ↔ text gs <:+ text fs := List.reverse_prefix
      simp only [this]
      rfl
    · rintro o - - (h | ⟨h, h'⟩)
      · exact h1 _ h
      · exact h2 _ (by omega) h'
  · intro d hd hg hmin
    obtain ⟨j1, j2⟩ := k2 d (by omega) hd hg (by
      rintro o - ho (h | h)
      · exact (hmin o ho).1 h
      · exact (hmin o ho).2 h.2)
    have hiff : (text gs).reverse.take d = (text fs).reverse.take d ↔
        (text gs).drop (length gs - d) = (text fs).drop (length fs - d) := by
      rw [← List.reverse_inj (xs := (text gs).drop _), List.reverse_drop, List.reverse_drop, ← hlg, ← hlf,
        show length gs - (length gs - d) = d by omega, show length fs - (length fs - d) = d by omega]
    refine ⟨fun h => ?_, fun h => ?_⟩
    · rw [j1 (hiff.2 h)]; rfl
    · rw [j2 (fun h' => h (hiff.1 h'))]; rfl

example : startsWithFs .debug [some [(97 : Int)], some [98]] [some [97], some [], some [98]] = .terminate ∧
    startsWithFs .release [some [(97 : Int)], some [98]] [some [97], some [98], some [], some []] = .ub ∧
    startsWithFs .release [some [(97 : Int)], some [98]] [some [98], some [], some []] = .ok false ∧
    startsWithFs .debug [some [(97 : Int)], some [], some [98]] [some [97], some []] = .ok true ∧
    endsWithFs .debug [some [(97 : Int)], some [98]] [some [], some [98]] = .ub ∧
    endsWithFs .debug [some [(97 : Int)], some [], some [98]] [some [98]] = .ok true ∧
    endsWithFs .debug [some [(97 : Int)], some [98]] [some [], some [97]] = .ok false := by decide

end

/-! ## Comparison -/

section
variable [LinearOrder C]

/-- C178, `compare` of two fragment strings.  Let their texts agree up to offset `m`, with no empty fragment of either before it.
If one of the texts ends at `m`, and recognisably so, since no empty fragment stands there, the result is the right one, unless the
other ends there as well, but behind empty fragments: then that one is the greater.  Otherwise an empty fragment at `m` is
dereferenced; and if there is none, and the characters at `m` differ, the result has the right sign. -/
theorem c178_compare_fs_partial (b : Build) (fs gs : FragStr C) (h0 : fs ≠ []) (hg0 : gs ≠ []) (m : Nat)
    (hmf : m ≤ length fs) (hmg : m ≤ length gs)
    (heq : (fs.flatMap Frag.chars).take m = (gs.flatMap Frag.chars).take m)
    (hmin : ∀ o, o < m → ¬GapAt fs o ∧ ¬GapAt gs o) :
    (m = length fs → ¬GapAt fs m → m = length gs → ¬GapAt gs m → compareFs b fs gs = .ok 0) ∧
    (m = length fs → ¬GapAt fs m → ¬(m = length gs ∧ ¬GapAt gs m) → compareFs b fs gs = .ok (-1)) ∧
    (¬(m = length fs ∧ ¬GapAt fs m) → m = length gs → ¬GapAt gs m → compareFs b fs gs = .ok 1) ∧
    (¬(m = length fs ∧ ¬GapAt fs m) → ¬(m = length gs ∧ ¬GapAt gs m) → (GapAt fs m ∨ GapAt gs m) →
      compareFs b fs gs = badStar b) ∧
    (¬GapAt fs m → ¬GapAt gs m → ∀ (h1 : m < (fs.flatMap Frag.chars).length) (h2 : m < (gs.flatMap Frag.chars).length),
      ((fs.flatMap Frag.chars)[m] < (gs.flatMap Frag.chars)[m] → compareFs b fs gs = .ok (-1)) ∧
      ((gs.flatMap Frag.chars)[m] < (fs.flatMap Frag.chars)[m] → compareFs b fs gs = .ok 1)) := by
  simp only [flat_text] at *
  have hlg := length_text gs
  have hlf := length_text fs
  obtain ⟨l, el, hl⟩ := end_at h0
  obtain ⟨k, ek, hk⟩ := end_at hg0
  have e : compareFs b fs gs = compareLoop b fs (fwd b gs) l k (length fs + 1) ⟨0, 0⟩ ⟨0, 0⟩ := by
    rw [compareFs, (On.begin hg0).1, Outcome.bind_ok, ek, Outcome.bind_ok, compareIter, (On.begin h0).1, Outcome.bind_ok, el,
      Outcome.bind_ok]
  rw [e]
  have key : ∀ (n : Nat) (i j : It) (p : Nat), On fs i p → On gs j p → p ≤ m → length fs - p < n →
      ∃ n' i' j', compareLoop b fs (fwd b gs) l k n i j = compareLoop b fs (fwd b gs) l k (n' + 1) i' j' ∧ On fs i' m ∧ On gs j' m := by
    intro n
    induction n with
    | zero => intro i j p _ _ _ hn; omega
    | succ n ih =>
      intro i j p hi hj hpm hn
      by_cases hpe : p = m
      · subst hpe
        exact ⟨n, i, j, rfl, hi, hj⟩
      · have hpf : p < (text fs).length := by omega
        have hpg : p < (text gs).length := by omega
        obtain ⟨hnf, hng⟩ := hmin p (by omega)
        have hne1 : ¬i.eq l = true := by rw [hi.eq_end el]; omega
        have hne2 : ¬(fwd b gs).eq j k = true := by
          have : (fwd b gs).eq j k = j.eq k := rfl
          rw [this, hj.eq_end ek]; omega
        have hd : (fwd b gs).deref j = .ok (text gs)[p] := hj.deref b hng hpg
        have hch : (text fs)[p] = (text gs)[p] := by
          have h5 : ((text fs).take m)[p]'(by rw [List.length_take]; omega) = ((text gs).take m)[p]'(by rw [List.length_take]; omega) := by
            simp only [heq]
          simpa using h5
        obtain ⟨i', ei, hi'⟩ := hi.incr b hnf (by omega)
        obtain ⟨j', ej, hj'⟩ := hj.incr b hng (by omega)
        have ej' : (fwd b gs).next j = .ok j' := ej
        rw [compareLoop, if_neg hne1, if_neg hne2, hi.deref b hnf hpf, Outcome.bind_ok, hd, Outcome.bind_ok, hch, if_neg (lt_irrefl _),
          if_neg (lt_irrefl _), ei, Outcome.bind_ok, ej', Outcome.bind_ok]
        exact ih i' j' (p + 1) hi' hj' (by omega) (by omega)
  obtain ⟨n, i, j, en, hi, hj⟩ := key (length fs + 1) ⟨0, 0⟩ ⟨0, 0⟩ 0 (On.begin h0).2 (On.begin hg0).2 (by omega) (by omega)
  rw [en]
  have heqi : i.eq l = true ↔ m = length fs ∧ ¬GapAt fs m := by
    rw [hi.eq_end el]
    constructor
    · rintro ⟨h1, h2⟩; exact ⟨h1, by rw [h1]; exact h2⟩
    · rintro ⟨h1, h2⟩; exact ⟨h1, by rw [← h1]; exact h2⟩
  have heqj : (fwd b gs).eq j k = true ↔ m = length gs ∧ ¬GapAt gs m := by
    have : (fwd b gs).eq j k = j.eq k := rfl
    rw [this, hj.eq_end ek]
    constructor
    · rintro ⟨h1, h2⟩; exact ⟨h1, by rw [h1]; exact h2⟩
    · rintro ⟨h1, h2⟩; exact ⟨h1, by rw [← h1]; exact h2⟩
  rw [compareLoop]
  refine ⟨fun h1 h2 h3 h4 => ?_, fun h1 h2 h3 => ?_, fun h1 h2 h3 => ?_, fun h1 h2 h3 => ?_, fun h1 h2 h3 h4 => ?_⟩
  · rw [if_pos (heqi.2 ⟨h1, h2⟩), if_pos (heqj.2 ⟨h3, h4⟩)]
  · rw [if_pos (heqi.2 ⟨h1, h2⟩), if_neg (fun h => h3 (heqj.1 h))]
  · rw [if_neg (fun h => h1 (heqi.1 h)), if_pos (heqj.2 ⟨h2, h3⟩)]
  · rw [if_neg (fun h => h1 (heqi.1 h)), if_neg (fun h => h2 (heqj.1 h))]
    by_cases hgf : GapAt fs m
    · rw [hi.deref_gap b hgf, badStar_bind]
    · have hgg := h3.resolve_left hgf
      have hm : m < (text fs).length := by
        by_contra hc
        exact h1 ⟨by omega, hgf⟩
      have hd : (fwd b gs).deref j = badStar b := hj.deref_gap b hgg
      rw [hi.deref b hgf hm, Outcome.bind_ok, hd, badStar_bind]
  · have hd : (fwd b gs).deref j = .ok (text gs)[m] := hj.deref b h2 h4
    rw [if_neg (fun h => by have := (heqi.1 h).1; omega), if_neg (fun h => by have := (heqj.1 h).1; omega), hi.deref b h1 h3,
      Outcome.bind_ok, hd, Outcome.bind_ok]
    constructor
    · intro h; rw [if_pos h]; rfl
    · intro h; rw [if_neg (not_lt.2 (le_of_lt h)), if_pos h]; rfl

/-- C178 fails for every fragment string that has an empty fragment before its last: it cannot be compared with itself.  All others
are equal to themselves. -/
theorem c178_refuted_self (b : Build) (fs : FragStr C) (h0 : fs ≠ []) :
    ((∃ f ∈ fs.dropLast, f.chars = []) → compareFs b fs fs = badStar b) ∧
    ((∀ f ∈ fs.dropLast, f.chars ≠ []) → compareFs b fs fs = .ok 0) := by
  classical
  constructor
  · rintro ⟨f, hf, hfe⟩
    obtain ⟨x, y, hxy⟩ := List.append_of_mem hf
    have hgap : ∃ g, GapAt fs g := by
      refine ⟨length x, x, f, y ++ [fs.getLast h0], ?_, by simp, hfe, rfl⟩
      conv_lhs => rw [← List.dropLast_concat_getLast h0, hxy]
      simp
    obtain ⟨h2, h3⟩ : GapAt fs (Nat.find hgap) ∧ ∀ o, o < Nat.find hgap → ¬GapAt fs o :=
      ⟨Nat.find_spec hgap, fun o ho => Nat.find_min hgap ho⟩
    generalize Nat.find hgap = g at h2 h3
    exact (c178_compare_fs_partial b fs fs h0 h0 g h2.le h2.le rfl fun o ho => ⟨h3 o ho, h3 o ho⟩).2.2.2.1
      (fun h => h.2 h2) (fun h => h.2 h2) (.inl h2)
  · intro h
    have hng : ∀ o, ¬GapAt fs o := by
      rintro o ⟨x, f, y, rfl, hy, hf, -⟩
      refine h f ?_ hf
      rw [List.dropLast_append_of_ne_nil (by simp), List.dropLast_cons_of_ne_nil hy]
      simp
    exact (c178_compare_fs_partial b fs fs h0 h0 (length fs) (le_refl _) (le_refl _) rfl fun o _ => ⟨hng o, hng o⟩).1
      rfl (hng _) rfl (hng _)

example : compareFs .release [some [(97 : Int)], some [], some [98]] [some [97], some [], some [98]] = .ub ∧
    compareFs .debug [some [(97 : Int)], some [98]] [some [97], some [98], some [], some []] = .ok (-1) ∧
    compareFs .debug [some [(97 : Int)], some [98], some [], some []] [some [97], some [98]] = .ok 1 ∧
    compareFs .debug [some [(97 : Int)], some [98], some [], some []] [some [97], some [98], some [], some []] =
      .throw (.assertion "fragment_string: dereference iterator out-of-range") ∧
    compareFs .release [some [(97 : Int)], some []] [some [97]] = .ok 0 := by decide

end

end Wite.Props
