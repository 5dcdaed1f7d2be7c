import Mathlib.Data.Int.Order.Basic
import Verif.Lemmas.FragmentLoops

/-!
# C89-C93: searching in fragment strings and slicing them

Prefixes, suffixes, substrings, positions and slices of the concatenation of the fragments.
The hypothesis `length fs < 2 ^ 63` says that the string fits in the address space.
-/

namespace Wite.Props

open Wite Wite.Str

variable {C : Type}

private theorem flat_text (fs : FragStr C) : fs.flatMap Frag.chars = text fs := by
  induction fs with
  | nil => rfl
  | cons f fs ih => rw [List.flatMap_cons, ih]; rfl

section
variable [DecidableEq C]

private theorem match_eq {σ τ : Type} {I : Iter σ C} {J : Iter τ C} {rel : σ → Nat → Prop} {rel' : τ → Nat → Prop}
    {t u : List C} (h : Tracks I rel t) (h' : Tracks J rel' u) {i : σ} {j m : τ} (hi : rel i 0) (hj : rel' j 0)
    (hm : rel' m u.length) (hsz : t.length < 2 ^ 63) :
    matchSubstring I J i t.length j m u.length = .ok (decide (t ≠ [] ∧ u <+: t)) := by
  rw [matchSubstring]
  by_cases h0 : t.length = 0
  · rw [if_pos h0]
    have : t = [] := List.length_eq_zero_iff.mp h0
    simp [this]
  · rw [if_neg h0]
    have hne : t ≠ [] := fun e => h0 (by rw [e]; rfl)
    by_cases hlt : t.length < u.length
    · rw [if_pos hlt]
      congr 1
      symm
      rw [decide_eq_false_iff_not]
      rintro ⟨_, hp⟩
      have := hp.length_le
      omega
    · rw [if_neg hlt, toDiff_small (by omega)]
      obtain ⟨e, ee, he⟩ := h.plus hi u.length (by omega) (by omega) (by omega) (by omega)
      rw [show (((0 : Nat) : Int) + (u.length : Int)).toNat = u.length by omega] at he
      rw [ee, Outcome.bind_ok, h'.stdEqual h hj hm hi he (Nat.zero_le _) (Nat.zero_le _), List.take_length, List.drop_zero, List.drop_zero]
      congr 1
      rw [decide_eq_decide, List.prefix_iff_eq_take]
      exact ⟨fun e => ⟨hne, e⟩, fun e => e.2⟩

private theorem noexcept_ok {α : Type} (a : α) : noexcept (.ok a) = .ok a := rfl

/-- C89 when only last fragments may be empty and the string has a character: `starts_with`
tests for a prefix of the concatenation, and a string without characters starts with nothing,
not even with the empty string. -/
theorem c89_starts_partial (b : Build) (fs : FragStr C) (h0 : fs ≠ []) (h : ∀ f ∈ fs.dropLast, f.chars ≠ [])
    (hsz : length fs < 2 ^ 63) :
    (∀ s, startsWithView b fs s = .ok (decide (fs.flatMap Frag.chars ≠ [] ∧ s <+: fs.flatMap Frag.chars))) ∧
    (∀ gs : FragStr C, gs ≠ [] → (∀ f ∈ gs.dropLast, f.chars ≠ []) →
      startsWithFs b fs gs = .ok (decide (fs.flatMap Frag.chars ≠ [] ∧ gs.flatMap Frag.chars <+: fs.flatMap Frag.chars))) ∧
    (∀ c, startsWithChar b fs c = .ok (decide ([c] <+: fs.flatMap Frag.chars))) := by
  have hr : Regular fs := ⟨h0, h⟩
  obtain ⟨e1, h1⟩ := begin_at hr
  rw [length_text] at hsz
  refine ⟨fun s => ?_, fun gs hg0 hg => ?_, fun c => ?_⟩
  · rw [startsWithView, e1, Outcome.bind_ok, flat_text, length_text,
      match_eq (fwd_tracks hr b) (view_tracks s) h1 ⟨rfl, Nat.zero_le _⟩ ⟨rfl, Nat.le_refl _⟩ hsz]
    rfl
  · have hgr : Regular gs := ⟨hg0, hg⟩
    obtain ⟨e3, h3⟩ := begin_at hgr
    obtain ⟨m, e4, h4⟩ := end_at hg0
    rw [length_text] at h4
    rw [startsWithFs, e1, Outcome.bind_ok, e3, Outcome.bind_ok, e4, Outcome.bind_ok, flat_text, flat_text, length_text, length_text,
      match_eq (fwd_tracks hr b) (fwd_tracks hgr b) h1 h3 h4 hsz]
    rfl
  · rw [startsWithChar, empty, flat_text]
    by_cases he : text fs = []
    · rw [if_pos (by rw [length_text, he]; rfl), he]
      simp [noexcept]
    · have hl : 0 < length fs := by rw [length_text]; exact List.length_pos_iff.mpr he
      rw [if_neg (by simp; omega)]
      obtain ⟨f, rest, hf⟩ := List.exists_cons_of_ne_nil h0
      have hfc : f.chars ≠ [] := by
        by_cases hrest : rest = []
        · subst hrest; subst hf; simpa [text] using he
        · apply h
          rw [hf, List.dropLast_cons_of_ne_nil hrest]
          exact List.mem_cons_self
      obtain ⟨x, xs, hx⟩ := List.exists_cons_of_ne_nil hfc
      have hfront : front b fs = .ok x := by
        rw [front]
        have ha : debugAssert b (decide (0 < length fs)) "accessing fragment_string beyond end of string" = .ok () := by
          cases b <;> simp [debugAssert, hl]
        rw [ha, Outcome.bind_ok, hf]
        simp [hx]
      rw [hfront, Outcome.bind_ok, hf, text, hx, List.cons_append]
      show Outcome.ok _ = _
      congr 1
      rw [decide_eq_decide, List.prefix_iff_eq_take]
      simp [eq_comm]

/-- C89 for suffixes.  For a character the last fragment must not be empty, unless the whole string is. -/
theorem c89_ends_partial (b : Build) (fs : FragStr C) (h0 : fs ≠ []) (h : ∀ f ∈ fs.dropLast, f.chars ≠ [])
    (hsz : length fs < 2 ^ 63) :
    (∀ s, endsWithView b fs s = .ok (decide (fs.flatMap Frag.chars ≠ [] ∧ s <:+ fs.flatMap Frag.chars))) ∧
    (∀ gs : FragStr C, gs ≠ [] → (∀ f ∈ gs.dropLast, f.chars ≠ []) →
      endsWithFs b fs gs = .ok (decide (fs.flatMap Frag.chars ≠ [] ∧ gs.flatMap Frag.chars <:+ fs.flatMap Frag.chars))) ∧
    (∀ c, (fs.getLast h0).chars ≠ [] ∨ fs.flatMap Frag.chars = [] →
      endsWithChar b fs c = .ok (decide ([c] <:+ fs.flatMap Frag.chars))) := by
  have hr : Regular fs := ⟨h0, h⟩
  obtain ⟨e1, h1⟩ := begin_at hr
  obtain ⟨l, e2, h2⟩ := end_at h0
  have hlr : length fs = (text fs).reverse.length := by rw [List.length_reverse, length_text]
  have hrev : ∀ s : List C, decide ((text fs).reverse ≠ [] ∧ s.reverse <+: (text fs).reverse) = decide (text fs ≠ [] ∧ s <:+ text fs) := by
    intro s
    rw [decide_eq_decide, List.reverse_prefix, ne_eq, List.reverse_eq_nil_iff]
  refine ⟨fun s => ?_, fun gs hg0 hg => ?_, fun c hc => ?_⟩
  · rw [endsWithView, e2, Outcome.bind_ok, flat_text]
    have := match_eq (rev_tracks hr b) (rview_tracks s) (i := l) (j := s.length) (m := 0) ⟨Nat.zero_le _, h2⟩ (by omega)
      (by rw [List.length_reverse]; omega) (by rw [← hlr]; exact hsz)
    rw [hrev, ← hlr, List.length_reverse] at this
    rw [this]; rfl
  · have hgr : Regular gs := ⟨hg0, hg⟩
    obtain ⟨e3, h3⟩ := begin_at hgr
    obtain ⟨m, e4, h4⟩ := end_at hg0
    rw [endsWithFs, e2, Outcome.bind_ok, e3, Outcome.bind_ok, e4, Outcome.bind_ok, flat_text, flat_text]
    have := match_eq (rev_tracks hr b) (rev_tracks hgr b) (i := l) (j := m) (m := ⟨0, 0⟩) ⟨Nat.zero_le _, h2⟩ ⟨Nat.zero_le _, h4⟩
      ⟨by rw [List.length_reverse, length_text], by rw [List.length_reverse, length_text, Nat.sub_self]; exact h3⟩ (by rw [← hlr]; exact hsz)
    rw [hrev, ← hlr, List.length_reverse, ← length_text gs] at this
    rw [this]; rfl
  · rw [flat_text] at hc
    rw [endsWithChar, empty, flat_text]
    by_cases he : text fs = []
    · rw [if_pos (by rw [length_text, he]; rfl), he]
      simp [noexcept]
    · have hl : 0 < length fs := by rw [length_text]; exact List.length_pos_iff.mpr he
      rw [if_neg (by simp; omega)]
      have hlast := hc.resolve_right he
      have hback : back b fs = .ok ((fs.getLast h0).chars.getLast hlast) := by
        rw [back]
        have ha : debugAssert b (decide (0 < length fs)) "accessing fragment_string beyond end of string" = .ok () := by
          cases b <;> simp [debugAssert, hl]
        rw [ha, Outcome.bind_ok, List.getLast?_eq_some_getLast h0]
        simp [List.getLast?_eq_some_getLast hlast]
      rw [hback, Outcome.bind_ok]
      show Outcome.ok _ = _
      congr 1
      rw [decide_eq_decide]
      have ht : text fs = text fs.dropLast ++ ((fs.getLast h0).chars.dropLast ++ [(fs.getLast h0).chars.getLast hlast]) := by
        rw [List.dropLast_concat_getLast]
        conv_lhs => rw [← List.dropLast_concat_getLast h0, text_append]
        simp [text]
      rw [ht, ← List.append_assoc]
      constructor
      · intro e; exact ⟨_, by rw [e]⟩
      · rintro ⟨x, hx⟩
        have := (List.append_inj' hx rfl).2
        simpa using this.symm

/-- `fragment_string{""}.starts_with("")` and `.ends_with("")` are false although the empty
string is a prefix and a suffix; `("" + "a").starts_with('a')` is undefined. -/
theorem c89_refuted :
    (∀ b, startsWithView b [some ([] : List Int)] [] = .ok false ∧ endsWithView b [some ([] : List Int)] [] = .ok false) ∧
    startsWithChar .release [some [], some [(97 : Int)]] 97 = .ub ∧ startsWithView .release [some [], some [(97 : Int)]] [97] = .ub ∧
    endsWithChar .release [some [(97 : Int)], some []] 97 = .ub := by
  refine ⟨fun b => ?_, by decide, by decide, by decide⟩
  cases b <;> decide

example : startsWithView .debug [some [97], some [98, (99 : Int)]] [97, 98] = .ok true ∧
    startsWithFs .debug [some [97], some [98, (99 : Int)]] [some [97, 98], some []] = .ok true ∧
    endsWithFs .debug [some [97], some [98, (99 : Int)]] [some [97], some [98, 99]] = .ok true ∧
    endsWithView .release [some [97], some [98, (99 : Int)]] [97, 99] = .ok false ∧
    endsWithChar .release [some [97], some [98, (99 : Int)]] 99 = .ok true := by decide

/-! ## Searching -/

/-- `s` occurs in `t` at offset `i`. -/
def OccursAt (t s : List C) (i : Nat) : Prop := ∃ x y, t = x ++ s ++ y ∧ x.length = i

/-- `i` is the least offset from `pos` on at which `s` occurs in `t`. -/
def FirstFrom (t s : List C) (pos i : Nat) : Prop :=
  pos ≤ i ∧ OccursAt t s i ∧ ∀ k, pos ≤ k → k < i → ¬OccursAt t s k

private theorem findView_core (b : Build) (fs : FragStr C) (h0 : fs ≠ []) (h : ∀ f ∈ fs.dropLast, f.chars ≠ [])
    (hsz : length fs < 2 ^ 63) (s : List C) (pos : Nat) (hp : pos + s.length ≤ length fs) (hpos : pos < length fs ∨ pos = 0) :
    ∃ r, findView b fs s pos = .ok r ∧
      (FirstFrom (text fs) s pos r ∨ (r = npos ∧ ∀ i, pos ≤ i → ¬OccursAt (text fs) s i)) := by
  have hr : Regular fs := ⟨h0, h⟩
  obtain ⟨e1, h1⟩ := begin_at hr
  obtain ⟨l, e2, h2⟩ := end_at h0
  rw [findView, if_neg (by rw [Nat.mod_eq_of_lt (by omega)]; omega), if_neg (by omega), e2, Outcome.bind_ok]
  have hst : ∃ i c, seekFragment fs pos = .ok (i, c) ∧ At fs ⟨i, pos - c⟩ pos := by
    by_cases hz : pos = 0
    · subst hz
      exact ⟨0, 0, rfl, h1⟩
    · obtain ⟨i, hi, e, h3, h4⟩ := seekFragment_ok hz (hpos.resolve_right hz)
      refine ⟨i, _, e, fs[i], List.getElem?_eq_getElem hi, ?_, ?_⟩
      · left
        have := length_take_succ (List.getElem?_eq_getElem hi)
        dsimp only; omega
      · dsimp only; omega
  obtain ⟨i, c, e, hat⟩ := hst
  rw [e, Outcome.bind_ok]
  simp only
  obtain ⟨ce, ece, hce⟩ := hat.plus hr b s.length (by omega) (by omega) (by omega)
  rw [show ((pos : Int) + (s.length : Int)).toNat = pos + s.length by omega] at hce
  rw [toDiff_small (by omega), ece, Outcome.bind_ok]
  obtain ⟨r, er, hr'⟩ := findLoop_eq hr b s h2 (length fs + 1) _ ce pos hat hce (by omega)
  rw [er]
  have hl := length_text fs
  refine ⟨r, rfl, ?_⟩
  have bound : ∀ k, OccursAt (text fs) s k → k + s.length ≤ length fs := by
    rintro k ⟨x, y, hxy, rfl⟩
    rw [hl, hxy]; simp
  rcases hr' with ⟨a1, a2, a3, a4⟩ | ⟨a1, a2⟩
  · left
    refine ⟨a1, (occurs_iff (by omega)).mp a3, fun k hk hk' ho => ?_⟩
    have := bound k ho
    exact a4 k hk hk' ((occurs_iff (by omega)).mpr ho)
  · right
    refine ⟨a1, fun k hk ho => ?_⟩
    have := bound k ho
    exact a2 k hk (by omega) ((occurs_iff (by omega)).mpr ho)

/-- C92 when only the last fragment may be empty, `pos + s.size()` does not wrap around, and
`find` does not look for an empty string at the end: the result is the first occurrence from
`pos` on, or `npos` if there is none. -/
theorem c92_partial (b : Build) (fs : FragStr C) (h0 : fs ≠ []) (h : ∀ f ∈ fs.dropLast, f.chars ≠ [])
    (hsz : length fs < 2 ^ 63) (s : List C) (pos : Nat) (hw : pos + s.length < 2 ^ 64)
    (he : s ≠ [] ∨ pos ≠ length fs ∨ pos = 0) :
    ∃ r, findView b fs s pos = .ok r ∧
      (FirstFrom (fs.flatMap Frag.chars) s pos r ∨ (r = npos ∧ ∀ i, pos ≤ i → ¬OccursAt (fs.flatMap Frag.chars) s i)) := by
  rw [flat_text]
  by_cases hp : pos + s.length ≤ length fs
  · refine findView_core b fs h0 h hsz s pos hp ?_
    by_cases hz : pos = 0
    · exact Or.inr hz
    · left
      rcases he with he | he | he
      · have := List.length_pos_iff.mpr he; omega
      · omega
      · exact absurd he hz
  · refine ⟨npos, ?_, Or.inr ⟨rfl, ?_⟩⟩
    · rw [findView, if_pos (by rw [Nat.mod_eq_of_lt hw]; omega)]; rfl
    · rintro i hi ⟨x, y, hxy, rfl⟩
      have := length_text fs
      rw [hxy] at this
      simp at this
      omega

/-- C92 fails at the end: looking for the empty string at `length()` reads past the array of fragments. -/
theorem c92_refuted_end (b : Build) (fs : FragStr C) (h0 : fs ≠ []) (hsz : length fs < 2 ^ 63) (hl : 0 < length fs) :
    findView b fs [] (length fs) = .ub := by
  obtain ⟨l, e2, h2⟩ := end_at h0
  rw [findView, if_neg (by rw [List.length_nil, Nat.add_zero, Nat.mod_eq_of_lt (by omega)]; omega),
    if_neg (by simp), e2, Outcome.bind_ok, seekFragment, if_neg (by omega), seekFragmentLoop_ub _ _ _ _ _ (by omega)]
  rfl

/-- C92 fails for huge positions: when `pos + s.size()` wraps around to an offset inside the
string, `find` reads past the array of fragments. -/
theorem c92_refuted_wrap (b : Build) (fs : FragStr C) (h0 : fs ≠ []) (hsz : length fs < 2 ^ 63) (s : List C)
    (hs : s.length ≤ length fs) (pos : Nat) (hp : pos < 2 ^ 64) (hw : 2 ^ 64 ≤ pos + s.length) :
    findView b fs s pos = .ub := by
  obtain ⟨l, e2, h2⟩ := end_at h0
  have hm : (pos + s.length) % 2 ^ 64 = pos + s.length - 2 ^ 64 := by omega
  rw [findView, if_neg (by rw [hm]; omega), if_neg (by omega), e2, Outcome.bind_ok, seekFragment, if_neg (by omega),
    seekFragmentLoop_ub _ _ _ _ _ (by omega)]
  rfl

/-- An instance of both failures: `find("", 2)` and `find("a", npos)` on `"ab"`. -/
theorem c92_refuted :
    ¬∀ (b : Build) (fs : FragStr Int) (s : List Int) (pos : Nat), fs ≠ [] → (∀ f ∈ fs.dropLast, f.chars ≠ []) →
      pos < 2 ^ 64 → (findView b fs s pos).defined := by
  intro h
  have := h .release [some [97, 98]] [97] npos (by decide) (by decide) (by decide)
  have e : findView .release [some [97, 98]] [(97 : Int)] npos = .ub :=
    c92_refuted_wrap .release [some [97, 98]] (by decide) (by decide) [97] (by decide) npos (by decide) (by decide)
  rw [e] at this
  exact this

example : findView .debug [some [97, 98], some [99], some [97, (98 : Int)]] [98, 99, 97] 0 = .ok 1 ∧
    findView .debug [some [97, 98], some [99], some [97, (98 : Int)]] [97, 98] 1 = .ok 3 ∧
    findView .debug [some [97, 98], some [99], some [97, (98 : Int)]] [98, 97] 0 = .ok npos ∧
    findView .debug [some [97, 98], some [99]] ([] : List Int) 2 = .ok 2 ∧
    findView .debug [some [97, 98], some [99]] ([] : List Int) 3 = .ub := by decide

/-- C90 for a character: full, whatever the fragments. -/
theorem c90_char (fs : FragStr C) (c : C) : containsChar fs c = true ↔ c ∈ fs.flatMap Frag.chars := by
  rw [containsChar, List.any_eq_true, List.mem_flatMap]
  constructor
  · rintro ⟨f, hf, hx⟩
    refine ⟨f, hf, ?_⟩
    rw [Option.isSome_iff_exists] at hx
    obtain ⟨i, hi⟩ := hx
    by_contra hn
    rw [List.idxOf?_eq_none_iff.mpr hn] at hi
    cases hi
  · rintro ⟨f, hf, hx⟩
    refine ⟨f, hf, ?_⟩
    cases hi : f.chars.idxOf? c with
    | some => rfl
    | none => exact absurd hx (List.idxOf?_eq_none_iff.mp hi)

/-- C90 for a string, when only the last fragment may be empty. -/
theorem c90_view_partial (b : Build) (fs : FragStr C) (h0 : fs ≠ []) (h : ∀ f ∈ fs.dropLast, f.chars ≠ [])
    (hsz : length fs < 2 ^ 63) (s : List C) (hs : s.length < 2 ^ 63) :
    ∃ r, containsView b fs s = .ok r ∧ (r = true ↔ s <:+: fs.flatMap Frag.chars) := by
  obtain ⟨r, e, hr⟩ := c92_partial b fs h0 h hsz s 0 (by omega) (Or.inr (Or.inr rfl))
  refine ⟨decide (npos ≠ r), by rw [containsView, e]; rfl, ?_⟩
  rw [decide_eq_true_eq]
  rcases hr with ⟨h1, ⟨x, y, hxy, hx⟩, _⟩ | ⟨h1, h2⟩
  · have hl := length_text fs
    rw [flat_text] at hxy ⊢
    refine ⟨fun _ => ⟨x, y, hxy.symm⟩, fun _ => ?_⟩
    rw [hxy] at hl
    simp only [List.length_append] at hl
    rw [npos]; omega
  · refine ⟨fun hh => absurd h1.symm hh, ?_⟩
    rintro ⟨x, y, hxy⟩
    exact absurd ⟨x, y, hxy.symm, rfl⟩ (h2 x.length (Nat.zero_le _))

/-- C90 for a fragment string, when only last fragments may be empty: an occurrence is found
unless it is the one at the very end. -/
theorem c90_fragment_partial (b : Build) (fs gs : FragStr C) (h0 : fs ≠ []) (h : ∀ f ∈ fs.dropLast, f.chars ≠ [])
    (hg0 : gs ≠ []) (hg : ∀ f ∈ gs.dropLast, f.chars ≠ []) (hsz : length fs < 2 ^ 63) :
    ∃ r, containsFs b fs gs = .ok r ∧
      (r = true ↔ ∃ x y, fs.flatMap Frag.chars = x ++ gs.flatMap Frag.chars ++ y ∧ y ≠ []) := by
  have hr : Regular fs := ⟨h0, h⟩
  have hgr : Regular gs := ⟨hg0, hg⟩
  have hl := length_text fs
  have hlg := length_text gs
  rw [flat_text, flat_text]
  by_cases hlt : length fs < length gs
  · refine ⟨false, by rw [containsFs, if_pos hlt]; rfl, ?_⟩
    simp only [Bool.false_eq_true, false_iff]
    rintro ⟨x, y, hxy, _⟩
    rw [hxy] at hl
    simp only [List.length_append] at hl
    omega
  · obtain ⟨e1, h1⟩ := begin_at hr
    obtain ⟨e3, h3⟩ := begin_at hgr
    obtain ⟨m, e4, h4⟩ := end_at hg0
    obtain ⟨te, ete, hte⟩ := h1.plus hr b ((length fs - length gs : Nat) : Int) (by omega) (by omega) (by omega)
    rw [show (((0 : Nat) : Int) + ((length fs - length gs : Nat) : Int)).toNat = length fs - length gs by omega] at hte
    obtain ⟨r, er, hrr⟩ := containsLoop_eq hr hgr b hsz h3 h4 (by omega) hte (length fs) ⟨0, 0⟩ 0 h1 (by omega) (by omega)
    refine ⟨r, ?_, hrr.trans ⟨?_, ?_⟩⟩
    · rw [containsFs, if_neg hlt, e3, Outcome.bind_ok, e4, Outcome.bind_ok, e1, Outcome.bind_ok, toDiff_small (by omega), ete,
        Outcome.bind_ok, er]
      rfl
    · rintro ⟨k, _, hk, ho⟩
      rw [hlg] at ho hk
      obtain ⟨x, y, hxy, rfl⟩ := (occurs_iff (by omega)).mp ho
      refine ⟨x, y, hxy, ?_⟩
      rintro rfl
      rw [hxy] at hl
      simp only [List.length_append, List.length_nil] at hl
      omega
    · rintro ⟨x, y, hxy, hy⟩
      have hyl := List.length_pos_iff.mpr hy
      have hll : length fs = x.length + length gs + y.length := by
        rw [hl, hxy, hlg]; simp only [List.length_append]
      refine ⟨x.length, Nat.zero_le _, by omega, ?_⟩
      rw [hlg]
      exact (occurs_iff (by rw [← hl, ← hlg]; omega)).mpr ⟨x, y, hxy, rfl⟩

/-- Nothing is ever found at the end: no fragment string contains itself. -/
theorem c90_refuted_self (b : Build) (fs : FragStr C) (h0 : fs ≠ []) (h : ∀ f ∈ fs.dropLast, f.chars ≠ [])
    (hsz : length fs < 2 ^ 63) : containsFs b fs fs = .ok false := by
  obtain ⟨r, e, hr⟩ := c90_fragment_partial b fs fs h0 h h0 h hsz
  rw [e]
  cases r with
  | false => rfl
  | true =>
    obtain ⟨x, y, hxy, hy⟩ := hr.mp rfl
    have := congrArg List.length hxy
    have hyl := List.length_pos_iff.mpr hy
    simp only [List.length_append] at this
    omega

/-- C90 fails: `("hello " + "world").contains("wor" + "ld")` is false. -/
theorem c90_refuted :
    ¬∀ (b : Build) (fs gs : FragStr Int), fs ≠ [] → (∀ f ∈ fs, f.chars ≠ []) → gs ≠ [] → (∀ f ∈ gs, f.chars ≠ []) →
      gs.flatMap Frag.chars <:+: fs.flatMap Frag.chars → containsFs b fs gs = .ok true := by
  intro h
  have := h .debug [some [104, 101], some [108, 111]] [some [108], some [111]] (by decide) (by decide) (by decide) (by decide)
    ⟨[104, 101], [], by decide⟩
  exact absurd this (by decide)

example : containsView .debug [some [97, 98], some [99, (100 : Int)]] [98, 99] = .ok true ∧
    containsFs .debug [some [97, 98], some [99, (100 : Int)]] [some [98], some [99]] = .ok true ∧
    containsFs .debug [some [97, 98], some [99, (100 : Int)]] [some [99], some [100]] = .ok false ∧
    containsView .debug [some [97, 98], some [99, (100 : Int)]] [99, 100] = .ok true ∧
    containsChar [some [97, 98], none, some [99, (100 : Int)]] 99 = true := by decide

/-- C91 without a position: the first occurrence of the character, whatever the fragments. -/
theorem c91_default (fs : FragStr C) (ch : C) :
    ∃ r, findChar fs ch 0 = .ok r ∧
      (((fs.flatMap Frag.chars)[r]? = some ch ∧ ∀ k, k < r → (fs.flatMap Frag.chars)[k]? ≠ some ch) ∨
        (r = npos ∧ ch ∉ fs.flatMap Frag.chars)) := by
  rw [flat_text, findChar]
  by_cases hp : length fs ≤ 0
  · rw [if_pos hp]
    refine ⟨npos, rfl, Or.inr ⟨rfl, ?_⟩⟩
    have hl := length_text fs
    have : text fs = [] := List.length_eq_zero_iff.mp (by omega)
    rw [this]; simp
  · rw [if_neg hp, seekFragment, if_pos rfl, Outcome.bind_ok]
    refine ⟨_, rfl, ?_⟩
    simp only [List.drop_zero]
    rcases findCharLoop_eq ch fs 0 with ⟨i, e, h1, h2⟩ | ⟨e, h1⟩
    · rw [e, Nat.zero_add]; exact Or.inl ⟨h1, h2⟩
    · rw [e]; exact Or.inr ⟨rfl, h1⟩

/-- C91, what the function really computes: the search starts at the beginning of the fragment
that has the position in it.  So the result is right when the character does not occur in
that fragment before the position. -/
theorem c91_partial (fs : FragStr C) (ch : C) (pos : Nat) (hp : pos < length fs) :
    ∃ i r, i < fs.length ∧ length (fs.take i) ≤ pos ∧ (pos ≠ 0 → pos < length (fs.take (i + 1))) ∧ findChar fs ch pos = .ok r ∧
      ((length (fs.take i) ≤ r ∧ (fs.flatMap Frag.chars)[r]? = some ch ∧
          ∀ k, length (fs.take i) ≤ k → k < r → (fs.flatMap Frag.chars)[k]? ≠ some ch) ∨
        (r = npos ∧ ∀ k, length (fs.take i) ≤ k → (fs.flatMap Frag.chars)[k]? ≠ some ch)) ∧
      ((∀ k, length (fs.take i) ≤ k → k < pos → (fs.flatMap Frag.chars)[k]? ≠ some ch) →
        (pos ≤ r ∧ (fs.flatMap Frag.chars)[r]? = some ch ∧ ∀ k, pos ≤ k → k < r → (fs.flatMap Frag.chars)[k]? ≠ some ch) ∨
        (r = npos ∧ ∀ k, pos ≤ k → (fs.flatMap Frag.chars)[k]? ≠ some ch)) := by
  rw [flat_text]
  have hst : ∃ i, i < fs.length ∧ length (fs.take i) ≤ pos ∧ (pos ≠ 0 → pos < length (fs.take (i + 1))) ∧ seekFragment fs pos = .ok (i, length (fs.take i)) := by
    by_cases hz : pos = 0
    · subst hz
      refine ⟨0, ?_, ?_, fun hh => absurd rfl hh, rfl⟩
      · cases fs with
        | nil => exact absurd hp (by simp [length])
        | cons => simp
      · exact Nat.le_refl _
    · obtain ⟨i, hi, e, h3, h4⟩ := seekFragment_ok hz hp
      exact ⟨i, hi, h3, fun _ => h4, e⟩
  obtain ⟨i, hi, hle, hlt', e⟩ := hst
  have ht : text fs = text (fs.take i) ++ text (fs.drop i) := by rw [← text_append, List.take_append_drop]
  have hl : length (fs.take i) = (text (fs.take i)).length := length_text _
  have hget : ∀ k, (text fs)[length (fs.take i) + k]? = (text (fs.drop i))[k]? := by
    intro k
    rw [ht, hl, List.getElem?_append_right (by omega), Nat.add_sub_cancel_left]
  have hget' : ∀ k, length (fs.take i) ≤ k → (text fs)[k]? = (text (fs.drop i))[k - length (fs.take i)]? := by
    intro k hk
    rw [← hget, Nat.add_sub_cancel' hk]
  refine ⟨i, findCharLoop ch (length (fs.take i)) (fs.drop i), hi, hle, hlt', ?_, ?_⟩
  · rw [findChar, if_neg (by omega), e]; rfl
  · rcases findCharLoop_eq ch (fs.drop i) (length (fs.take i)) with ⟨j, ej, h1, h2⟩ | ⟨ej, h1⟩
    · rw [ej]
      have h3 : ∀ k, length (fs.take i) ≤ k → k < length (fs.take i) + j → (text fs)[k]? ≠ some ch := by
        intro k hk hk'
        rw [hget' k hk]; exact h2 _ (by omega)
      refine ⟨Or.inl ⟨by omega, by rw [hget]; exact h1, h3⟩, fun hno => Or.inl ⟨?_, by rw [hget]; exact h1, fun k hk hk' => h3 k (by omega) hk'⟩⟩
      by_contra hlt
      exact hno (length (fs.take i) + j) (by omega) (by omega) (by rw [hget]; exact h1)
    · rw [ej]
      have h3 : ∀ k, length (fs.take i) ≤ k → (text fs)[k]? ≠ some ch := by
        intro k hk hc
        rw [hget' k hk] at hc
        exact h1 (List.mem_of_getElem? hc)
      exact ⟨Or.inr ⟨rfl, h3⟩, fun _ => Or.inr ⟨rfl, fun k hk => h3 k (by omega)⟩⟩

/-- C91 outside the string. -/
theorem c91_outside (fs : FragStr C) (ch : C) (pos : Nat) (hp : (fs.flatMap Frag.chars).length ≤ pos) :
    findChar fs ch pos = .ok npos := by
  rw [flat_text, ← length_text] at hp
  rw [findChar, if_pos hp]

/-- C91 fails: `fragment_string{"aba"}.find('a', 1)` is 0. -/
theorem c91_refuted :
    ¬∀ (fs : FragStr Int) (ch : Int) (pos r : Nat), findChar fs ch pos = .ok r → r ≠ npos → pos ≤ r := by
  intro h
  exact absurd (h [some [97, 98, 97]] 97 1 0 (by decide) (by decide)) (by decide)

/-- In every string: if the fragment that has the position in it has the character before the position, what is found
is before the position. -/
theorem c91_refuted_all (p q : FragStr C) (f : Frag C) (ch : C) (off k : Nat) (hk : k < off) (hoff : off < f.chars.length)
    (hc : f.chars[k]? = some ch) :
    ∃ r, findChar (p ++ f :: q) ch (length p + off) = .ok r ∧ r < length p + off := by
  have happ : ∀ x y : FragStr C, length (x ++ y) = length x + length y := by
    intro x y
    rw [length_text, length_text, length_text, text_append, List.length_append]
  have hcons : ∀ (g : Frag C) (y : FragStr C), length (g :: y) = g.chars.length + length y := by
    intro g y
    rw [length_text, length_text, text, List.length_append]
  have hlen : length p + off < length (p ++ f :: q) := by
    rw [happ, hcons]; omega
  obtain ⟨i, r, hi, hle, hlt, e, hres, -⟩ := c91_partial (p ++ f :: q) ch (length p + off) hlen
  have hlt := hlt (by omega)
  have hmono : ∀ (x : FragStr C) (a b : Nat), a ≤ b → length (x.take a) ≤ length (x.take b) := by
    intro x a b hab
    have : x.take b = x.take a ++ (x.take b).drop a := by
      conv_lhs => rw [← List.take_append_drop a (x.take b)]
      rw [List.take_take, Nat.min_eq_left hab]
    rw [this, happ]
    omega
  have hst : length ((p ++ f :: q).take i) ≤ length p := by
    by_contra hgt
    by_cases hip : i ≤ p.length
    · have := hmono (p ++ f :: q) i p.length hip
      rw [List.take_left] at this
      omega
    · have := hmono (p ++ f :: q) (p.length + 1) i (by omega)
      rw [List.take_append, List.take_of_length_le (by omega), Nat.add_sub_cancel_left, happ] at this
      rw [show (f :: q).take 1 = [f] from rfl, hcons] at this
      omega
  have hget : ((p ++ f :: q).flatMap Frag.chars)[length p + k]? = some ch := by
    rw [flat_text, text_append, text, length_text, List.getElem?_append_right (by omega), Nat.add_sub_cancel_left,
      List.getElem?_append_left (by omega)]
    exact hc
  refine ⟨r, e, ?_⟩
  rcases hres with ⟨-, -, h⟩ | ⟨-, h⟩
  · by_contra hge
    exact h (length p + k) (by omega) (by omega) hget
  · exact absurd hget (h _ (by omega))

example : ∃ r, findChar [some [97], some [98, 97, (99 : Int)]] 98 3 = .ok r ∧ r < 3 :=
  c91_refuted_all [some [97]] [] (some [98, 97, 99]) 98 2 0 (by decide) (by decide) rfl

example : findChar [some [97, 98], some [99, (97 : Int)]] 97 2 = .ok 3 ∧
    findChar [some [97, 98], some [99, (97 : Int)]] 97 1 = .ok 0 ∧
    findChar [some [97, 98], some [99, (97 : Int)]] 100 0 = .ok npos ∧
    findChar [some [97, 98], some [99, (97 : Int)]] 97 4 = .ok npos := by decide

end

/-! ## Slices -/

/-- C93 for `substr`, when only the last fragment may be empty and `pos + count` does not wrap
around: the characters from `pos` on, at most `count` of them. -/
theorem c93_substr_partial (b : Build) (fs : FragStr C) (h0 : fs ≠ []) (h : ∀ f ∈ fs.dropLast, f.chars ≠ [])
    (hsz : length fs < 2 ^ 63) (pos count : Nat) (hw : pos + count < 2 ^ 64 ∨ count = 2 ^ 64 - 1) :
    substr b fs pos count =
      if pos < (fs.flatMap Frag.chars).length then .ok (((fs.flatMap Frag.chars).drop pos).take count)
      else .throw (.outOfRange "fragment_string: substring start out of range") := by
  have hr : Regular fs := ⟨h0, h⟩
  have hl := length_text fs
  rw [flat_text, ← hl, substr]
  by_cases hp : pos < length fs
  · obtain ⟨e1, h1⟩ := begin_at hr
    obtain ⟨l, e2, h2⟩ := end_at h0
    obtain ⟨st, est, hst⟩ := h1.plus hr b pos (by omega) (by omega) (by omega)
    rw [show (((0 : Nat) : Int) + (pos : Int)).toNat = pos by omega] at hst
    rw [if_neg (by omega), if_pos hp, e1, Outcome.bind_ok]
    by_cases hc : count = npos ∨ length fs ≤ (pos + count) % 2 ^ 64
    · rw [if_pos hc, e2, Outcome.bind_ok, toDiff_small (by omega), est, Outcome.bind_ok,
        (fwd_tracks hr b).readRange hst h2 (by omega), hl, List.take_length, List.take_of_length_le]
      rw [List.length_drop, ← hl]
      rcases hc with hc | hc
      · rw [hc, npos]; omega
      · rcases hw with hw | hw
        · rw [Nat.mod_eq_of_lt hw] at hc; omega
        · omega
    · have hw' : pos + count < 2 ^ 64 := hw.resolve_right (fun hh => hc (Or.inl (by rw [hh]; rfl)))
      rw [Nat.mod_eq_of_lt hw'] at hc ⊢
      have hlt : pos + count < length fs := by
        by_contra hh
        exact hc (Or.inr (by omega))
      obtain ⟨en, een, hen⟩ := h1.plus hr b ((pos + count : Nat) : Int) (by omega) (by omega) (by omega)
      rw [show (((0 : Nat) : Int) + ((pos + count : Nat) : Int)).toNat = pos + count by omega] at hen
      rw [if_neg hc, toDiff_small (by omega), een, Outcome.bind_ok, toDiff_small (by omega), est, Outcome.bind_ok,
        (fwd_tracks hr b).readRange hst hen (by omega), List.drop_take, Nat.add_sub_cancel_left]
  · rw [if_pos (by omega), if_neg hp]

/-- C93 for `copy`, when only the last fragment may be empty: for every count. -/
theorem c93_copy_partial (b : Build) (fs : FragStr C) (h0 : fs ≠ []) (h : ∀ f ∈ fs.dropLast, f.chars ≠ [])
    (hsz : length fs < 2 ^ 63) (pos count : Nat) :
    copy b fs count pos =
      if pos < (fs.flatMap Frag.chars).length then
        .ok ((((fs.flatMap Frag.chars).drop pos).take count).length, ((fs.flatMap Frag.chars).drop pos).take count)
      else .throw (.outOfRange "fragment_string: copy start out of range") := by
  have hr : Regular fs := ⟨h0, h⟩
  have hl := length_text fs
  rw [flat_text, ← hl, copy]
  by_cases hp : pos < length fs
  · obtain ⟨e1, h1⟩ := begin_at hr
    obtain ⟨st, est, hst⟩ := h1.plus hr b pos (by omega) (by omega) (by omega)
    rw [show (((0 : Nat) : Int) + (pos : Int)).toNat = pos by omega] at hst
    rw [if_neg (by omega), if_pos hp, e1]
    simp only [Outcome.bind_ok, toDiff_small (show pos < 2 ^ 63 by omega), est]
    rw [(fwd_tracks hr b).copyN _ st pos hst (by rw [← hl]; omega), Outcome.bind_ok]
    show Outcome.ok _ = _
    congr 2
    · rw [List.length_take, List.length_drop, ← hl]
    · rw [hl, ← List.length_drop]
      rcases Nat.le_total count ((text fs).drop pos).length with hle | hle
      · rw [Nat.min_eq_left hle]
      · rw [Nat.min_eq_right hle, List.take_length, List.take_of_length_le hle]
  · rw [if_pos (by omega), if_neg hp]

private theorem cstr_zero [DecidableEq C] [Zero C] (s rest : List C) (hz : (0 : C) ∉ s) : cstr (s ++ 0 :: rest) = s := by
  rw [cstr, List.takeWhile_append_of_pos]
  · simp
  · intro a ha
    simp only [decide_eq_true_eq]
    rintro rfl
    exact hz ha

/-- C89 for a pointer to characters: the characters before the first zero count, and none behind it. -/
theorem c89_pointer_partial [DecidableEq C] [Zero C] (b : Build) (fs : FragStr C) (h0 : fs ≠ []) (h : ∀ f ∈ fs.dropLast, f.chars ≠ [])
    (hsz : length fs < 2 ^ 63) (s rest : List C) (hz : (0 : C) ∉ s) :
    startsWithPtr b fs (s ++ 0 :: rest) = .ok (decide (fs.flatMap Frag.chars ≠ [] ∧ s <+: fs.flatMap Frag.chars)) ∧
    endsWithPtr b fs (s ++ 0 :: rest) = .ok (decide (fs.flatMap Frag.chars ≠ [] ∧ s <:+ fs.flatMap Frag.chars)) := by
  rw [startsWithPtr, endsWithPtr, cstr_zero s rest hz]
  exact ⟨(c89_starts_partial b fs h0 h hsz).1 s, (c89_ends_partial b fs h0 h hsz).1 s⟩

/-- C90 for a pointer to characters: the characters before the first zero count, and none behind it. -/
theorem c90_pointer_partial [DecidableEq C] [Zero C] (b : Build) (fs : FragStr C) (h0 : fs ≠ []) (h : ∀ f ∈ fs.dropLast, f.chars ≠ [])
    (hsz : length fs < 2 ^ 63) (s rest : List C) (hs : s.length < 2 ^ 63) (hz : (0 : C) ∉ s) :
    ∃ r, containsPtr b fs (s ++ 0 :: rest) = .ok r ∧ (r = true ↔ s <:+: fs.flatMap Frag.chars) := by
  rw [containsPtr, cstr_zero s rest hz]
  exact c90_view_partial b fs h0 h hsz s hs

example : startsWithPtr .debug [some [97, 98], some [(99 : Int)]] [97, 98, 0, 120] = .ok true ∧
    endsWithPtr .debug [some [97, 98], some [(99 : Int)]] [98, 99, 0, 120] = .ok true ∧
    containsPtr .debug [some [97, 98], some [(99 : Int)]] [98, 0, 120] = .ok true ∧
    containsPtr .debug [some [97, 98], some [(99 : Int)]] [120, 0] = .ok false := by decide

/-- C93 fails for counts near `2 ^ 64` other than `npos`: whenever `pos + count` wraps around, `substr` is undefined. -/
theorem c93_refuted (b : Build) (fs : FragStr C) (h0 : fs ≠ []) (h : ∀ f ∈ fs.dropLast, f.chars ≠ [])
    (hsz : length fs < 2 ^ 63) (pos count : Nat) (hp : pos < length fs) (hc : count < 2 ^ 64 - 1) (hw : 2 ^ 64 ≤ pos + count) :
    substr b fs pos count = .ub := by
  have hr : Regular fs := ⟨h0, h⟩
  obtain ⟨e1, h1⟩ := begin_at hr
  obtain ⟨st, est, hst⟩ := h1.plus hr b pos (by omega) (by omega) (by omega)
  rw [show (((0 : Nat) : Int) + (pos : Int)).toNat = pos by omega] at hst
  have hm : (pos + count) % 2 ^ 64 = pos + count - 2 ^ 64 := by omega
  obtain ⟨en, een, hen⟩ := h1.plus hr b ((pos + count - 2 ^ 64 : Nat) : Int) (by omega) (by omega) (by omega)
  rw [show (((0 : Nat) : Int) + ((pos + count - 2 ^ 64 : Nat) : Int)).toNat = pos + count - 2 ^ 64 by omega] at hen
  rw [substr, if_neg (by omega), e1, Outcome.bind_ok, hm, if_neg (by rw [npos]; omega), toDiff_small (by omega), een, Outcome.bind_ok,
    toDiff_small (by omega), est, Outcome.bind_ok, readRange, (fwd_tracks hr b).diff hen hst, if_pos (by omega)]

example : substr .debug [some [97, 98], some [99, (100 : Int)]] 1 2 = .ok [98, 99] ∧
    substr .debug [some [97, 98], some [99, (100 : Int)]] 1 npos = .ok [98, 99, 100] ∧
    copy .debug [some [97, 98], some [99, (100 : Int)]] 9 2 = .ok (2, [99, 100]) ∧
    substr .release [some [97, 98], some [99, (100 : Int)]] 1 (2 ^ 64 - 2) = .ok [98, 99, 100] ∧
    substr .release [some [97, 98], some [99, (100 : Int)]] 2 (2 ^ 64 - 2) = .ub ∧
    substr .release [some [97, 98]] 2 0 = .throw (.outOfRange "fragment_string: substring start out of range") ∧
    substr .release [some [97], some [], some [(98 : Int)]] 0 npos = .ub := by decide

end Wite.Props
