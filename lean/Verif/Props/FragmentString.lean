import Mathlib.Data.List.TakeWhile
import Mathlib.Data.Int.Order.Basic
import Verif.Lemmas.FragmentLoops

/-!
# C85-C88, C94, C112-C114: fragment strings

The iterators of a fragment string, indexing, comparison, concatenation and output, all
against the concatenation of the fragments.  `Regular` says that only the last fragment may
be empty; without it most of the claims fail, as the `refuted` theorems show.
-/

namespace Wite.Props

open Wite Wite.Str

variable {C : Type}

/-- `for (auto it = s.begin(); it != s.end(); ++it) out.push_back(*it);` -/
def forEach (b : Build) (fs : FragStr C) : Outcome (List C) := do
  let first ← begin' fs
  let last ← end' fs
  readLoop (fwd b fs) (length fs + 1) first last

/-- `for (auto it = s.rbegin(); it != s.rend(); ++it) out.push_back(*it);` -/
def forEachReverse (b : Build) (fs : FragStr C) : Outcome (List C) := do
  let first ← end' fs
  let last ← begin' fs
  readLoop (rev b fs) (length fs + 1) first last

private theorem begin_ne {fs : FragStr C} (h : fs ≠ []) : begin' fs = .ok ⟨0, 0⟩ := by
  cases fs with
  | nil => exact absurd rfl h
  | cons => rfl

/-- C85 when only the last fragment may be empty: iteration in both directions gives exactly
the characters of the fragments. -/
theorem c85_partial (b : Build) (fs : FragStr C) (h0 : fs ≠ []) (h : ∀ f ∈ fs.dropLast, f.chars ≠ []) :
    forEach b fs = .ok (fs.flatMap Frag.chars) ∧ forEachReverse b fs = .ok (fs.flatMap Frag.chars).reverse := by
  have hr : Regular fs := ⟨h0, h⟩
  have ht : fs.flatMap Frag.chars = text fs := by
    clear h0 h hr
    induction fs with
    | nil => rfl
    | cons f fs ih => rw [List.flatMap_cons, ih]; rfl
  obtain ⟨e1, h1⟩ := begin_at hr
  obtain ⟨l, e2, h2⟩ := end_at h0
  rw [ht]
  refine ⟨?_, ?_⟩
  · rw [forEach, e1, Outcome.bind_ok, e2, Outcome.bind_ok, (fwd_tracks hr b).readLoop _ _ _ 0 (length fs) h1 h2 (by omega) (by omega),
      length_text, List.take_length]
    rfl
  · rw [forEachReverse, e2, Outcome.bind_ok, e1, Outcome.bind_ok,
      (rev_tracks hr b).readLoop _ l ⟨0, 0⟩ 0 (length fs) ⟨Nat.zero_le _, h2⟩ ⟨Nat.le_refl _, by rw [Nat.sub_self]; exact h1⟩ (by omega) (by omega),
      length_text, ← List.length_reverse, List.take_length]
    rfl

/-- The condition is necessary: iterating over any string with an empty fragment before the
last one is undefined in release builds.  Debug builds stop at an assertion when iterating
forward, but going backward they have undefined behaviour too. -/
theorem c85_refuted_general (fs : FragStr C) (h0 : fs ≠ []) (h : ∃ f ∈ fs.dropLast, f.chars = []) :
    forEach .release fs = .ub ∧
    forEach .debug fs = .throw (.assertion "fragment_string: dereference iterator out-of-range") ∧
    ∀ b, forEachReverse b fs = .ub := by
  have hr : ¬Regular fs := fun hr => by
    obtain ⟨f, hf, he⟩ := h
    exact hr.2 f hf he
  have hfw : ∀ b, forEach b fs = badDeref b := by
    intro b
    obtain ⟨j, ⟨hl, s, hs, he⟩, hmin⟩ := first_gap h0 hr
    obtain ⟨l, e2, h2⟩ := end_at h0
    have hlast : l.frag + 1 = fs.length := by
      rw [end'] at e2
      split at e2
      · cases e2
      · cases e2; show fs.length - 1 + 1 = _; omega
    rw [forEach, begin_ne h0, Outcome.bind_ok, e2, Outcome.bind_ok]
    refine forward_gap b fs j s hs he hl (fun i t hi ht hte => hmin i hi ⟨by omega, t, ht, hte⟩) l hlast _ 0 0 (Nat.zero_le _) ?_ ?_
    · intro t ht
      by_cases h0j : 0 = j
      · exact Or.inr ⟨h0j, rfl⟩
      · refine Or.inl (List.length_pos_iff.mpr (fun hte => hmin 0 (by omega) ⟨by omega, t, ht, hte⟩))
    · have := length_take_le fs j
      omega
  refine ⟨hfw .release, hfw .debug, fun b => ?_⟩
  obtain ⟨j, ⟨hl, s, hs, he⟩, hmax⟩ := last_gap h0 hr
  obtain ⟨l, e2, h2⟩ := end_at h0
  have hlast : l.frag + 1 = fs.length := by
    rw [end'] at e2
    split at e2
    · cases e2
    · cases e2; show fs.length - 1 + 1 = _; omega
  rw [forEachReverse, begin_ne h0, e2, Outcome.bind_ok, Outcome.bind_ok]
  obtain ⟨t, ht, hc, hp⟩ := h2
  refine reverse_gap b fs j s hs he (fun i t hi hi' ht hte => hmax i hi ⟨hi', t, ht, hte⟩) _ l.frag l.cur (by omega) (by omega) ?_ ?_
  · intro t' ht'; rw [ht] at ht'; cases ht'; omega
  · rw [← hp]; omega

/-- `"" + "a"` cannot be iterated over. -/
theorem c85_refuted :
    ¬∀ (b : Build) (fs : FragStr Int), fs ≠ [] → forEach b fs = .ok (fs.flatMap Frag.chars) := by
  intro h
  have := h .release [some [], some [97]] (by decide)
  exact absurd this (by decide)

example : forEach .debug [some [97, 98], some [99], some ([] : List Int)] = .ok [97, 98, 99] ∧
    forEachReverse .release [some [97, 98], some [99], some ([] : List Int)] = .ok [99, 98, 97] ∧
    forEach .release [some [97], some [], some [(98 : Int)]] = .ub ∧
    forEach .release [some ([] : List Int)] = .ok [] := by decide

/-- C86 when only the last fragment may be empty: the iterators are in order-preserving
correspondence with the offsets `0 … length()`; `begin()` and `end()` are at the two ends,
`++`, `--`, `+ n`, `- n`, subtraction, `==` and `<=>` act on the offsets, and `*` gives the
character there.  No operation of these has undefined behaviour or fails an assertion. -/
theorem c86_partial (b : Build) (fs : FragStr C) (h0 : fs ≠ []) (h : ∀ f ∈ fs.dropLast, f.chars ≠ []) :
    ∃ nth : Nat → It,
      begin' fs = .ok (nth 0) ∧ end' fs = .ok (nth (length fs)) ∧
      (∀ i, i < length fs → incr b fs (nth i) = .ok (nth (i + 1)) ∧ decr b fs (nth (i + 1)) = .ok (nth i)) ∧
      (∀ i, i < length fs → ∃ c, deref b fs (nth i) = .ok c ∧ (fs.flatMap Frag.chars)[i]? = some c) ∧
      (∀ i, i ≤ length fs → ∀ d : Int, -(2 ^ 63) < d → d < 2 ^ 63 → 0 ≤ i + d → i + d ≤ length fs →
        plus b fs (nth i) d = .ok (nth (i + d).toNat)) ∧
      (∀ i, i ≤ length fs → ∀ d : Int, -(2 ^ 63) < d → d < 2 ^ 63 → 0 ≤ i - d → i - d ≤ length fs →
        minus b fs (nth i) d = .ok (nth (i - d).toNat)) ∧
      (∀ i j, i ≤ length fs → j ≤ length fs →
        diff fs (nth i) (nth j) = (i : Int) - j ∧ (nth i).threeWay (nth j) = compare i j ∧ ((nth i).eq (nth j) = true ↔ i = j)) := by
  have hr : Regular fs := ⟨h0, h⟩
  have ht : fs.flatMap Frag.chars = text fs := by
    clear h0 h hr
    induction fs with
    | nil => rfl
    | cons f fs ih => rw [List.flatMap_cons, ih]; rfl
  obtain ⟨e1, h1⟩ := begin_at hr
  obtain ⟨l, e2, h2⟩ := end_at h0
  -- every offset has an iterator
  have hex : ∀ i, ∃ it, i ≤ length fs → At fs it i := by
    intro i
    by_cases hi : i ≤ length fs
    · obtain ⟨it, _, hit⟩ := At.seekForward hr b _ 0 0 0 i rfl h1 (by omega)
      exact ⟨it, fun _ => by rwa [Nat.zero_add] at hit⟩
    · exact ⟨⟨0, 0⟩, fun hh => absurd hh hi⟩
  obtain ⟨nth, hn⟩ := Classical.axiomOfChoice hex
  refine ⟨nth, ?_, ?_, ?_, ?_, ?_, ?_, ?_⟩
  · rw [e1, h1.unique (hn 0 (Nat.zero_le _))]
  · rw [e2, h2.unique (hn _ (Nat.le_refl _))]
  · intro i hi
    obtain ⟨x, ex, hx⟩ := (hn i (by omega)).incr hr b hi
    obtain ⟨y, ey, hy⟩ := (hn (i + 1) (by omega)).decr hr b
    rw [ex, ey, hx.unique (hn (i + 1) (by omega)), hy.unique (hn i (by omega))]
    exact ⟨rfl, rfl⟩
  · intro i hi
    have hi' : i < (text fs).length := by rwa [← length_text]
    exact ⟨_, (hn i (by omega)).deref b hi', by rw [ht, List.getElem?_eq_getElem hi']⟩
  · intro i hi d hd1 hd2 hd3 hd4
    obtain ⟨x, ex, hx⟩ := (hn i hi).plus hr b d hd1 hd3 hd4
    rw [ex, hx.unique (hn _ (by omega))]
  · intro i hi d hd1 hd2 hd3 hd4
    obtain ⟨x, ex, hx⟩ := (hn i hi).minus hr b d hd1 hd2 hd3 hd4
    rw [ex, hx.unique (hn _ (by omega))]
  · intro i j hi hj
    exact ⟨(hn i hi).diff (hn j hj), (hn i hi).threeWay (hn j hj), (hn i hi).eq_iff (hn j hj)⟩

/-- The distance from `begin()` to `end()` is the length, whatever the fragments. -/
theorem c86_size (fs : FragStr C) (h0 : fs ≠ []) :
    ∃ x y, begin' fs = .ok x ∧ end' fs = .ok y ∧ diff fs y x = length fs := by
  obtain ⟨l, e2, h2⟩ := end_at h0
  refine ⟨_, l, begin_ne h0, e2, ?_⟩
  obtain ⟨s, hs, hc, hp⟩ := h2
  rw [diff]
  split
  · have := sublength_eq fs (lo := 0) (hi := l.frag) (by omega)
    simp only [List.take_zero, length] at this
    rw [distance]
    dsimp only
    omega
  · split
    · next h => exact absurd h (by simp)
    · have : l.frag = 0 := by
        rename_i h _
        dsimp only at h
        omega
      rw [this] at hp
      simp only [List.take_zero, length] at hp
      dsimp only
      omega

/-- Moving beyond the end of a string: an assertion in debug builds, an endless loop in
release builds. -/
theorem c86_beyond_end (b : Build) (fs : FragStr C) (h0 : fs ≠ []) (h : ∀ f ∈ fs.dropLast, f.chars ≠ [])
    (i : Nat) (hi : i ≤ length fs) (d : Int) (hd : d < 2 ^ 63) (hb : length fs < i + d) (it : It)
    (hit : plus b fs ⟨0, 0⟩ i = .ok it) (hi' : (i : Int) < 2 ^ 63) :
    plus b fs it d = match b with
      | .debug => .throw (.assertion "fragment_string::_seek_forward: trying to seek beyond end of range")
      | .aborting => .terminate
      | .release => .diverge := by
  have hr : Regular fs := ⟨h0, h⟩
  obtain ⟨x, ex, hx⟩ := (begin_at hr).2.plus hr b i (by omega) (by omega) (by omega)
  rw [hit] at ex
  cases ex
  have hf := hx.frag_lt
  obtain ⟨s, hs, hc, hp⟩ := hx
  rw [plus, seek, if_pos (by omega)]
  have hlen : length fs = length (fs.take it.frag) + length (fs.drop it.frag) := by
    rw [← length_append, List.take_append_drop]
  refine seekForward_beyond b _ _ _ _ ?_ ?_ ?_
  · intro t ht
    have : (fs.drop it.frag).head? = some s := by rw [List.head?_drop, hs]
    rw [this] at ht; cases ht; omega
  · intro hh
    have := congrArg List.length hh
    rw [List.length_drop, List.length_nil] at this
    omega
  · omega

/-- C86, single steps that leave the string: `++` and `*` at the end and `--` at the beginning are reported by the
assertions of a debug build and undefined in a release build, whatever the fragments. -/
theorem c86_steps_outside (b : Build) (fs : FragStr C) (first last : It) (hf : begin' fs = .ok first)
    (hl : end' fs = .ok last) :
    incr b fs last = (match b with
      | .debug => .throw (.assertion "fragment_string::operator++: already at end")
      | .aborting => .terminate
      | .release => .ub) ∧
    deref b fs last = (match b with
      | .debug => .throw (.assertion "fragment_string: dereference iterator out-of-range")
      | .aborting => .terminate
      | .release => .ub) ∧
    decr b fs first = (match b with
      | .debug => .throw (.assertion "fragment_string::operator--: already at beginning")
      | .aborting => .terminate
      | .release => .ub) := by
  cases fs with
  | nil => cases hf
  | cons f fs =>
    cases hf
    obtain ⟨s, hs⟩ : ∃ s, (f :: fs).getLast? = some s := ⟨_, List.getLast?_eq_some_getLast (by simp)⟩
    have hg : (f :: fs)[fs.length]? = some s := by
      rw [← hs, List.getLast?_eq_getElem?]; simp
    rw [end', hs] at hl
    cases hl
    have ha : fragAt (f :: fs) ((f :: fs).length - 1) = .ok s.chars := by
      rw [fragAt, show (f :: fs).length - 1 = fs.length from rfl, hg]
    refine ⟨?_, ?_, ?_⟩
    · rw [incr]; simp only [ha, Outcome.bind_ok]
      cases b <;> simp [debugAssert] <;> rfl
    · rw [deref]; simp only [ha, Outcome.bind_ok]
      cases b <;> simp [debugAssert] <;> rfl
    · rw [decr]
      cases b <;> simp [debugAssert] <;> rfl

example :
    incr .release ([some ['a', 'b'], some ['c']] : FragStr Char) ⟨1, 1⟩ = .ub ∧
    incr .release ([some ['a', 'b'], some ['c']] : FragStr Char) ⟨0, 1⟩ = .ok ⟨1, 0⟩ := by decide

/-- Moving to before the beginning: an assertion in debug builds, undefined in release builds. -/
theorem c86_before_begin (b : Build) (fs : FragStr C) (h0 : fs ≠ []) (h : ∀ f ∈ fs.dropLast, f.chars ≠ [])
    (i : Nat) (hi : i ≤ length fs) (d : Int) (hd : -(2 ^ 63) < d) (hb : i + d < 0) (it : It)
    (hit : plus b fs ⟨0, 0⟩ i = .ok it) (hi' : (i : Int) < 2 ^ 63) :
    plus b fs it d = match b with
      | .debug => .throw (.assertion "fragment_string::_seek_backward: trying to seek to before start of range")
      | .aborting => .terminate
      | .release => .ub := by
  have hr : Regular fs := ⟨h0, h⟩
  obtain ⟨x, ex, hx⟩ := (begin_at hr).2.plus hr b i (by omega) (by omega) (by omega)
  rw [hit] at ex
  cases ex
  have hf := hx.frag_lt
  obtain ⟨s, hs, hc, hp⟩ := hx
  rw [plus, seek, if_neg (by omega), negDiff, if_neg (by omega), Outcome.bind_ok]
  exact seekBackward_beyond b fs _ _ _ hf (by omega)

/-- `("ab" + "" + "c")`: the iterator two after `begin()` and the one before `end()` are both at
distance two from `begin()` but differ; `(begin() + 3) - 1 != begin() + 2`. -/
theorem c86_refuted :
    ¬∀ (fs : FragStr Int) (b : Build) (it x y z : It) (i j : Nat), begin' fs = .ok it → i ≤ j → j ≤ length fs →
      plus b fs it j = .ok x → minus b fs x ((j : Int) - i) = .ok y → plus b fs it i = .ok z → y = z := by
  intro h
  have := h [some [97, 98], some [], some [99]] .release ⟨0, 0⟩ ⟨2, 1⟩ ⟨2, 0⟩ ⟨1, 0⟩ 2 3
    (by decide) (by decide) (by decide) (by decide) (by decide) (by decide)
  exact absurd this (by decide)

example : plus .debug [some [97, 98], some [99, (100 : Int)]] ⟨0, 0⟩ 3 = .ok ⟨1, 1⟩ ∧
    minus .debug [some [97, 98], some [99, (100 : Int)]] ⟨1, 2⟩ 3 = .ok ⟨0, 1⟩ ∧
    plus .release [some [97, 98], some [99, (100 : Int)]] ⟨0, 1⟩ 4 = .diverge ∧
    diff [some [97, 98], some [99, (100 : Int)]] ⟨1, 1⟩ ⟨0, 1⟩ = 2 := by decide

/-! ## Access -/

/-- C87 for `at` and `[]` when only the last fragment may be empty. -/
theorem c87_index_partial (b : Build) (fs : FragStr C) (h0 : fs ≠ []) (h : ∀ f ∈ fs.dropLast, f.chars ≠ [])
    (hsz : length fs < 2 ^ 63) (i : Nat) (hi : i < length fs) :
    ∃ c, (fs.flatMap Frag.chars)[i]? = some c ∧ index b fs i = .ok c ∧ at' b fs i = .ok c := by
  have hr : Regular fs := ⟨h0, h⟩
  have ht : fs.flatMap Frag.chars = text fs := by
    clear h0 h hr hsz hi
    induction fs with
    | nil => rfl
    | cons f fs ih => rw [List.flatMap_cons, ih]; rfl
  obtain ⟨e1, h1⟩ := begin_at hr
  obtain ⟨x, ex, hx⟩ := h1.plus hr b i (by omega) (by omega) (by omega)
  rw [show (((0 : Nat) : Int) + i).toNat = i by omega] at hx
  have hi' : i < (text fs).length := by rwa [← length_text]
  have hidx : index b fs i = .ok (text fs)[i] := by
    rw [index, e1, Outcome.bind_ok, toDiff_small (by omega), ex, Outcome.bind_ok, hx.deref b hi']
    rfl
  refine ⟨(text fs)[i], ?_, hidx, ?_⟩
  · rw [ht, List.getElem?_eq_getElem hi']
  · rw [at', if_neg (by omega), hidx]

/-- `at` throws exactly outside the string, whatever the fragments. -/
theorem c87_at_throws (b : Build) (fs : FragStr C) (i : Nat) :
    at' b fs i = .throw (.outOfRange "Error: accessing fragment_string beyond end of string") ↔
      (fs.flatMap Frag.chars).length ≤ i := by
  have ht : length fs = (fs.flatMap Frag.chars).length := by
    induction fs with
    | nil => rfl
    | cons f fs ih => rw [List.flatMap_cons, List.length_append, ← ih]; rfl
  rw [← ht, at']
  constructor
  · intro e
    split at e
    · assumption
    · exfalso
      rw [index, noexcept.eq_def] at e
      split at e
      · cases e
      · next hne => exact hne _ e
  · intro hi; rw [if_pos hi]

/-- `front()` and `back()` when the first, respectively last, fragment is not empty. -/
theorem c87_ends_partial (b : Build) (fs : FragStr C) :
    (∀ f rest, fs = f :: rest → f.chars ≠ [] → ∃ c, (fs.flatMap Frag.chars).head? = some c ∧ front b fs = .ok c) ∧
    (∀ f rest, fs = rest ++ [f] → f.chars ≠ [] → ∃ c, (fs.flatMap Frag.chars).getLast? = some c ∧ back b fs = .ok c) := by
  refine ⟨?_, ?_⟩
  · rintro f rest rfl hf
    obtain ⟨c, cs, hc⟩ := List.exists_cons_of_ne_nil hf
    refine ⟨c, by simp [List.flatMap_cons, hc], ?_⟩
    have : 0 < length (f :: rest) := by rw [length, hc]; simp; omega
    rw [front]
    have ha : debugAssert b (decide (0 < length (f :: rest))) "accessing fragment_string beyond end of string" = .ok () := by
      cases b <;> simp [debugAssert, this]
    rw [ha, Outcome.bind_ok]
    simp [hc]
  · rintro f rest rfl hf
    refine ⟨f.chars.getLast hf, ?_, ?_⟩
    · rw [List.flatMap_append, List.flatMap_cons, List.flatMap_nil, List.append_nil, List.getLast?_append,
        List.getLast?_eq_some_getLast hf]
      rfl
    · have : 0 < length (rest ++ [f]) := by
        have := List.length_pos_iff.mpr hf
        rw [length_append, length]; omega
      rw [back]
      have ha : debugAssert b (decide (0 < length (rest ++ [f]))) "accessing fragment_string beyond end of string" = .ok () := by
        cases b <;> simp [debugAssert, this]
      rw [ha, Outcome.bind_ok]
      simp [List.getLast?_eq_some_getLast hf]

/-- On a string without characters `front()` and `back()` fail an assertion in debug builds. -/
theorem c87_ends_empty (fs : FragStr C) (h : (fs.flatMap Frag.chars) = []) :
    front .debug fs = .throw (.assertion "accessing fragment_string beyond end of string") ∧
    back .debug fs = .throw (.assertion "accessing fragment_string beyond end of string") := by
  have ht : length fs = (fs.flatMap Frag.chars).length := by
    clear h
    induction fs with
    | nil => rfl
    | cons f fs ih => rw [List.flatMap_cons, List.length_append, ← ih]; rfl
  rw [h, List.length_nil] at ht
  simp [front, back, ht, debugAssert]

/-- Where `_seek_forward` stops, whatever the fragments: at the character asked for, or at an empty fragment that begins there. -/
private theorem seek_stops (b : Build) (k : Nat) (fs : FragStr C) (n : Nat) (hn : n < length fs) :
    ((∀ pre f post, fs = pre ++ f :: post → length pre = n → f.chars ≠ []) →
      ∃ j cur f c, seekForward b k fs 0 n = .ok ⟨k + j, cur⟩ ∧ fs[j]? = some f ∧ f.chars[cur]? = some c ∧
        (fs.flatMap Frag.chars)[n]? = some c) ∧
    (∀ pre f post, fs = pre ++ f :: post → length pre = n → f.chars = [] →
      ∃ j f, seekForward b k fs 0 n = .ok ⟨k + j, 0⟩ ∧ fs[j]? = some f ∧ f.chars = []) := by
  induction fs generalizing k n with
  | nil => simp [length] at hn
  | cons s rest ih =>
    have hzero : n = 0 → ((∀ pre f post, s :: rest = pre ++ f :: post → length pre = n → f.chars ≠ []) → s.chars ≠ []) ∧
        (∀ pre f post, s :: rest = pre ++ f :: post → length pre = n → f.chars = [] → s.chars = []) := by
      rintro rfl
      refine ⟨fun h => h [] s rest rfl rfl, fun pre f post e hp hf => ?_⟩
      cases pre with
      | nil =>
        simp only [List.nil_append, List.cons.injEq] at e
        rw [e.1]; exact hf
      | cons s' pre =>
        simp only [List.cons_append, List.cons.injEq] at e
        rw [length] at hp
        rw [e.1]
        exact List.length_eq_zero_iff.mp (by omega)
    have hinside : 0 < n → n < s.chars.length → ∀ pre f post, s :: rest = pre ++ f :: post → length pre = n → False := by
      intro h1 h2 pre f post e hp
      cases pre with
      | nil => simp [length] at hp; omega
      | cons s' pre =>
        simp only [List.cons_append, List.cons.injEq] at e
        rw [length, ← e.1] at hp
        omega
    have hhere : ∀ m : Nat, m < s.chars.length → ∃ c, s.chars[m]? = some c ∧ ((s :: rest).flatMap Frag.chars)[m]? = some c := by
      intro m hm
      refine ⟨s.chars[m], List.getElem?_eq_getElem hm, ?_⟩
      rw [List.flatMap_cons, List.getElem?_append_left hm, List.getElem?_eq_getElem hm]
    cases rest with
    | nil =>
      simp only [length, Nat.add_zero] at hn
      by_cases h0 : n = 0
      · subst h0
        obtain ⟨c, hc, hc'⟩ := hhere 0 hn
        refine ⟨fun _ => ⟨0, 0, s, c, by simp [seekForward], rfl, hc, hc'⟩, fun pre f post e hp hf => ?_⟩
        exact ⟨0, s, by simp [seekForward], rfl, (hzero rfl).2 pre f post e hp hf⟩
      · obtain ⟨c, hc, hc'⟩ := hhere n hn
        refine ⟨fun _ => ⟨0, n, s, c, by simp [seekForward, h0, hn], rfl, hc, hc'⟩, fun pre f post e hp hf => ?_⟩
        exact (hinside (by omega) hn pre f post e hp).elim
    | cons t rest =>
      by_cases h0 : n = 0
      · subst h0
        refine ⟨fun h => ?_, fun pre f post e hp hf => ?_⟩
        · obtain ⟨c, hc, hc'⟩ := hhere 0 (List.length_pos_iff.mpr ((hzero rfl).1 h))
          exact ⟨0, 0, s, c, by simp [seekForward], rfl, hc, hc'⟩
        · exact ⟨0, s, by simp [seekForward], rfl, (hzero rfl).2 pre f post e hp hf⟩
      · by_cases hlt : n < s.chars.length
        · obtain ⟨c, hc, hc'⟩ := hhere n hlt
          refine ⟨fun _ => ⟨0, n, s, c, by simp [seekForward, h0, hlt], rfl, hc, hc'⟩, fun pre f post e hp hf => ?_⟩
          exact (hinside (by omega) hlt pre f post e hp).elim
        · have e : seekForward b k (s :: t :: rest) 0 n = seekForward b (k + 1) (t :: rest) 0 (n - s.chars.length) := by
            rw [seekForward, if_neg h0]
            simp [hlt]
          have hn' : n - s.chars.length < length (t :: rest) := by
            rw [length] at hn; omega
          obtain ⟨i1, i2⟩ := ih (k + 1) (n - s.chars.length) hn'
          rw [e]
          refine ⟨fun h => ?_, fun pre f post e hp hf => ?_⟩
          · obtain ⟨j, cur, f, c, a1, a2, a3, a4⟩ := i1 fun pre f post e hp => h (s :: pre) f post (by rw [e]; rfl) (by rw [length]; omega)
            refine ⟨j + 1, cur, f, c, by rw [a1]; congr 2; omega, by simpa using a2, a3, ?_⟩
            rw [List.flatMap_cons, List.getElem?_append_right (by omega)]
            exact a4
          · cases pre with
            | nil => simp [length] at hp; omega
            | cons s' pre =>
              simp only [List.cons_append, List.cons.injEq] at e
              rw [length, ← e.1] at hp
              obtain ⟨j, f, a1, a2, a3⟩ := i2 pre f post e.2 (by omega) hf
              exact ⟨j + 1, f, by rw [a1]; congr 2; omega, by simpa using a2, a3⟩

private theorem index_seek (b : Build) (fs : FragStr C) (i : Nat) (hi : i < length fs) (hsz : length fs < 2 ^ 63) :
    index b fs i = noexcept ((seekForward b 0 fs 0 i).bind fun it => deref b fs it) := by
  cases fs with
  | nil => simp [length] at hi
  | cons f fs =>
    have e : plus b (f :: fs) ⟨0, 0⟩ (i : Int) = seekForward b 0 (f :: fs) 0 i := by
      rw [plus, seek]
      by_cases h0 : i = 0
      · subst h0
        cases fs <;> rfl
      · rw [if_pos (by omega)]; simp
    rw [index, begin', Outcome.bind_ok, toDiff_small (by omega), e]
    rfl

/-- C87 for any fragments, at every position where no empty fragment begins. -/
theorem c87_position_partial (b : Build) (fs : FragStr C) (hsz : length fs < 2 ^ 63) (i : Nat) (hi : i < length fs)
    (h : ∀ pre f post, fs = pre ++ f :: post → length pre = i → f.chars ≠ []) :
    ∃ c, (fs.flatMap Frag.chars)[i]? = some c ∧ index b fs i = .ok c ∧ at' b fs i = .ok c := by
  obtain ⟨j, cur, f, c, e, hj, hc, hn⟩ := (seek_stops b 0 fs i hi).1 h
  have hidx : index b fs i = .ok c := by
    obtain ⟨hlt, hge⟩ := List.getElem?_eq_some_iff.mp hc
    rw [index_seek b fs i hi hsz, e, Nat.zero_add]
    cases b <;> simp [Outcome.bind, deref, fragAt, hj, hlt, hge, debugAssert, noexcept]
  exact ⟨c, hn, hidx, by rw [at', if_neg (by omega), hidx]⟩

/-- C87 fails at every position where an empty fragment begins, wherever it is and however many characters follow: in release builds
`[]` and `at` are undefined, in builds with assertions they end the program. -/
theorem c87_refuted_position (fs : FragStr C) (hsz : length fs < 2 ^ 63) (i : Nat) (hi : i < length fs)
    (pre : FragStr C) (f : Frag C) (post : FragStr C) (e : fs = pre ++ f :: post) (hp : length pre = i) (hf : f.chars = []) :
    index .release fs i = .ub ∧ at' .release fs i = .ub ∧ index .debug fs i = .terminate ∧ at' .debug fs i = .terminate ∧
      index .aborting fs i = .terminate ∧ at' .aborting fs i = .terminate := by
  have key : index .release fs i = .ub ∧ index .debug fs i = .terminate ∧ index .aborting fs i = .terminate := by
    refine ⟨?_, ?_, ?_⟩
    · obtain ⟨j, g, e', hj, hg⟩ := (seek_stops .release 0 fs i hi).2 pre f post e hp hf
      rw [index_seek .release fs i hi hsz, e', Nat.zero_add]
      simp [Outcome.bind, deref, fragAt, hj, hg, debugAssert, noexcept]
    · obtain ⟨j, g, e', hj, hg⟩ := (seek_stops .debug 0 fs i hi).2 pre f post e hp hf
      rw [index_seek .debug fs i hi hsz, e', Nat.zero_add]
      simp [Outcome.bind, deref, fragAt, hj, hg, debugAssert, noexcept]
    · obtain ⟨j, g, e', hj, hg⟩ := (seek_stops .aborting 0 fs i hi).2 pre f post e hp hf
      rw [index_seek .aborting fs i hi hsz, e', Nat.zero_add]
      simp [Outcome.bind, deref, fragAt, hj, hg, debugAssert, noexcept]
  exact ⟨key.1, by rw [at', if_neg (by omega), key.1], key.2.1, by rw [at', if_neg (by omega), key.2.1], key.2.2,
    by rw [at', if_neg (by omega), key.2.2]⟩

/-- C87 fails for `front()` of every string whose first fragment is empty, and for `back()` of every string whose last one is, although
there are characters. -/
theorem c87_refuted (b : Build) (fs : FragStr C) (f : Frag C) (h : fs.flatMap Frag.chars ≠ []) (hf : f.chars = []) :
    front b (f :: fs) = .ub ∧ back b (fs ++ [f]) = .ub := by
  have ht : length fs = (fs.flatMap Frag.chars).length := by
    clear h
    induction fs with
    | nil => rfl
    | cons f fs ih => rw [List.flatMap_cons, List.length_append, ← ih]; rfl
  have h1 : 0 < length fs := by rw [ht]; exact List.length_pos_iff.mpr h
  have h2 : 0 < length (fs ++ [f]) := by rw [length_append]; omega
  have h3 : 0 < length (f :: fs) := by rw [length]; omega
  constructor
  · cases b <;> simp [front, debugAssert, h3, hf]
  · cases b <;> simp [back, debugAssert, h2, hf]

example : front .debug [some [], some [(97 : Int)]] = .ub ∧ back .debug [some [(97 : Int)], some []] = .ub ∧
    index .release [some [(97 : Int)], some [], some [98]] 1 = .ub ∧
    at' .release [some [(97 : Int)], some [], some [98]] 1 = .ub ∧
    at' .debug [some [(97 : Int)], some [], some [98]] 1 = .terminate ∧
    at' .debug [some [(97 : Int)], some [], some [98, 99]] 2 = .ok 99 := by decide

example : at' .debug [some [97, 98], some [(99 : Int)]] 2 = .ok 99 ∧ front .debug [some [97, 98], some [(99 : Int)]] = .ok 97 ∧
    back .debug [some [97, 98], some [(99 : Int)]] = .ok 99 ∧
    at' .debug [some [97, 98], some [(99 : Int)]] 3 = .throw (.outOfRange "Error: accessing fragment_string beyond end of string") := by
  decide

/-! ## Comparison -/

section
variable [LinearOrder C]

/-- `r` has the sign of the lexicographic comparison of `x` with `y`. -/
def SignOf (r : Int) (x y : List C) : Prop :=
  (r < 0 ↔ List.Lex (· < ·) x y) ∧ (r = 0 ↔ x = y) ∧ (0 < r ↔ List.Lex (· < ·) y x)

/-- C88 when only last fragments may be empty: `compare` has the sign of the lexicographic
comparison of the concatenations, for strings and for fragment strings. -/
theorem c88_partial (b : Build) (fs : FragStr C) (h0 : fs ≠ []) (h : ∀ f ∈ fs.dropLast, f.chars ≠ []) :
    (∀ s, ∃ r, compareView b fs s = .ok r ∧ SignOf r (fs.flatMap Frag.chars) s) ∧
    (∀ gs : FragStr C, gs ≠ [] → (∀ f ∈ gs.dropLast, f.chars ≠ []) →
      ∃ r, compareFs b fs gs = .ok r ∧ SignOf r (fs.flatMap Frag.chars) (gs.flatMap Frag.chars)) := by
  have ht : ∀ fs : FragStr C, fs.flatMap Frag.chars = text fs := by
    intro fs
    induction fs with
    | nil => rfl
    | cons f fs ih => rw [List.flatMap_cons, ih]; rfl
  have hr : Regular fs := ⟨h0, h⟩
  obtain ⟨e1, h1⟩ := begin_at hr
  obtain ⟨l, e2, h2⟩ := end_at h0
  refine ⟨fun s => ?_, fun gs hg0 hg => ?_⟩
  · refine ⟨lexCmp (text fs) s, ?_, by rw [ht]; exact lexCmp_spec _ _⟩
    rw [compareView, compareIter, e1, Outcome.bind_ok, e2, Outcome.bind_ok,
      compareLoop_eq hr b (view_tracks s) h2 (last := s.length) ⟨rfl, Nat.le_refl _⟩ _ _ 0 0 0 h1 ⟨rfl, Nat.zero_le _⟩ (by omega)]
    rfl
  · have hgr : Regular gs := ⟨hg0, hg⟩
    obtain ⟨e3, h3⟩ := begin_at hgr
    obtain ⟨m, e4, h4⟩ := end_at hg0
    refine ⟨lexCmp (text fs) (text gs), ?_, by rw [ht, ht]; exact lexCmp_spec _ _⟩
    rw [compareFs, e3, Outcome.bind_ok, e4, Outcome.bind_ok, compareIter, e1, Outcome.bind_ok, e2, Outcome.bind_ok,
      compareLoop_eq hr b (fwd_tracks hgr b) h2 (by rwa [← length_text]) _ _ _ 0 0 h1 h3 (by omega)]
    rfl

/-- The same for C strings: the characters before the first zero count. -/
theorem c88_ptr_partial [Zero C] (b : Build) (fs : FragStr C) (h0 : fs ≠ []) (h : ∀ f ∈ fs.dropLast, f.chars ≠ [])
    (s rest : List C) (hs : (0 : C) ∉ s) :
    ∃ r, comparePtr b fs (s ++ 0 :: rest) = .ok r ∧ SignOf r (fs.flatMap Frag.chars) s := by
  have : cstr (s ++ 0 :: rest) = s := by
    rw [cstr, List.takeWhile_append_of_pos]
    · simp
    · intro a ha
      simp only [decide_eq_true_eq]
      rintro rfl; exact hs ha
  rw [comparePtr, this]
  exact (c88_partial b fs h0 h).1 s

end

/-- `("" + "a").compare("a")` is undefined. -/
theorem c88_refuted :
    compareView .release [some [], some [(97 : Int)]] [97] = .ub ∧
    compareFs .release [some [(97 : Int)]] [some [], some [(97 : Int)]] = .ub := by decide

example : compareView .debug [some [97, 98], some [(99 : Int)]] [97, 98, 100] = .ok (-1) ∧
    compareFs .debug [some [97, 98], some [(99 : Int)]] [some [97], some [98, 99], some []] = .ok 0 ∧
    comparePtr .debug [some [97, 98], some [(99 : Int)]] [97, 98, 0, 99] = .ok 1 := by decide

/-- The value of a `char`, a signed 8-bit number (as on x86), when read as `unsigned char`. -/
def asUnsigned (c : Int) : Int := c % 256

/-- C112 for characters that are not negative: `compare` has the sign of `std::string`'s
comparison, which compares characters as `unsigned char`. -/
theorem c112_partial (b : Build) (fs : FragStr Int) (h0 : fs ≠ []) (h : ∀ f ∈ fs.dropLast, f.chars ≠ [])
    (s : List Int) (hs : ∀ c ∈ s, 0 ≤ c ∧ c < 128) (hf : ∀ c ∈ fs.flatMap Frag.chars, 0 ≤ c ∧ c < 128) :
    ∃ r, compareView b fs s = .ok r ∧
      SignOf r ((fs.flatMap Frag.chars).map asUnsigned) (s.map asUnsigned) := by
  obtain ⟨r, e, hr⟩ := (c88_partial b fs h0 h).1 s
  refine ⟨r, e, ?_⟩
  have : ∀ l : List Int, (∀ c ∈ l, 0 ≤ c ∧ c < 128) → l.map asUnsigned = l := by
    intro l hl
    conv_rhs => rw [← List.map_id l]
    apply List.map_congr_left
    intro c hc
    have := hl c hc
    show c % 256 = c
    omega
  rwa [this _ hs, this _ hf]

/-- Characters outside ASCII are ordered differently: `fragment_string{"\xE9"}.compare("z")` is
negative, `std::string{"\xE9"}.compare("z")` positive. -/
theorem c112_refuted :
    ¬∀ (b : Build) (fs : FragStr Int) (s : List Int), fs ≠ [] → (∀ f ∈ fs.dropLast, f.chars ≠ []) →
      (∀ c ∈ s, -128 ≤ c ∧ c < 128) → (∀ c ∈ fs.flatMap Frag.chars, -128 ≤ c ∧ c < 128) →
      ∃ r, compareView b fs s = .ok r ∧ SignOf r ((fs.flatMap Frag.chars).map asUnsigned) (s.map asUnsigned) := by
  intro h
  obtain ⟨r, e, hr⟩ := h .debug [some [-23]] [122] (by decide) (by decide) (by decide) (by decide)
  have e' : compareView .debug [some [-23]] [(122 : Int)] = .ok (-1) := by decide
  rw [e'] at e
  cases e
  have := hr.1.mp (by decide)
  cases this with
  | rel h => exact absurd h (by decide)

/-- Wherever the texts first differ in a character of which one is outside ASCII and the other is not, the order is
the other way round than that of `std::string`. -/
theorem c112_refuted_all (b : Build) (fs : FragStr Int) (h0 : fs ≠ []) (h : ∀ f ∈ fs.dropLast, f.chars ≠ [])
    (p t u : List Int) (x y : Int) (hx : -128 ≤ x ∧ x < 0) (hy : 0 ≤ y ∧ y < 128) :
    (fs.flatMap Frag.chars = p ++ x :: t →
      ∃ r, compareView b fs (p ++ y :: u) = .ok r ∧ r < 0 ∧
        (p ++ y :: u).map asUnsigned < (fs.flatMap Frag.chars).map asUnsigned) ∧
    (fs.flatMap Frag.chars = p ++ y :: t →
      ∃ r, compareView b fs (p ++ x :: u) = .ok r ∧ 0 < r ∧
        (fs.flatMap Frag.chars).map asUnsigned < (p ++ x :: u).map asUnsigned) := by
  have hlt : ∀ (q : List Int) (a c : Int) (v w : List Int), a < c → q ++ a :: v < q ++ c :: w := by
    intro q a c v w hac
    induction q with
    | nil => exact List.Lex.rel hac
    | cons _ _ ih => exact List.Lex.cons ih
  have hu : asUnsigned y < asUnsigned x := by
    show y % 256 < x % 256
    omega
  have hxy : x < y := by omega
  constructor
  · intro e
    obtain ⟨r, er, hr⟩ := (c88_partial b fs h0 h).1 (p ++ y :: u)
    refine ⟨r, er, hr.1.mpr (by rw [e]; exact hlt _ _ _ _ _ hxy), ?_⟩
    rw [e, List.map_append, List.map_append]
    exact hlt _ _ _ _ _ hu
  · intro e
    obtain ⟨r, er, hr⟩ := (c88_partial b fs h0 h).1 (p ++ x :: u)
    refine ⟨r, er, hr.2.2.mpr (by rw [e]; exact hlt _ _ _ _ _ hxy), ?_⟩
    rw [e, List.map_append, List.map_append]
    exact hlt _ _ _ _ _ hu

example : ∃ r, compareView .debug [some [97, -23], some [98]] [97, 122] = .ok r ∧ r < 0 ∧
    [97, 122].map asUnsigned < (([some [97, -23], some [98]] : FragStr Int).flatMap Frag.chars).map asUnsigned :=
  (c112_refuted_all .debug [some [97, -23], some [98]] (by decide) (by decide) [97] [98] [] (-23) 122
    (by decide) (by decide)).1 rfl

example : ∃ r, compareView .release [some [97], some [(98 : Int)]] [97, 99] = .ok r ∧ SignOf r ([97, 98].map asUnsigned) ([97, 99].map asUnsigned) :=
  c112_partial .release [some [97], some [98]] (by decide) (by decide) [97, 99] (by decide) (by decide)

/-! ## Construction, concatenation and output -/

section
variable [DecidableEq C] [Zero C]

/-- The ways to make a fragment string. -/
inductive Expr (C : Type) where
  /-- `fragment_string{str}` where the memory at `str` begins with these characters -/
  | ptr (mem : List C)
  /-- `a + b` -/
  | add (a b : Expr C)
  /-- `a + str` -/
  | addPtr (a : Expr C) (mem : List C)
  /-- `basic_fragment_string<C, n>{}` -/
  | default (n : Nat)

/-- The fragment string. -/
def Expr.value : Expr C → FragStr C
  | ptr mem => ofPtr mem
  | add a b => concat a.value b.value
  | addPtr a mem => concatPtr a.value mem
  | default n => defaulted n

/-- The characters it is expected to have. -/
def Expr.expected : Expr C → List C
  | ptr mem => mem.takeWhile (fun c => decide (c ≠ 0))
  | add a b => a.expected ++ b.expected
  | addPtr a mem => a.expected ++ mem.takeWhile (fun c => decide (c ≠ 0))
  | default _ => []

/-- No default-constructed string is involved. -/
def Expr.plain : Expr C → Prop
  | ptr _ => True
  | add a b => a.plain ∧ b.plain
  | addPtr a _ => a.plain
  | default n => n = 0

omit [DecidableEq C] [Zero C] in
private theorem text_none (n : Nat) : text (List.replicate n (none : Frag C)) = [] := by
  induction n with
  | zero => rfl
  | succ n ih => rw [List.replicate_succ, text, ih]; rfl

private theorem text_value (e : Expr C) : text e.value = e.expected := by
  induction e with
  | ptr mem => simp [Expr.value, Expr.expected, ofPtr, text, Frag.chars, cstr]
  | add a b iha ihb => rw [Expr.value, concat, text_append, iha, ihb, Expr.expected]
  | addPtr a mem iha =>
    rw [Expr.value, concatPtr, concat, text_append, iha, Expr.expected]
    simp [ofPtr, text, Frag.chars, cstr]
  | default n => exact text_none n

/-- The strings made by plain expressions consist of C strings. -/
private theorem plain_frags (e : Expr C) (h : e.plain) : ∀ f ∈ e.value, ∃ s, f = some s ∧ (0 : C) ∉ s := by
  have hc : ∀ mem : List C, (0 : C) ∉ cstr mem := by
    intro mem hm
    have := List.mem_takeWhile_imp hm
    simp at this
  induction e with
  | ptr mem =>
    intro f hf
    simp only [Expr.value, ofPtr, List.mem_singleton] at hf
    exact ⟨_, hf, hc mem⟩
  | add a b iha ihb =>
    intro f hf
    rcases List.mem_append.mp hf with hf | hf
    · exact iha h.1 f hf
    · exact ihb h.2 f hf
  | addPtr a mem iha =>
    intro f hf
    rcases List.mem_append.mp hf with hf | hf
    · exact iha h f hf
    · simp only [ofPtr, List.mem_singleton] at hf
      exact ⟨_, hf, hc mem⟩
  | default n =>
    intro f hf
    simp only [Expr.plain] at h
    subst h
    simp [Expr.value, defaulted] at hf

private theorem toStr_of (fs : FragStr C) (h : ∀ f ∈ fs, ∃ s, f = some s ∧ (0 : C) ∉ s) : toStr fs = .ok (text fs) := by
  induction fs with
  | nil => rfl
  | cons f fs ih =>
    obtain ⟨s, rfl, hs⟩ := h f (by simp)
    rw [toStr, ih (fun g hg => h g (by simp [hg])), Outcome.bind_ok, text]
    have : cstr (s ++ [0]) = s := by
      rw [cstr, List.takeWhile_append_of_pos]
      · simp
      · intro a ha
        simp only [decide_eq_true_eq]
        rintro rfl; exact hs ha
    rw [this]; rfl

omit [DecidableEq C] [Zero C] in
private theorem print_zero (fill : C) (fs : FragStr C) : print fill 0 fs = text fs := by
  induction fs with
  | nil => rfl
  | cons f fs ih => rw [print, ih, text, insertView]; simp

/-- C94: a fragment string has the expected length and is printed as expected (on a stream of
width zero), however it was made. -/
theorem c94_length_print (fill : C) (e : Expr C) :
    length e.value = e.expected.length ∧ print fill 0 e.value = e.expected ∧
    (empty e.value = true ↔ e.expected = []) := by
  rw [print_zero, length_text, text_value, empty, length_text, text_value]
  refine ⟨rfl, rfl, ?_⟩
  rw [decide_eq_true_eq, eq_comm, List.length_eq_zero_iff]

/-- C94 for strings in which no default-constructed one is involved: `to_str()` gives the expected characters. -/
theorem c94_partial (e : Expr C) (h : e.plain) : toStr e.value = .ok e.expected := by
  rw [toStr_of _ (plain_frags e h), text_value]

/-- C94: `to_str()` of a string with a default-constructed part is undefined. -/
theorem c94_refuted (e : Expr C) (h : ¬e.plain) : toStr e.value = .ub := by
  have hmem : none ∈ e.value := by
    induction e with
    | ptr mem => exact absurd trivial h
    | add a b iha ihb =>
      by_cases ha : a.plain
      · exact List.mem_append.mpr (Or.inr (ihb (fun hb => h ⟨ha, hb⟩)))
      · exact List.mem_append.mpr (Or.inl (iha ha))
    | addPtr a mem iha => exact List.mem_append.mpr (Or.inl (iha h))
    | default n =>
      have : n ≠ 0 := h
      simp [Expr.value, defaulted, this]
  generalize e.value = fs at hmem
  induction fs with
  | nil => cases hmem
  | cons f fs ih =>
    cases f with
    | none => rfl
    | some s =>
      have := ih (by simpa using hmem)
      rw [toStr, this]; rfl

omit [DecidableEq C] [Zero C] in
/-- C94: concatenation is associative and adds lengths. -/
theorem c94_assoc (a b c : FragStr C) :
    concat (concat a b) c = concat a (concat b c) ∧ length (concat a b) = length a + length b := by
  exact ⟨List.append_assoc _ _ _, length_append a b⟩

/-- C113 for literals without embedded zeros: `"…"_fs` has exactly the characters of the literal. -/
theorem c113_partial (lit : List C) (h : (0 : C) ∉ lit) :
    length (literal lit) = lit.length ∧ toStr (literal lit) = .ok lit := by
  have : cstr (lit ++ [0]) = lit := by
    rw [cstr, List.takeWhile_append_of_pos]
    · simp
    · intro a ha
      simp only [decide_eq_true_eq]
      rintro rfl; exact h ha
  rw [literal, ofPtr, this, length, length, toStr, toStr, Outcome.bind_ok, this]
  simp [Frag.chars]

/-- C113 fails for every literal with an embedded zero: the characters from there on are lost. -/
theorem c113_refuted (s rest : List C) (h : (0 : C) ∉ s) :
    length (literal (s ++ 0 :: rest)) = s.length ∧ toStr (literal (s ++ 0 :: rest)) = .ok s := by
  have h1 : ∀ r : List C, cstr (s ++ 0 :: r) = s := by
    intro r
    rw [cstr, List.takeWhile_append_of_pos]
    · simp
    · intro a ha
      simp only [decide_eq_true_eq]
      rintro rfl; exact h ha
  rw [literal, ofPtr, List.append_assoc, List.cons_append, h1, length, length, toStr, toStr, Outcome.bind_ok, h1]
  simp [Frag.chars]

end

/-- C114 for a width that the first fragment fills, or for a single fragment: the output is
that of the concatenated string. -/
theorem c114_partial (fill : C) (width : Nat) (f : Frag C) (rest : FragStr C)
    (h : width ≤ f.chars.length ∨ rest = []) :
    print fill width (f :: rest) = insertView fill width ((f :: rest).flatMap Frag.chars) := by
  have ht : ∀ fs : FragStr C, fs.flatMap Frag.chars = text fs := by
    intro fs
    induction fs with
    | nil => rfl
    | cons f fs ih => rw [List.flatMap_cons, ih]; rfl
  have hp : print fill 0 rest = text rest := by
    clear h
    induction rest with
    | nil => rfl
    | cons f fs ih => rw [print, ih, text, insertView]; simp
  rw [print, hp, ht, text]
  rcases h with h | rfl
  · rw [insertView, insertView, Nat.sub_eq_zero_of_le h, Nat.sub_eq_zero_of_le (by rw [List.length_append]; omega)]
    simp
  · simp [text]

/-- C114 holds exactly when the first fragment fills the width or the others have no characters: otherwise the
output is longer than that of the concatenated string. -/
theorem c114_exact_partial (fill : C) (width : Nat) (f : Frag C) (rest : FragStr C) :
    (print fill width (f :: rest) = insertView fill width ((f :: rest).flatMap Frag.chars) ↔
      width ≤ f.chars.length ∨ rest.flatMap Frag.chars = []) ∧
    (f.chars.length < width → rest.flatMap Frag.chars ≠ [] →
      (insertView fill width ((f :: rest).flatMap Frag.chars)).length < (print fill width (f :: rest)).length) := by
  have ht : ∀ fs : FragStr C, print fill 0 fs = fs.flatMap Frag.chars := by
    intro fs
    induction fs with
    | nil => rfl
    | cons f fs ih => rw [List.flatMap_cons, print, ih, insertView]; simp
  have hlong : f.chars.length < width → rest.flatMap Frag.chars ≠ [] →
      (insertView fill width ((f :: rest).flatMap Frag.chars)).length < (print fill width (f :: rest)).length := by
    intro hw hr
    have hpos := List.length_pos_iff.mpr hr
    rw [print, ht, List.flatMap_cons]
    simp only [insertView, List.length_append, List.length_replicate]
    omega
  refine ⟨⟨fun h => ?_, fun h => ?_⟩, hlong⟩
  · by_cases hw : width ≤ f.chars.length
    · exact .inl hw
    · by_cases hr : rest.flatMap Frag.chars = []
      · exact .inr hr
      · have := hlong (by omega) hr
        rw [h] at this
        exact absurd this (Nat.lt_irrefl _)
  · rcases h with h | h
    · exact c114_partial fill width f rest (.inl h)
    · rw [print, ht, List.flatMap_cons, h, List.append_nil, List.append_nil]

/-- C114: `std::cout << std::setw(4) << ("ab" + "cd")` prints `"  abcd"`. -/
theorem c114_refuted :
    ¬∀ (fill : Int) (width : Nat) (fs : FragStr Int),
      print fill width fs = insertView fill width (fs.flatMap Frag.chars) := by
  intro h
  exact absurd (h 32 4 [some [97, 98], some [99, 100]]) (by decide)

example : toStr (Expr.value (.addPtr (.add (.ptr [97, 0]) (.ptr [98, 0, 99])) [(100 : Int), 101, 0])) = .ok [97, 98, 100, 101] ∧
    toStr (Expr.value (.add (.default 1) (.ptr [(98 : Int), 0]))) = .ub ∧
    print 32 0 (Expr.value (.add (.default 1) (.ptr [(98 : Int), 0]))) = [98] ∧
    length (literal [(97 : Int), 0, 98]) = 1 ∧
    print 32 5 [some [97, (98 : Int)]] = [32, 32, 32, 97, 98] := by decide

end Wite.Props
