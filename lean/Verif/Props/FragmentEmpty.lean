import Verif.Props.FragmentString
import Verif.Props.FragmentSearch
import Verif.Lemmas.FragmentGaps

/-!
# C178: fragment strings with empty fragments, exactly

`GapAt fs p` says that an empty fragment other than the last one stands at offset `p` of the
text.  The theorems say for every fragment string what the functions do, where C86-C93 assume
that there are no such fragments.
-/

namespace Wite.Props

open Wite Wite.Str

variable {C : Type}

private theorem flat_text (fs : FragStr C) : fs.flatMap Frag.chars = text fs := by
  induction fs with
  | nil => rfl
  | cons f fs ih => rw [List.flatMap_cons, ih]; rfl

/-- C178, single characters: for an offset in the text, `[]` and `at` return the character there,
except directly behind an empty fragment. There a release build has undefined behaviour, and the
assertion of the others ends the program, since `[]` is `noexcept`. -/
theorem c178_index_partial (b : Build) (fs : FragStr C) (hsz : length fs < 2 ^ 63) (i : Nat) (hi : i < length fs) :
    (¬GapAt fs i → ∃ c, (fs.flatMap Frag.chars)[i]? = some c ∧ index b fs i = .ok c ∧ at' b fs i = .ok c) ∧
    (GapAt fs i → index b fs i = (match b with | .release => .ub | _ => .terminate) ∧
      at' b fs i = (match b with | .release => .ub | _ => .terminate)) := by
  have h0 : fs ≠ [] := by rintro rfl; simp [length] at hi
  obtain ⟨x, ex, hx⟩ := On.plus h0 b (p := i) (by omega) hsz
  have hl : i < (text fs).length := by rwa [← length_text]
  have hat : at' b fs i = index b fs i := by rw [at', if_neg (by omega)]
  rw [hat]
  have e : index b fs i = noexcept (deref b fs x) := by
    rw [index, (On.begin h0).1, Outcome.bind_ok, ex, Outcome.bind_ok]
  rw [e]
  constructor
  · intro hg
    refine ⟨(text fs)[i], by rw [flat_text, List.getElem?_eq_getElem hl], ?_⟩
    rw [hx.deref b hg hl]
    exact ⟨rfl, rfl⟩
  · intro hg
    rw [hx.deref_gap b hg]
    cases b <;> exact ⟨rfl, rfl⟩

/-- C178, the ends: in a string with characters, `front()` returns the first unless the first
fragment is empty, and `back()` the last unless the last fragment is; otherwise they are undefined,
in every build. -/
theorem c178_ends_partial (b : Build) (fs : FragStr C) (hi : 0 < length fs) :
    (∀ f rest, fs = f :: rest → front b fs = match f.chars with
      | [] => .ub
      | c :: _ => .ok c) ∧
    (∀ f rest, fs = rest ++ [f] → back b fs = match f.chars.reverse with
      | [] => .ub
      | c :: _ => .ok c) := by
  have ha : debugAssert b (decide (0 < length fs)) "accessing fragment_string beyond end of string" = .ok () := by
    cases b <;> simp [debugAssert, hi]
  constructor
  · rintro f rest rfl
    rw [front, ha, Outcome.bind_ok]
    cases h : f.chars <;> simp [h]
  · rintro f rest rfl
    rw [back, ha, Outcome.bind_ok]
    simp only [List.getLast?_append, List.getLast?_singleton, Option.some_or]
    rw [← List.head?_reverse]
    cases h : f.chars.reverse <;> rfl

/-- C178, `copy`: the right characters if no empty fragment stands before or between them,
otherwise the outcome of dereferencing past the end of a fragment. -/
theorem c178_copy_partial (b : Build) (fs : FragStr C) (hsz : length fs < 2 ^ 63) (count pos : Nat)
    (hp : pos < length fs) :
    ((∀ o, pos ≤ o → o < min (pos + count) (length fs) → ¬GapAt fs o) →
      copy b fs count pos = .ok (min count (length fs - pos),
        ((fs.flatMap Frag.chars).drop pos).take (min count (length fs - pos)))) ∧
    ((∃ o, pos ≤ o ∧ o < min (pos + count) (length fs) ∧ GapAt fs o) → copy b fs count pos = badStar b) := by
  have h0 : fs ≠ [] := by rintro rfl; simp [length] at hp
  obtain ⟨x, ex, hx⟩ := On.plus h0 b (p := pos) (by omega) hsz
  obtain ⟨h1, h2⟩ := On.copyN b (min count (length fs - pos)) x pos hx (by omega)
  have e : copy b fs count pos = (copyN (fwd b fs) (min count (length fs - pos)) x >>= fun cs =>
      pure (min count (length fs - pos), cs)) := by
    rw [copy, if_neg (by omega), (On.begin h0).1, Outcome.bind_ok, ex, Outcome.bind_ok]
  rw [e, flat_text]
  constructor
  · intro hg
    rw [h1 (fun o ho1 ho2 => hg o ho1 (by omega))]; rfl
  · rintro ⟨o, ho1, ho2, ho⟩
    rw [h2 ⟨o, ho1, by omega, ho⟩, badStar_bind]

/-- C178, `substr` with a count that ends inside the text: the right characters if no empty
fragment stands before or between them. -/
theorem c178_substr_partial (b : Build) (fs : FragStr C) (hsz : length fs < 2 ^ 63) (pos count : Nat)
    (hp : pos + count < length fs) :
    ((∀ o, pos ≤ o → o < pos + count → ¬GapAt fs o) →
      substr b fs pos count = .ok (((fs.flatMap Frag.chars).drop pos).take count)) ∧
    ((∃ o, pos ≤ o ∧ o < pos + count ∧ GapAt fs o) → substr b fs pos count = badStar b) := by
  have h0 : fs ≠ [] := by rintro rfl; simp [length] at hp
  obtain ⟨x, ex, hx⟩ := On.plus h0 b (p := pos) (by omega) hsz
  obtain ⟨y, ey, hy⟩ := On.plus h0 b (p := pos + count) (by omega) hsz
  have hm : (pos + count) % 2 ^ 64 = pos + count := Nat.mod_eq_of_lt (by omega)
  have e : substr b fs pos count = readLoop (fwd b fs) (count + 1) x y := by
    rw [substr, if_neg (by omega), (On.begin h0).1, Outcome.bind_ok, hm, if_neg (by rw [npos]; omega), ey,
      Outcome.bind_ok, ex, Outcome.bind_ok, readRange]
    have hd : (fwd b fs).diff y x = count := by
      have := diff_of (fs := fs) hy.2.1 hx.2.1
      have h2 : (fwd b fs).diff y x = diff fs y x := rfl
      rw [h2, this]; push_cast; omega
    rw [hd, if_neg (by omega)]
    rfl
  obtain ⟨h1, h2⟩ := On.readLoop b y (pos + count) True
    (fun z q hz => by rw [hz.eq_iff hy]; simp) (by simp) (by omega) (count + 1) x pos hx (by omega) (by omega)
  rw [e, flat_text]
  constructor
  · intro hg
    rw [h1 trivial hg, List.drop_take, Nat.add_sub_cancel_left]
  · intro hg
    exact h2 (.inr hg)

/-- C178, `substr` to the end (`npos`, or a count that reaches the end): here an empty fragment at
the very end of the text counts as well, if it is not the last one. -/
theorem c178_substr_end_partial (b : Build) (fs : FragStr C) (hsz : length fs < 2 ^ 63) (pos count : Nat)
    (hp : pos < length fs) (hc : count = npos ∨ (length fs ≤ pos + count ∧ pos + count < 2 ^ 64)) :
    ((∀ o, pos ≤ o → o ≤ length fs → ¬GapAt fs o) →
      substr b fs pos count = .ok ((fs.flatMap Frag.chars).drop pos)) ∧
    ((∃ o, pos ≤ o ∧ o ≤ length fs ∧ GapAt fs o) → substr b fs pos count = badStar b) := by
  have h0 : fs ≠ [] := by rintro rfl; simp [length] at hp
  obtain ⟨x, ex, hx⟩ := On.plus h0 b (p := pos) (by omega) hsz
  obtain ⟨l, el, hl⟩ := end_at h0
  have hcond : count = npos ∨ length fs ≤ (pos + count) % 2 ^ 64 := by
    rcases hc with hc | ⟨h1, h2⟩
    · exact .inl hc
    · rw [Nat.mod_eq_of_lt h2]; exact .inr h1
  have e : substr b fs pos count = readLoop (fwd b fs) (length fs - pos + 1) x l := by
    rw [substr, if_neg (by omega), (On.begin h0).1, Outcome.bind_ok, if_pos hcond, el,
      Outcome.bind_ok, ex, Outcome.bind_ok, readRange]
    have hd : (fwd b fs).diff l x = ((length fs - pos : Nat) : Int) := by
      obtain ⟨s, hs, hc', hp'⟩ := hl
      have := diff_of (fs := fs) hp' hx.2.1
      have h2 : (fwd b fs).diff l x = diff fs l x := rfl
      rw [h2, this]; omega
    rw [hd, if_neg (by omega)]
    rfl
  obtain ⟨h1, h2⟩ := On.readLoop b l (length fs) (¬GapAt fs (length fs)) (fun z q hz => hz.eq_end el)
    (fun h => by simpa using h) (by omega) (length fs - pos + 1) x pos hx (by omega) (by omega)
  rw [e, flat_text]
  constructor
  · intro hg
    rw [h1 (hg _ (by omega) (by omega)) (fun o a b => hg o a (by omega)), length_text, List.take_length]
  · rintro ⟨o, ho1, ho2, ho⟩
    rcases Nat.lt_or_ge o (length fs) with h | h
    · exact h2 (.inr ⟨o, ho1, h, ho⟩)
    · have e : o = length fs := by omega
      exact h2 (.inl (fun hn => hn (e ▸ ho)))

example : GapAt [some [(97 : Int)], some [], some [98]] 1 := ⟨[some [97]], some [], [some [98]], rfl, by simp, rfl, rfl⟩
example : copy .release [some [(97 : Int), 98], some [], some [99]] 2 0 = .ok (2, [97, 98]) ∧
    copy .release [some [(97 : Int), 98], some [], some [99]] 3 0 = .ub ∧
    substr .debug [some [(97 : Int), 98], some [], some [99]] 0 2 = .ok [97, 98] ∧
    substr .debug [some [(97 : Int), 98], some [], some []] 1 1 =
      .throw (.assertion "fragment_string: dereference iterator out-of-range") := by decide

/-! ## Prefixes and suffixes -/

section
variable [DecidableEq C]

/-- C178, `starts_with` for a string that is no longer than the text: the right answer if no empty
fragment stands before or inside the part to be compared. Otherwise, with the first of them at `g`,
the answer is `false` if there is a difference before it, and the program is ended or undefined if
there is none. -/
theorem c178_starts_with_partial (b : Build) (fs : FragStr C) (hsz : length fs < 2 ^ 63) (hpos : 0 < length fs) (s : List C)
    (hs : s.length ≤ length fs) :
    ((∀ o, o < s.length → ¬GapAt fs o) → startsWithView b fs s = .ok (decide (s <+: fs.flatMap Frag.chars))) ∧
    (∀ g, g < s.length → GapAt fs g → (∀ o, o < g → ¬GapAt fs o) →
      (s.take g = (fs.flatMap Frag.chars).take g →
        startsWithView b fs s = (match b with | .release => .ub | _ => .terminate)) ∧
      (s.take g ≠ (fs.flatMap Frag.chars).take g → startsWithView b fs s = .ok false)) := by
  have h0 : fs ≠ [] := by rintro rfl; simp [length] at hpos
  obtain ⟨y, ey, hy⟩ := On.plus h0 b (p := s.length) hs hsz
  have e : startsWithView b fs s = noexcept (equalLoop (view s) (fwd b fs) (s.length + 1) 0 s.length ⟨0, 0⟩) := by
    rw [startsWithView, (On.begin h0).1, Outcome.bind_ok, matchSubstring, if_neg (by omega), if_neg (by omega)]
    have : (fwd b fs).plus ⟨0, 0⟩ (toDiff s.length) = .ok y := ey
    rw [this, Outcome.bind_ok, stdEqual]
    have d1 : (view s).diff s.length 0 = (s.length : Int) := by simp [view]
    have d2 : (fwd b fs).diff y ⟨0, 0⟩ = (s.length : Int) := by
      have h2 : (fwd b fs).diff y ⟨0, 0⟩ = diff fs y ⟨0, 0⟩ := rfl
      rw [h2, diff_of hy.2.1 (On.begin h0).2.2.1]; omega
    rw [d1, d2, if_pos rfl, Int.toNat_natCast]
  obtain ⟨k1, k2⟩ := equalLoop_bad (view_tracks s) (J := fwd b fs) (relJ := On fs) (t := text fs) (GapAt fs) (badStar b)
    (fun j q h hb hl => h.deref b hb hl)
    (fun j q f h hb _ => by
      have : (fwd b fs).deref j = badStar b := h.deref_gap b hb
      rw [this, badStar_bind])
    (fun j q h hb hl => h.incr b hb (by rwa [length_text]))
    (by rwa [← length_text]) (last := s.length) ⟨rfl, le_refl _⟩ (s.length + 1) 0 ⟨0, 0⟩ 0 ⟨rfl, by omega⟩ (On.begin h0).2
    (by omega) rfl
  rw [e, flat_text]
  refine ⟨fun h => by rw [k1 (fun o _ => h o)]; rfl, fun g h1 h2 h3 => ?_⟩
  obtain ⟨j1, j2⟩ := k2 g (by omega) h1 h2 (fun o _ => h3 o)
  refine ⟨fun h => ?_, fun h => by rw [j2 h]; rfl⟩
  rw [j1 h]
  cases b <;> rfl

/-- C178, `ends_with` for a string that is no longer than the text: the same, from the end. With
the last empty fragment at `g`, and `length() - g` characters behind it, a string that agrees with
those characters and goes on makes the behaviour undefined, in every build. -/
theorem c178_ends_with_partial (b : Build) (fs : FragStr C) (hsz : length fs < 2 ^ 63) (hpos : 0 < length fs) (s : List C)
    (hs : s.length ≤ length fs) :
    ((∀ o, length fs - s.length < o → ¬GapAt fs o) → endsWithView b fs s = .ok (decide (s <:+ fs.flatMap Frag.chars))) ∧
    (∀ g, length fs - s.length < g → GapAt fs g → (∀ o, g < o → ¬GapAt fs o) →
      ((fs.flatMap Frag.chars).drop g <:+ s → endsWithView b fs s = .ub) ∧
      (¬(fs.flatMap Frag.chars).drop g <:+ s → endsWithView b fs s = .ok false)) := by
  have h0 : fs ≠ [] := by rintro rfl; simp [length] at hpos
  obtain ⟨l, el, hl⟩ := end_at h0
  have hlen := length_text fs
  obtain ⟨y, ey, hy⟩ : ∃ y, (rev b fs).plus l (toDiff s.length) = .ok y ∧ At fs y (length fs - s.length) := by
    obtain ⟨t, ht, hc, hq⟩ := id hl
    obtain ⟨y, e, h'⟩ := At.seekBackward b l.frag l.cur (length fs) s.length t ht (by omega) (Or.inr hc) hq hs
    refine ⟨y, ?_, h'⟩
    show minus b fs l (toDiff s.length) = _
    rw [toDiff_small (by omega), minus, negDiff, if_neg (by omega), Outcome.bind_ok, seek, if_neg (by omega), negDiff,
      if_neg (by omega), Outcome.bind_ok, Int.neg_neg, Int.toNat_natCast, e]
  have e : endsWithView b fs s = noexcept (equalLoop (rview s) (rev b fs) (s.length + 1) s.length 0 l) := by
    rw [endsWithView, el, Outcome.bind_ok, matchSubstring, if_neg (by omega), if_neg (by omega), ey, Outcome.bind_ok, stdEqual]
    have d1 : (rview s).diff 0 s.length = (s.length : Int) := by simp [rview]
    have d2 : (rev b fs).diff y l = (s.length : Int) := by
      have h2 : (rev b fs).diff y l = diff fs l y := rfl
      rw [h2, hl.diff hy]; omega
    rw [d1, d2, if_pos rfl, Int.toNat_natCast]
  have hrl : (text fs).reverse.length = length fs := by rw [List.length_reverse, length_text]
  obtain ⟨k1, k2⟩ := equalLoop_bad (rview_tracks s) (J := rev b fs)
    (relJ := fun it q => q ≤ length fs ∧ At fs it (length fs - q)) (t := (text fs).reverse) (fun q => GapAt fs (length fs - q)) .ub
    (fun j q h hb hl => by
      have := ((h.2.rev_gaps (by omega) b).1 hb).1 (by omega)
      rw [this, List.getElem_reverse]
      congr 2
      omega)
    (fun j q f h hb hl => by rw [(h.2.rev_gaps (by omega) b).2 hb]; rfl)
    (fun j q h hb hl => by
      obtain ⟨j', e, h'⟩ := ((h.2.rev_gaps (by omega) b).1 hb).2
      exact ⟨j', e, by omega, by rwa [Nat.sub_sub] at h'⟩)
    (by rw [List.length_reverse, hrl]; exact hs) (last := 0) (by simp) (s.length + 1) s.length l 0 (by simp)
    ⟨by omega, by simpa using hl⟩ (by simp) rfl
  rw [List.length_reverse] at k1 k2
  rw [e, flat_text]
  constructor
  · intro h
    rw [k1 (fun o _ h1 => h _ (by omega))]
    have : s.reverse <+: (text fs).reverse ↔ s <:+ text fs := List.reverse_prefix
    simp only [this]
    rfl
  · intro g h1 h2 h3
    have hgl := h2.le
    obtain ⟨j1, j2⟩ := k2 (length fs - g) (by omega) (by omega) (by
        show GapAt fs _
        rwa [Nat.sub_sub_self hgl]) (fun o _ h4 => h3 _ (by omega))
    have hiff : s.reverse.take (length fs - g) = (text fs).reverse.take (length fs - g) ↔ (text fs).drop g <:+ s := by
      rw [← List.reverse_prefix, List.reverse_drop, ← hlen]
      constructor
      · intro h; rw [← h]; exact List.take_prefix _ _
      · intro h
        have := List.prefix_iff_eq_take.1 h
        rw [List.length_take, hrl, Nat.min_eq_left (by omega)] at this
        exact this.symm
    refine ⟨fun h => ?_, fun h => ?_⟩
    · rw [j1 (hiff.2 h)]; rfl
    · rw [j2 (fun h' => h (hiff.1 h'))]; rfl

example : startsWithView .debug [some [(97 : Int)], some [], some [98]] [97] = .ok true ∧
    startsWithView .debug [some [(97 : Int)], some [], some [98]] [98, 98] = .ok false ∧
    startsWithView .debug [some [(97 : Int)], some [], some [98]] [97, 98] = .terminate ∧
    endsWithView .debug [some [(97 : Int)], some [], some [98]] [98] = .ok true ∧
    endsWithView .debug [some [(97 : Int)], some [], some [98]] [97, 98] = .ub ∧
    endsWithView .debug [some [(97 : Int)], some [], some [98]] [97, 97] = .ok false := by decide

end

/-! ## Comparison -/

section
variable [LinearOrder C]

private theorem lex_prefix (p x y : List C) : List.Lex (· < ·) (p ++ x) (p ++ y) ↔ List.Lex (· < ·) x y := by
  induction p with
  | nil => simp
  | cons a p ih =>
    rw [List.cons_append, List.cons_append]
    constructor
    · intro h
      cases h with
      | rel h => exact absurd h (lt_irrefl a)
      | cons h => exact ih.1 h
    · intro h; exact .cons (ih.2 h)

private theorem lex_head {a b : C} {x y : List C} (h : List.Lex (· < ·) (a :: x) (b :: y)) : a ≤ b := by
  cases h with
  | rel h => exact le_of_lt h
  | cons _ => exact le_refl _

private theorem signOf_split {x y : List C} {p : Nat} (hx : p < x.length) (hy : p < y.length)
    (h : x.take p = y.take p) :
    (x[p] < y[p] → SignOf (-1) x y) ∧ (y[p] < x[p] → SignOf 1 x y) := by
  have ex : x = x.take p ++ x[p] :: x.drop (p + 1) := by
    rw [← List.drop_eq_getElem_cons hx, List.take_append_drop]
  have ey : y = x.take p ++ y[p] :: y.drop (p + 1) := by
    rw [h, ← List.drop_eq_getElem_cons hy, List.take_append_drop]
  have lexx : List.Lex (· < ·) x y ↔ List.Lex (· < ·) (x[p] :: x.drop (p + 1)) (y[p] :: y.drop (p + 1)) := by
    conv_lhs => rw [ex, ey]
    exact lex_prefix _ _ _
  have lexy : List.Lex (· < ·) y x ↔ List.Lex (· < ·) (y[p] :: y.drop (p + 1)) (x[p] :: x.drop (p + 1)) := by
    conv_lhs => rw [ey]
    conv_lhs => rhs; rw [ex]
    exact lex_prefix _ _ _
  have hne : x[p] ≠ y[p] → x ≠ y := by
    intro hn e
    subst e
    exact hn rfl
  constructor
  · intro hlt
    refine ⟨⟨fun _ => lexx.2 (.rel hlt), fun _ => by omega⟩, ⟨fun h => by omega, fun e => absurd e (hne (ne_of_lt hlt))⟩,
      ⟨fun h => by omega, fun hl => ?_⟩⟩
    exact absurd (lex_head (lexy.1 hl)) (not_le.2 hlt)
  · intro hlt
    refine ⟨⟨fun h => by omega, fun hl => ?_⟩, ⟨fun h => by omega, fun e => absurd e (hne (ne_of_gt hlt))⟩,
      ⟨fun _ => lexy.2 (.rel hlt), fun _ => by omega⟩⟩
    exact absurd (lex_head (lexx.1 hl)) (not_le.2 hlt)

/-- C178, `compare` with a string when `g` is the offset of the first empty fragment that is not
the last: if the string is a beginning of the text before it, the result is 1; if it continues
beyond that text, the comparison dereferences past the end of a fragment; in all other cases the
two differ before `g` and the result has the right sign. -/
theorem c178_compare_partial (b : Build) (fs : FragStr C) (g : Nat) (hg : GapAt fs g) (hmin : ∀ o, o < g → ¬GapAt fs o)
    (s : List C) :
    (s <+: (fs.flatMap Frag.chars).take g → compareView b fs s = .ok 1) ∧
    ((fs.flatMap Frag.chars).take g <+: s → s ≠ (fs.flatMap Frag.chars).take g → compareView b fs s = badStar b) ∧
    (¬s <+: (fs.flatMap Frag.chars).take g → ¬(fs.flatMap Frag.chars).take g <+: s →
      ∃ r, compareView b fs s = .ok r ∧ SignOf r (fs.flatMap Frag.chars) s) := by
  rw [flat_text]
  have h0 : fs ≠ [] := by
    rintro rfl
    obtain ⟨l, f, r, e, _⟩ := hg
    simp at e
  obtain ⟨l, el, hl⟩ := end_at h0
  have hgl : g ≤ (text fs).length := by rw [← length_text]; exact hg.le
  have key : ∀ (n : Nat) (it : It) (p : Nat), On fs it p → p ≤ g → p ≤ s.length →
      (text fs).take p = s.take p → g - p < n →
      (s <+: (text fs).take g → compareLoop b fs (view s) l s.length n it p = .ok 1) ∧
      ((text fs).take g <+: s → s ≠ (text fs).take g → compareLoop b fs (view s) l s.length n it p = badStar b) ∧
      (¬s <+: (text fs).take g → ¬(text fs).take g <+: s →
        ∃ r, compareLoop b fs (view s) l s.length n it p = .ok r ∧ SignOf r (text fs) s) := by
    intro n
    induction n with
    | zero => intro it p _ _ _ _ hn; omega
    | succ n ih =>
      intro it p h hpg hps heq hn
      have hne : ¬it.eq l = true := by
        rw [h.eq_end el]
        rintro ⟨rfl, hng⟩
        have : g = length fs := by have := hg.le; omega
        exact hng (this ▸ hg)
      rw [compareLoop, if_neg hne]
      by_cases hend : p = s.length
      · have : (view s).eq p s.length = true := by simp [view, hend]
        rw [if_pos this]
        have hsp : s = (text fs).take p := by rw [heq, hend, List.take_length]
        have hpre : s <+: (text fs).take g := by
          rw [hsp]
          exact List.take_prefix_take_left hpg
        refine ⟨fun _ => rfl, fun h1 h2 => absurd ?_ h2, fun h1 _ => absurd hpre h1⟩
        exact List.IsPrefix.eq_of_length_le hpre h1.length_le
      · have : ¬(view s).eq p s.length = true := by simp [view, hend]
        rw [if_neg this]
        by_cases hgp : p = g
        · subst hgp
          rw [h.deref_gap b hg, badStar_bind]
          have hpre : (text fs).take p <+: s := by rw [heq]; exact List.take_prefix _ _
          refine ⟨fun h1 => ?_, fun _ _ => rfl, fun _ h2 => absurd hpre h2⟩
          have := h1.length_le
          rw [List.length_take] at this
          omega
        · have hpl : p < (text fs).length := by omega
          have hps' : p < s.length := by omega
          have hng := hmin p (by omega)
          rw [h.deref b hng hpl, Outcome.bind_ok]
          have hv : (view s).deref p = .ok s[p] := by simp [view, List.getElem?_eq_getElem hps']
          rw [hv, Outcome.bind_ok]
          obtain ⟨sg1, sg2⟩ := signOf_split hpl hps' heq
          have hdiff : (text fs)[p] ≠ s[p] → ¬s <+: (text fs).take g ∧ ¬(text fs).take g <+: s := by
            intro hn
            constructor
            · intro hpre
              have := hpre.getElem (i := p) hps'
              rw [List.getElem_take] at this
              exact hn this.symm
            · intro hpre
              have hp' : p < ((text fs).take g).length := by rw [List.length_take]; omega
              have := hpre.getElem (i := p) hp'
              rw [List.getElem_take] at this
              exact hn this
          by_cases hlt : (text fs)[p] < s[p]
          · rw [if_pos hlt]
            obtain ⟨d1, d2⟩ := hdiff (ne_of_lt hlt)
            exact ⟨fun h => absurd h d1, fun h => absurd h d2, fun _ _ => ⟨-1, rfl, sg1 hlt⟩⟩
          · rw [if_neg hlt]
            by_cases hgt : s[p] < (text fs)[p]
            · rw [if_pos hgt]
              obtain ⟨d1, d2⟩ := hdiff (ne_of_gt hgt)
              exact ⟨fun h => absurd h d1, fun h => absurd h d2, fun _ _ => ⟨1, rfl, sg2 hgt⟩⟩
            · rw [if_neg hgt]
              obtain ⟨it', hi, h'⟩ := h.incr b hng (by rw [length_text]; omega)
              have hnx : (view s).next p = .ok (p + 1) := by simp [view, hps']
              rw [hi, Outcome.bind_ok, hnx, Outcome.bind_ok]
              refine ih it' (p + 1) h' (by omega) (by omega) ?_ (by omega)
              have hee : (text fs)[p] = s[p] := le_antisymm (not_lt.1 hgt) (not_lt.1 hlt)
              rw [List.take_succ_eq_append_getElem hpl, List.take_succ_eq_append_getElem hps', heq, hee]
  have e : compareView b fs s = compareLoop b fs (view s) l s.length (length fs + 1) ⟨0, 0⟩ 0 := by
    rw [compareView, compareIter, (On.begin h0).1, Outcome.bind_ok, el, Outcome.bind_ok]
  rw [e]
  exact key _ _ 0 (On.begin h0).2 (by omega) (by omega) rfl (by have := hg.le; omega)

/-- C178 is false, silently so: with two or more empty fragments at the end, `compare` says of
every text that it is greater than itself, in every build. -/
theorem c178_refuted_compare (b : Build) (fs : FragStr C) (h : ∀ f ∈ fs, f.chars ≠ []) (e₁ e₂ : Frag C)
    (rest : FragStr C) (h₁ : e₁.chars = []) (h₂ : ∀ f ∈ e₂ :: rest, f.chars = []) :
    compareView b (fs ++ e₁ :: e₂ :: rest) ((fs ++ e₁ :: e₂ :: rest).flatMap Frag.chars) = .ok 1 := by
  have hnil : ∀ gs : FragStr C, (∀ f ∈ gs, f.chars = []) → text gs = [] := by
    intro gs hgs
    induction gs with
    | nil => rfl
    | cons g gs ih => rw [text, hgs g (by simp), ih (fun f hf => hgs f (by simp [hf]))]; rfl
  have ht : text (fs ++ e₁ :: e₂ :: rest) = text fs := by
    rw [text_append, hnil (e₁ :: e₂ :: rest) (by
      intro f hf
      rcases List.mem_cons.1 hf with rfl | hf
      · exact h₁
      · exact h₂ f hf), List.append_nil]
  have hg : GapAt (fs ++ e₁ :: e₂ :: rest) (length fs) := ⟨fs, e₁, e₂ :: rest, rfl, by simp, h₁, rfl⟩
  have hmin : ∀ o, o < length fs → ¬GapAt (fs ++ e₁ :: e₂ :: rest) o := by
    intro o ho hgo
    obtain ⟨k, s, hk, hs, hse, hl⟩ := (gapAt_iff _ o).1 hgo
    by_cases hkl : k < fs.length
    · rw [List.getElem?_append_left hkl] at hs
      exact h s (List.mem_of_getElem? hs) hse
    · rw [List.take_append] at hl
      rw [List.take_of_length_le (by omega), length_append] at hl
      omega
  have := (c178_compare_partial b _ _ hg hmin ((fs ++ e₁ :: e₂ :: rest).flatMap Frag.chars)).1
  rw [flat_text] at this ⊢
  apply this
  rw [ht, length_text, List.take_length]
  exact List.prefix_refl _

example : compareView .release [some [(97 : Int)], some [], some []] [97] = .ok 1 ∧
    compareView .release [some [(97 : Int)], some []] [97] = .ok 0 := by decide

end

end Wite.Props
