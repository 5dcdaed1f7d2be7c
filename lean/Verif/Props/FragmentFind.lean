import Verif.Props.FragmentTwo
import Verif.Props.FragmentSearch

/-!
# C178 for `find` and `contains`

`find` compares the sought string with the text at one offset after another, and moves two iterators from one to the next, one at
the offset and one behind the part that is compared.  An empty fragment stops the comparison or one of the iterators.
-/

namespace Wite.Props

open Wite Wite.Str

variable {C : Type}

private theorem flat_text (fs : FragStr C) : fs.flatMap Frag.chars = text fs := by
  induction fs with
  | nil => rfl
  | cons f fs ih => rw [List.flatMap_cons, ih]; rfl

private theorem occurs_prefix {t s : List C} {r : Nat} (h : r ≤ t.length) : OccursAt t s r ↔ s <+: t.drop r := by
  constructor
  · rintro ⟨x, y, rfl, rfl⟩
    rw [List.append_assoc, List.drop_left]
    exact List.prefix_append _ _
  · rintro ⟨y, hy⟩
    exact ⟨t.take r, y, by rw [List.append_assoc, hy, List.take_append_drop], by rw [List.length_take]; omega⟩

private theorem occurs_bound {t s : List C} {r : Nat} (h : OccursAt t s r) : r + s.length ≤ t.length := by
  obtain ⟨x, y, rfl, rfl⟩ := h
  simp

private theorem least {P : Nat → Prop} (h : ∃ n, P n) : ∃ n, P n ∧ ∀ o, o < n → ¬P o := by
  classical
  exact ⟨Nat.find h, Nat.find_spec h, fun o ho => Nat.find_min h ho⟩

section
variable [DecidableEq C]

/-- C178, `find` of a string that is not empty, from a position that leaves room for it.  The empty fragments that count are those
before the last fragment and behind `pos`; those at `pos` count only if `pos` is 0.

* Without any, the result is the first occurrence, or `npos`.
* If the first of them, at `g`, leaves room for the string between `pos` and `g`, the result is the first occurrence that ends by
  `g`, and if there is none the behaviour is undefined in every build.
* If it does not, let `r` be the first offset at which the text up to `g` agrees with the string.  If another empty fragment stands
  at the end of the part compared at an earlier offset, the behaviour is undefined in every build.  Otherwise the program is ended
  or undefined if there is room for the string at `r`, and the result is `npos` if there is not. -/
theorem c178_find_partial (b : Build) (fs : FragStr C) (hsz : length fs < 2 ^ 63) (s : List C) (hs : s ≠ []) (pos : Nat)
    (hp : pos + s.length ≤ length fs) :
    ((∀ o, GapAt fs o → ¬(pos < o ∨ pos = 0)) → ∃ r, findView b fs s pos = .ok r ∧
      (FirstFrom (fs.flatMap Frag.chars) s pos r ∨ (r = npos ∧ ∀ i, pos ≤ i → ¬OccursAt (fs.flatMap Frag.chars) s i))) ∧
    (∀ g, GapAt fs g → (pos < g ∨ pos = 0) → (∀ o, GapAt fs o → (pos < o ∨ pos = 0) → g ≤ o) →
      (pos + s.length ≤ g →
        (∀ r, FirstFrom (fs.flatMap Frag.chars) s pos r → r + s.length ≤ g → findView b fs s pos = .ok r) ∧
        ((∀ r, pos ≤ r → r + s.length ≤ g → ¬OccursAt (fs.flatMap Frag.chars) s r) → findView b fs s pos = .ub)) ∧
      (g < pos + s.length → ∀ r, pos ≤ r → r ≤ g →
        s.take (g - r) = ((fs.flatMap Frag.chars).take g).drop r →
        (∀ k, pos ≤ k → k < r → s.take (g - k) ≠ ((fs.flatMap Frag.chars).take g).drop k) →
        ((∃ o, pos + s.length ≤ o ∧ o < r + s.length ∧ GapAt fs o) → findView b fs s pos = .ub) ∧
        ((∀ o, pos + s.length ≤ o → o < r + s.length → ¬GapAt fs o) →
          (r + s.length ≤ length fs → findView b fs s pos = (match b with | .release => .ub | _ => .terminate)) ∧
          (length fs < r + s.length → findView b fs s pos = .ok npos)))) := by
  have hsl := List.length_pos_iff.mpr hs
  have hl := length_text fs
  rw [flat_text]
  have rounds := findView_rounds b fs hsz s hs pos
  -- a window without bad places
  have clear : ∀ k, k + s.length ≤ length fs → (∀ o, k ≤ o → o < k + s.length → ¬Ahead fs pos o) →
      (Hit (Ahead fs pos) (text fs) s k ↔ OccursAt (text fs) s k) ∧ ¬Stuck (Ahead fs pos) (text fs) s k := by
    intro k hk hc
    rw [occurs_prefix (by omega), Hit]
    refine ⟨⟨fun h => h.2, fun h => ⟨hc, h⟩⟩, ?_⟩
    rintro ⟨g, h1, h2, h3, -⟩
    exact hc g h1 h2 h3
  refine ⟨fun hno => ?_, fun g hg hgp hmin => ⟨fun hroom => ⟨fun r hr hrg => ?_, fun hno => ?_⟩, fun hroom r h1 h2 h3 h4 => ?_⟩⟩
  · have hc : ∀ o, ¬Ahead fs pos o := fun o ho => hno o ho.1 ho.2
    by_cases hex : ∃ r, pos ≤ r ∧ OccursAt (text fs) s r
    · obtain ⟨r, ⟨hr1, hr2⟩, hr3⟩ := least hex
      have hb := occurs_bound hr2
      refine ⟨r, (rounds r hr1 (by omega) fun k hk1 hk2 => ?_).1 ((clear r (by omega) fun o _ _ => hc o).1.2 hr2), .inl
        ⟨hr1, hr2, fun k hk1 hk2 ho => hr3 k hk2 ⟨hk1, ho⟩⟩⟩
      obtain ⟨c1, c2⟩ := clear k (by omega) fun o _ _ => hc o
      exact ⟨fun h => hr3 k hk2 ⟨hk1, c1.1 h⟩, c2, hc _⟩
    · have hn : ∀ k, pos ≤ k → ¬OccursAt (text fs) s k := fun k hk ho => hex ⟨k, hk, ho⟩
      refine ⟨npos, ?_, .inr ⟨rfl, hn⟩⟩
      have miss : ∀ k, pos ≤ k → k + s.length ≤ length fs → ¬Hit (Ahead fs pos) (text fs) s k ∧ ¬Stuck (Ahead fs pos) (text fs) s k := by
        intro k hk1 hk2
        obtain ⟨c1, c2⟩ := clear k hk2 fun o _ _ => hc o
        exact ⟨fun h => hn k hk1 (c1.1 h), c2⟩
      obtain ⟨m1, m2⟩ := miss (length fs - s.length) (by omega) (by omega)
      exact ((rounds (length fs - s.length) (by omega) (by omega) fun k hk1 hk2 =>
        ⟨(miss k hk1 (by omega)).1, (miss k hk1 (by omega)).2, hc _⟩).2.2 m1 m2).2 (hc _) (by omega)
  · have hgl := hg.le
    have hc : ∀ o, o < g → ¬Ahead fs pos o := fun o ho ha => by have := hmin o ha.1 ha.2; omega
    obtain ⟨hr1, hr2, hr3⟩ := hr
    refine (rounds r hr1 (by omega) fun k hk1 hk2 => ?_).1 ((clear r (by omega) fun o _ _ => hc o (by omega)).1.2 hr2)
    obtain ⟨c1, c2⟩ := clear k (by omega) fun o _ _ => hc o (by omega)
    exact ⟨fun h => hr3 k hk1 hk2 (c1.1 h), c2, hc _ (by omega)⟩
  · have hgl := hg.le
    have hc : ∀ o, o < g → ¬Ahead fs pos o := fun o ho ha => by have := hmin o ha.1 ha.2; omega
    have miss : ∀ k, pos ≤ k → k + s.length ≤ g → ¬Hit (Ahead fs pos) (text fs) s k ∧ ¬Stuck (Ahead fs pos) (text fs) s k := by
      intro k hk1 hk2
      obtain ⟨c1, c2⟩ := clear k (by omega) fun o _ _ => hc o (by omega)
      exact ⟨fun h => hno k hk1 hk2 (c1.1 h), c2⟩
    obtain ⟨m1, m2⟩ := miss (g - s.length) (by omega) (by omega)
    refine ((rounds (g - s.length) (by omega) (by omega) fun k hk1 hk2 =>
      ⟨(miss k hk1 (by omega)).1, (miss k hk1 (by omega)).2, hc _ (by omega)⟩).2.2 m1 m2).1 ?_
    rw [show g - s.length + s.length = g by omega]
    exact ⟨hg, hgp⟩
  · have hc : ∀ o, o < g → ¬Ahead fs pos o := fun o ho ha => by have := hmin o ha.1 ha.2; omega
    have tk : ∀ k, ((text fs).drop k).take (g - k) = ((text fs).take g).drop k := fun k => by rw [List.drop_take]
    have miss : ∀ k, pos ≤ k → k < r → ¬Hit (Ahead fs pos) (text fs) s k ∧ ¬Stuck (Ahead fs pos) (text fs) s k := by
      intro k hk1 hk2
      refine ⟨fun h => h.1 g (by omega) (by omega) ⟨hg, hgp⟩, ?_⟩
      rintro ⟨g', a1, a2, a3, a4, a5⟩
      have : g' = g := by
        by_contra hne
        have := hmin g' a3.1 a3.2
        exact a4 g (by omega) (by omega) ⟨hg, hgp⟩
      subst this
      rw [tk] at a5
      exact h4 k hk1 hk2 a5
    have ahead : ∀ o, pos + s.length ≤ o → (Ahead fs pos o ↔ GapAt fs o) :=
      fun o ho => ⟨fun h => h.1, fun h => ⟨h, .inl (by omega)⟩⟩
    refine ⟨fun hex => ?_, fun hno => ⟨fun hr => ?_, fun hr => ?_⟩⟩
    · obtain ⟨o, ⟨o1, o2, o3⟩, o4⟩ := least hex
      have hol := o3.le
      obtain ⟨m1, m2⟩ := miss (o - s.length) (by omega) (by omega)
      refine ((rounds (o - s.length) (by omega) (by omega) fun k hk1 hk2 =>
        ⟨(miss k hk1 (by omega)).1, (miss k hk1 (by omega)).2, fun ha => o4 (k + s.length) (by omega) ⟨by omega, by omega, ha.1⟩⟩).2.2
        m1 m2).1 ?_
      rw [show o - s.length + s.length = o by omega]
      exact (ahead o o1).2 o3
    · refine (rounds r h1 hr fun k hk1 hk2 => ⟨(miss k hk1 hk2).1, (miss k hk1 hk2).2, fun ha => hno _ (by omega) (by omega) ha.1⟩).2.1
        ⟨g, h2, by omega, ⟨hg, hgp⟩, fun o _ ho => hc o ho, ?_⟩
      rw [tk]; exact h3
    · obtain ⟨m1, m2⟩ := miss (length fs - s.length) (by omega) (by omega)
      exact ((rounds (length fs - s.length) (by omega) (by omega) fun k hk1 hk2 =>
        ⟨(miss k hk1 (by omega)).1, (miss k hk1 (by omega)).2, fun ha => hno _ (by omega) (by omega) ha.1⟩).2.2 m1 m2).2
        (fun ha => hno _ (by omega) (by omega) ha.1) (by omega)

/-- C178, `find` of the empty string: the position itself, whatever the fragments. -/
theorem c178_find_empty (b : Build) (fs : FragStr C) (h0 : fs ≠ []) (hsz : length fs < 2 ^ 63) (pos : Nat) (hp : pos < length fs ∨ pos = 0) :
    findView b fs [] pos = .ok pos := by
  obtain ⟨l, e2, h2⟩ := end_at h0
  obtain ⟨⟨i, c⟩, e⟩ : ∃ x, seekFragment fs pos = .ok x := by
    by_cases hz : pos = 0
    · exact ⟨(0, 0), by rw [seekFragment, if_pos hz]⟩
    · obtain ⟨i, hi, e, h3, h4⟩ := seekFragment_ok hz (hp.resolve_right hz)
      exact ⟨_, e⟩
  have hpl : plus b fs ⟨i, pos - c⟩ (toDiff ([] : List C).length) = .ok ⟨i, pos - c⟩ := by
    rw [List.length_nil, toDiff_small (by omega), plus, seek, if_neg (by simp), negDiff, if_neg (by omega), Outcome.bind_ok]
    have : (-((0 : Nat) : Int)).toNat = 0 := by simp
    rw [this]
    cases i <;> rw [seekBackward, if_pos (Nat.zero_le _)] <;> rfl
  rw [findView, if_neg (by rw [List.length_nil, Nat.add_zero, Nat.mod_eq_of_lt (by omega)]; omega), if_neg (by simp), e2,
    Outcome.bind_ok, e, Outcome.bind_ok]
  simp only
  rw [hpl, Outcome.bind_ok, findLoop, stdEqual]
  have d1 : (view ([] : List C)).diff ([] : List C).length 0 = 0 := rfl
  have d2 : (fwd b fs).diff ⟨i, pos - c⟩ ⟨i, pos - c⟩ = 0 := by
    show diff fs ⟨i, pos - c⟩ ⟨i, pos - c⟩ = 0
    rw [diff, if_neg (Nat.lt_irrefl _), if_neg (Nat.lt_irrefl _), Int.sub_self]
  rw [d1, d2, if_pos rfl]
  rfl

/-- C178 fails for `find` of one character as a string: if that character does not stand before the first empty fragment then, with
some characters before that fragment, the behaviour is undefined in every build, and with none the program is ended or undefined.
`find` of the character itself always gives its first place. -/
theorem c178_refuted_find (b : Build) (fs : FragStr C) (hsz : length fs < 2 ^ 63) (hpos : 0 < length fs) (g : Nat) (hg : GapAt fs g)
    (hmin : ∀ o, o < g → ¬GapAt fs o) (c : C) (hc : c ∉ (fs.flatMap Frag.chars).take g) :
    (0 < g → findView b fs [c] 0 = .ub) ∧
    (g = 0 → findView b fs [c] 0 = (match b with | .release => .ub | _ => .terminate)) ∧
    ∃ r, findChar fs c 0 = .ok r ∧
      (((fs.flatMap Frag.chars)[r]? = some c ∧ ∀ k, k < r → (fs.flatMap Frag.chars)[k]? ≠ some c) ∨
        (r = npos ∧ c ∉ fs.flatMap Frag.chars)) := by
  obtain ⟨-, h2⟩ := c178_find_partial b fs hsz [c] (by simp) 0 (by simp only [List.length_singleton]; omega)
  obtain ⟨k1, k2⟩ := h2 g hg (.inr rfl) fun o ho _ => by
    by_contra hlt
    exact hmin o (by omega) ho
  refine ⟨fun h => (k1 (by simp only [List.length_singleton]; omega)).2 ?_, fun h => ?_, ?_⟩
  · rintro r - hr ⟨x, y, hxy, rfl⟩
    rw [List.length_singleton] at hr
    refine hc ?_
    rw [hxy, List.append_assoc]
    refine List.mem_take_iff_getElem.mpr ⟨x.length, ?_, by simp⟩
    simp; omega
  · subst h
    exact ((k2 (by simp) 0 (le_refl _) (le_refl _) (by simp) (fun k _ hk => by omega)).2 (fun o h1 h2 => by
      simp only [List.length_singleton] at h1 h2; omega)).1 (by simp only [List.length_singleton]; omega)
  · exact (c91_default fs c)

example : findView .release [some [(97 : Int), 98], some [], some [99]] [98] 0 = .ok 1 ∧
    findView .debug [some [(97 : Int), 98], some [], some [99]] [99] 0 = .ub ∧
    findView .debug [some [(97 : Int), 98], some [], some [99]] [99] 2 = .ok 2 ∧
    findView .debug [some [(97 : Int), 98], some [], some [99]] [98, 99] 1 = .terminate ∧
    findView .debug [some [(97 : Int), 98], some [], some [99, 100]] [99, 100, 100] 1 = .ok npos ∧
    findView .debug [some [(97 : Int)], some [], some [98], some [], some [99]] [98, 99] 0 = .ub ∧
    findView .debug [some [], some [(97 : Int)], some [98]] [98] 0 = .terminate ∧
    findChar [some [(97 : Int), 98], some [], some [99]] 99 0 = .ok 2 := by decide

/-- C178, `contains` of a string: if no empty fragment stands before the last, whether the string occurs.  Otherwise, if the first of
them, at `g`, leaves room for the string before it, `true` if the string occurs before `g` and undefined in every build if it does
not.  (With less room, see `c178_find_partial`: `contains` asks `find` and compares its result with `npos`.) -/
theorem c178_contains_partial (b : Build) (fs : FragStr C) (hsz : length fs < 2 ^ 63) (s : List C) (hs : s ≠ []) (hp : s.length ≤ length fs) :
    ((∀ o, ¬GapAt fs o) → containsView b fs s = .ok (decide (s <:+: fs.flatMap Frag.chars))) ∧
    (∀ g, GapAt fs g → (∀ o, o < g → ¬GapAt fs o) → s.length ≤ g →
      (s <:+: (fs.flatMap Frag.chars).take g → containsView b fs s = .ok true) ∧
      (¬s <:+: (fs.flatMap Frag.chars).take g → containsView b fs s = .ub)) := by
  have hl := length_text fs
  obtain ⟨h1, h2⟩ := c178_find_partial b fs hsz s hs 0 (by omega)
  rw [flat_text] at h1 h2 ⊢
  have infix_iff : ∀ (t : List C), s <:+: t ↔ ∃ r, OccursAt t s r := by
    intro t
    constructor
    · rintro ⟨x, y, h⟩; exact ⟨x.length, x, y, h.symm, rfl⟩
    · rintro ⟨r, x, y, h, -⟩; exact ⟨x, y, h.symm⟩
  have hnp : ∀ r, r + s.length ≤ length fs → decide (npos ≠ r) = true := by
    intro r hr
    rw [decide_eq_true_eq, npos]; omega
  refine ⟨fun hno => ?_, fun g hg hmin hroom => ?_⟩
  · obtain ⟨r, e, h⟩ := h1 fun o ho => absurd ho (hno o)
    rw [containsView, e, Outcome.bind_ok]
    rcases h with ⟨-, h, -⟩ | ⟨rfl, h⟩
    · have := occurs_bound h
      rw [hnp r (by omega), decide_eq_true ((infix_iff _).2 ⟨r, h⟩)]; rfl
    · rw [decide_eq_false (p := s <:+: text fs) (fun hi => by obtain ⟨r, hr⟩ := (infix_iff _).1 hi; exact h r (Nat.zero_le _) hr)]
      rfl
  · have hgl := hg.le
    obtain ⟨k1, -⟩ := h2 g hg (.inr rfl) fun o ho _ => by
      by_contra hlt
      exact hmin o (by omega) ho
    obtain ⟨k2, k3⟩ := k1 (by omega)
    have hoc : ∀ r, r + s.length ≤ g → (OccursAt ((text fs).take g) s r ↔ OccursAt (text fs) s r) := by
      intro r hr
      rw [occurs_prefix (by rw [List.length_take]; omega), occurs_prefix (by omega), List.drop_take]
      exact List.prefix_take_iff.trans ⟨fun h => h.1, fun h => ⟨h, by omega⟩⟩
    constructor
    · intro hi
      obtain ⟨r, ⟨-, h3⟩, h4⟩ := least (P := fun r => 0 ≤ r ∧ OccursAt ((text fs).take g) s r) (by
        obtain ⟨r, hr⟩ := (infix_iff _).1 hi; exact ⟨r, Nat.zero_le _, hr⟩)
      have hb := occurs_bound h3
      rw [List.length_take] at hb
      rw [containsView, k2 r ⟨Nat.zero_le _, (hoc r (by omega)).1 h3, fun k _ hk ho => h4 k hk ⟨Nat.zero_le _, (hoc k (by omega)).2 ho⟩⟩
        (by omega), Outcome.bind_ok, hnp r (by omega)]
      rfl
    · intro hi
      rw [containsView, k3 fun r _ hr ho => hi ((infix_iff _).2 ⟨r, (hoc r hr).2 ho⟩)]
      rfl

/-! ## Containing a fragment string -/

/-- The comparison of the text of `gs` with that of `fs` from offset `r` on cannot go on at offset `o` of `gs`. -/
def FsBad (fs gs : FragStr C) (r o : Nat) : Prop := GapAt gs o ∨ (o < length gs ∧ GapAt fs (r + o))

/-- `gs` occurs at offset `r` and nothing is in the way. -/
def FsFound (fs gs : FragStr C) (r : Nat) : Prop :=
  (∀ o, ¬FsBad fs gs r o) ∧ OccursAt (fs.flatMap Frag.chars) (gs.flatMap Frag.chars) r

/-- `gs` agrees with what stands at offset `r` up to the first thing in the way. -/
def FsStuck (fs gs : FragStr C) (r : Nat) : Prop :=
  ∃ g, FsBad fs gs r g ∧ (∀ o, o < g → ¬FsBad fs gs r o) ∧
    (gs.flatMap Frag.chars).take g = ((fs.flatMap Frag.chars).drop r).take g

private theorem containsLoop_rounds (b : Build) (fs gs : FragStr C) (hsz : length fs < 2 ^ 63) (hg0 : gs ≠ [])
    (hle : length gs ≤ length fs) {l e : It} (el : end' gs = .ok l) (he : On fs e (length fs - length gs)) :
    ∀ (n : Nat) (it : It) (p : Nat), On fs it p → p ≤ length fs - length gs → p + n = length fs →
      (∀ r, p ≤ r → r + length gs < length fs → (∀ k, p ≤ k → k < r → ¬FsFound fs gs k ∧ ¬FsStuck fs gs k) →
        (FsFound fs gs r → containsLoop b fs gs ⟨0, 0⟩ l e n it = .ok true) ∧
        (FsStuck fs gs r → containsLoop b fs gs ⟨0, 0⟩ l e n it = badStar b)) ∧
      ((∀ r, p ≤ r → r + length gs < length fs → ¬FsFound fs gs r ∧ ¬FsStuck fs gs r) →
        containsLoop b fs gs ⟨0, 0⟩ l e n it = .ok false) := by
  have hlg := length_text gs
  have hlf := length_text fs
  intro n
  induction n with
  | zero => intro it p _ _ hn; exact ⟨fun r h1 h2 => by omega, fun _ => rfl⟩
  | succ n ih =>
    intro it p hi hp hn
    rw [containsLoop]
    by_cases hend : p = length fs - length gs
    · rw [if_pos ((hi.eq_iff he).2 hend)]
      exact ⟨fun r h1 h2 => by omega, fun _ => rfl⟩
    · rw [if_neg (fun h => hend ((hi.eq_iff he).1 h))]
      obtain ⟨stop, es, hst⟩ := hi.plusFrom b (n := length gs) (by omega) hsz
      rw [es, Outcome.bind_ok]
      obtain ⟨c1, c2⟩ := round_fs b hg0 el hi hst
      have found : FsFound fs gs p → stdEqual (fwd b gs) (fwd b fs) ⟨0, 0⟩ l it stop = .ok true := by
        rintro ⟨h1, h2⟩
        rw [flat_text, flat_text, occurs_prefix (by omega)] at h2
        rw [c1 h1, decide_eq_true h2]
      have stuck : FsStuck fs gs p → stdEqual (fwd b gs) (fwd b fs) ⟨0, 0⟩ l it stop = badStar b := by
        rintro ⟨g, h1, h2, h3⟩
        rw [flat_text, flat_text] at h3
        exact (c2 g h1 h2).1 h3
      have miss : ¬FsFound fs gs p → ¬FsStuck fs gs p → stdEqual (fwd b gs) (fwd b fs) ⟨0, 0⟩ l it stop = .ok false ∧ ¬GapAt fs p := by
        intro h1 h2
        have hno : ¬FsBad fs gs p 0 := fun hb => h2 ⟨0, hb, fun o ho => by omega, by simp⟩
        have hpos : ¬GapAt fs p := by
          intro hg
          by_cases hz : length gs = 0
          · refine h1 ⟨fun o ho => ?_, ?_⟩
            · have : o = 0 := by
                rcases ho with ho | ho
                · have := ho.le; omega
                · omega
              exact hno (this ▸ ho)
            · rw [flat_text, flat_text, occurs_prefix (by omega), List.length_eq_zero_iff.mp (by omega : (text gs).length = 0)]
              exact List.nil_prefix
          · exact hno (.inr ⟨by omega, hg⟩)
        refine ⟨?_, hpos⟩
        by_cases hb : ∃ g, FsBad fs gs p g
        · obtain ⟨g, hg1, hg2⟩ := least hb
          refine (c2 g hg1 hg2).2 fun h3 => h2 ⟨g, hg1, hg2, ?_⟩
          rw [flat_text, flat_text]; exact h3
        · have hb' : ∀ o, ¬FsBad fs gs p o := fun o ho => hb ⟨o, ho⟩
          rw [c1 hb']
          have : ¬text gs <+: (text fs).drop p := fun h3 => h1 ⟨hb', by
            rw [flat_text, flat_text, occurs_prefix (by omega)]; exact h3⟩
          rw [decide_eq_false this]
      have step : ¬FsFound fs gs p → ¬FsStuck fs gs p → ∃ i', On fs i' (p + 1) ∧
          (do
            let same ← stdEqual (fwd b gs) (fwd b fs) ⟨0, 0⟩ l it stop
            if same then pure true
            else do
              let it' ← incr b fs it
              containsLoop b fs gs ⟨0, 0⟩ l e n it') = containsLoop b fs gs ⟨0, 0⟩ l e n i' := by
        intro h1 h2
        obtain ⟨m1, m2⟩ := miss h1 h2
        obtain ⟨i', ei, hi'⟩ := hi.incr b m2 (by omega)
        refine ⟨i', hi', ?_⟩
        rw [m1, Outcome.bind_ok, if_neg (by simp), ei, Outcome.bind_ok]
      constructor
      · intro r h1 h2 h3
        by_cases hrp : r = p
        · subst hrp
          exact ⟨fun h => by rw [found h, Outcome.bind_ok, if_pos rfl]; rfl, fun h => by rw [stuck h, badStar_bind]⟩
        · obtain ⟨m1, m2⟩ := h3 p (le_refl _) (by omega)
          obtain ⟨i', hi', ei⟩ := step m1 m2
          rw [ei]
          exact (ih i' (p + 1) hi' (by omega) (by omega)).1 r (by omega) h2 (fun k h4 h5 => h3 k (by omega) h5)
      · intro h
        obtain ⟨m1, m2⟩ := h p (le_refl _) (by omega)
        obtain ⟨i', hi', ei⟩ := step m1 m2
        rw [ei]
        exact (ih i' (p + 1) hi' (by omega) (by omega)).2 (fun r h1 h2 => h r (by omega) h2)

/-- C178, `contains` of a fragment string that is no longer than this one: the offsets are tried one after another, the last one,
`length() - other.length()`, left out.  The first at which the argument stands gives `true`; if the comparison comes to an empty
fragment of either string before that, the program is ended or undefined; without either the answer is `false`. -/
theorem c178_contains_fs_partial (b : Build) (fs gs : FragStr C) (hsz : length fs < 2 ^ 63) (h0 : fs ≠ []) (hg0 : gs ≠ [])
    (hle : length gs ≤ length fs) :
    (∀ r, r + length gs < length fs → (∀ k, k < r → ¬FsFound fs gs k ∧ ¬FsStuck fs gs k) →
      (FsFound fs gs r → containsFs b fs gs = .ok true) ∧
      (FsStuck fs gs r → containsFs b fs gs = (match b with | .release => .ub | _ => .terminate))) ∧
    ((∀ r, r + length gs < length fs → ¬FsFound fs gs r ∧ ¬FsStuck fs gs r) → containsFs b fs gs = .ok false) := by
  obtain ⟨l, el, -⟩ := end_at hg0
  obtain ⟨e, ee, he⟩ := On.plus h0 b (p := length fs - length gs) (by omega) hsz
  have ec : containsFs b fs gs = noexcept (containsLoop b fs gs ⟨0, 0⟩ l e (length fs) ⟨0, 0⟩) := by
    rw [containsFs, if_neg (by omega), (On.begin hg0).1, Outcome.bind_ok, el, Outcome.bind_ok, (On.begin h0).1, Outcome.bind_ok, ee,
      Outcome.bind_ok]
  obtain ⟨k1, k2⟩ := containsLoop_rounds b fs gs hsz hg0 hle el he (length fs) ⟨0, 0⟩ 0 (On.begin h0).2 (by omega) (by omega)
  rw [ec]
  refine ⟨fun r h1 h2 => ?_, fun h => by rw [k2 fun r _ => h r]; rfl⟩
  obtain ⟨j1, j2⟩ := k1 r (by omega) h1 (fun k _ => h2 k)
  exact ⟨fun h => by rw [j1 h]; rfl, fun h => by rw [j2 h]; cases b <;> rfl⟩

example : containsFs .release [some [(97 : Int)], some [98], some [], some [99]] [some [97, 98]] = .ok true ∧
    containsFs .debug [some [(97 : Int)], some [98], some [], some [99, 100]] [some [98, 99]] = .terminate ∧
    containsFs .release [some [(97 : Int)], some [98], some [99, 100]] [some [98], some [], some [99]] = .ub ∧
    containsFs .release [some [(97 : Int)], some [98], some [99]] [some [100], some [], some [99]] = .ok false ∧
    containsFs .debug [some [(97 : Int)], some [98], some [], some [99, 100]] [some [100]] = .terminate ∧
    containsView .debug [some [(97 : Int), 98], some [], some [99]] [97, 98] = .ok true := by decide

end

end Wite.Props
