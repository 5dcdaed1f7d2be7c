import Mathlib.Data.List.Forall2
import Verif.Model.FragmentCalls
import Verif.Props.FragmentString
import Verif.Props.FragmentSearch

/-!
# C204: a fragment string takes text in the forms in which `std::string` takes it
-/

namespace Wite.Props

open Wite Wite.Str Wite.StringCalls Wite.FragmentCalls

/-- The overload that a text of characters `d` finds in a fragment string of characters `c`. -/
private def expected (c : CharTy) : Fn → Form → CharTy → Option ParTy
  | .make, .array, d | .make, .pointer, d | .plus, .array, d | .plus, .pointer, d => if c = d then some (.ptr c) else none
  | .compare, .array, d | .compare, .pointer, d => if d = .char then some (.ptr .char) else none
  | .compare, .string, d => if d = .char then some (.strOf .char) else none
  | .compare, .view, d => if d = .char then some (.viewOf .char) else none
  | .startsWith, .array, d | .startsWith, .pointer, d | .endsWith, .array, d | .endsWith, .pointer, d | .contains, .array, d | .contains, .pointer, d =>
    if c = d then some (.ptr c) else none
  | .startsWith, _, d | .endsWith, _, d | .contains, _, d | .find, _, d => if c = d then some (.viewOf c) else none
  | _, _, _ => none

private theorem chosen_text (c : CharTy) (n : Nat) (f : Fn) (form : Form) (d : CharTy) : chosen c n f (.text form d) = expected c f form d := by
  cases c <;> cases d <;> cases f <;> cases form <;> rfl

/-- C204, exactly which text in the forms of `std::string` is taken: text of the string's own characters in all forms by `starts_with`, `ends_with`,
`contains` and `find`; as array or pointer by the constructor and on the right of `+`; and by `compare` text of narrow characters, whatever the string's
own characters are. -/
theorem c204_exact (c d : CharTy) (n : Nat) (f : Fn) (form : Form) :
    (chosen c n f (.text form d)).isSome = true ↔
      f = .compare ∧ d = .char ∨ c = d ∧ f ∈ [Fn.startsWith, .endsWith, .contains, .find] ∨
      c = d ∧ f ∈ [Fn.make, .plus] ∧ form ∈ [Form.array, .pointer] := by
  rw [chosen_text]
  cases c <;> cases d <;> cases f <;> cases form <;> simp [expected]

/-- C204, exactly which fragment strings and characters are taken. -/
theorem c204_exact_others (c d : CharTy) (n m : Nat) (f : Fn) :
    ((chosen c n f (.frag d m)).isSome = true ↔
      c = d ∧ (f ∈ [Fn.compare, .startsWith, .endsWith, .contains, .plus, .plusLeft] ∨ f = .make ∧ n = m)) ∧
    ((chosen c n f (.chr d)).isSome = true ↔ f ∈ [Fn.startsWith, .endsWith, .contains, .find]) := by
  constructor
  · cases f
    case make =>
      by_cases h : c = d <;> by_cases h' : n = m <;> simp [chosen, best, viable, overloads, conversion, h, h']
    all_goals cases c <;> cases d <;> simp [chosen, best, viable, overloads, conversion]
  · cases c <;> cases d <;> cases f <;> simp [chosen, best, viable, overloads, conversion, Rank.better]

/-- C204, what holds: text of the string's own characters, in every form in which `std::string` takes it, is taken by `starts_with`, `ends_with`,
`contains` and `find`, and by `compare` of narrow strings; and none of them but `compare` takes text of other characters. -/
theorem c204_partial (c d : CharTy) (n : Nat) (f : Fn) (form : Form) :
    (f ∈ [Fn.startsWith, .endsWith, .contains, .find] ∨ f = .compare ∧ c = .char → (chosen c n f (.text form c)).isSome = true) ∧
    (c ≠ d → f ≠ .compare → chosen c n f (.text form d) = none) := by
  refine ⟨fun h => (c204_exact c c n f form).mpr ?_, fun h hf => ?_⟩
  · rcases h with h | ⟨h, h'⟩
    · exact Or.inr (Or.inl ⟨rfl, h⟩)
    · exact Or.inl ⟨h, h'⟩
  · cases hc : chosen c n f (.text form d) with
    | none => rfl
    | some p =>
      have := (c204_exact c d n f form).mp (by rw [hc]; rfl)
      rcases this with ⟨h1, -⟩ | ⟨h1, -⟩ | ⟨h1, -⟩
      · exact absurd h1 hf
      · exact absurd h1 h
      · exact absurd h1 h

/-- C204 is false, exactly: of what `std::string` takes, a fragment string can neither be made of a string or a view nor be joined with a string, no text can
stand on the left of `+`, there is no `==`, and strings of other than narrow characters compare with no text of their own characters. -/
theorem c204_refuted_forms (c : CharTy) (n : Nat) (f : Fn) (form : Form) :
    (stringTakes f (some form) = true ∧ chosen c n f (.text form c) = none) ↔
      f = .make ∧ form ∈ [Form.string, .view] ∨ f = .plus ∧ form = .string ∨ f = .plusLeft ∧ form ≠ .view ∨ f = .equal ∨ f = .compare ∧ c ≠ .char := by
  rw [chosen_text]
  cases c <;> cases f <;> cases form <;> simp [expected, stringTakes]

/-- C204 is false for characters: `+` takes none, and the other functions also take those of every other character type and convert them. -/
theorem c204_refuted_characters (c d : CharTy) (n : Nat) :
    stringTakes .plus none = true ∧ chosen c n .plus (.chr c) = none ∧
    (∀ f ∈ [Fn.startsWith, .endsWith, .contains, .find], chosen c n f (.chr d) = some (.chr c)) := by
  refine ⟨rfl, rfl, fun f hf => ?_⟩
  simp only [List.mem_cons, List.not_mem_nil, or_false] at hf
  rcases hf with rfl | rfl | rfl | rfl <;> cases c <;> cases d <;> rfl

/-- C204 is false for fragment strings: none can be searched for with `find` or compared with `==`, not even with itself. -/
theorem c204_refuted_fragments (c : CharTy) (n m : Nat) : chosen c n .find (.frag c m) = none ∧ chosen c n .equal (.frag c m) = none := by
  cases c <;> exact ⟨rfl, rfl⟩

/-! ## What the calls do -/

/-- The text that an argument stands for: arrays and pointers stand for the characters before the first zero, strings and views for all they have. -/
def StandsFor (t : Text) (s : List Int) : Prop :=
  match t.form with
  | .array | .pointer => (0 : Int) ∉ s ∧ ∃ rest, t.chars = s ++ 0 :: rest
  | .string | .view => t.chars = s

private theorem readCStr_eq {m s rest : List Int} (h0 : (0 : Int) ∉ s) (h : m = s ++ 0 :: rest) : readCStr m = .ok s := by
  subst h
  rw [readCStr, if_pos (by simp), cstr]
  congr 1
  rw [List.takeWhile_append_of_pos (fun a ha => by
    simp only [ne_eq, decide_eq_true_eq]; intro e; exact h0 (e ▸ ha))]
  simp

private theorem seen_eq {c : CharTy} {f : Fn} {d : CharTy} {t : Text} {s : List Int} {p : ParTy} (h : StandsFor t s)
    (hp : expected c f t.form d = some p) : seen p t = .ok s := by
  obtain ⟨form, m⟩ := t
  have hpar : (∃ e, p = .ptr e ∧ (form = .array ∨ form = .pointer)) ∨ (∃ e, p = .viewOf e) ∨ ∃ e, p = .strOf e := by
    cases f <;> cases form <;> simp only [expected] at hp <;> (try split at hp) <;> cases hp <;> simp
  rcases hpar with ⟨e, rfl, rfl | rfl⟩ | ⟨e, rfl⟩ | ⟨e, rfl⟩
  · exact readCStr_eq h.1 h.2.choose_spec
  · exact readCStr_eq h.1 h.2.choose_spec
  · cases form
    · exact readCStr_eq h.1 h.2.choose_spec
    · exact readCStr_eq h.1 h.2.choose_spec
    · exact congrArg Outcome.ok h
    · exact congrArg Outcome.ok h
  · cases form
    · exact readCStr_eq h.1 h.2.choose_spec
    · exact readCStr_eq h.1 h.2.choose_spec
    · exact congrArg Outcome.ok h
    · exact congrArg Outcome.ok h

/-- C204: a text is treated alike in whatever form it is given, if the call compiles. -/
theorem c204_same_text (b : Build) (c d : CharTy) (fs : FragStr Int) (f : Fn) (t u : Text) (s : List Int) (pos : Nat) (ht : StandsFor t s)
    (hu : StandsFor u s) (o o' : Outcome Answer) (h : call b c fs f d t pos = some o) (h' : call b c fs f d u pos = some o') : o = o' := by
  unfold call at h h'
  rw [chosen_text] at h h'
  cases hp : expected c f t.form d with
  | none => rw [hp] at h; cases h
  | some p =>
    cases hq : expected c f u.form d with
    | none => rw [hq] at h'; cases h'
    | some q =>
      rw [hp] at h; rw [hq] at h'
      have e1 := seen_eq ht hp
      have e2 := seen_eq hu hq
      cases f <;> simp only [e1, e2, Option.some.injEq, reduceCtorEq] at h h' <;> rw [← h, ← h']

/-- C204, what the calls give for a text of the string's own characters, in whatever form it is given: that the string starts with it, ends with it or contains it,
where it is found, how it compares, and the string made of it or joined with it.  Only last fragments may be empty. -/
theorem c204_answers_partial (b : Build) (c : CharTy) (fs : FragStr Int) (t : Text) (s : List Int) (pos : Nat) (ht : StandsFor t s) (h0 : fs ≠ [])
    (h : ∀ f ∈ fs.dropLast, f.chars ≠ []) (hsz : length fs < 2 ^ 63) (hs : s.length < 2 ^ 63) :
    call b c fs .startsWith c t pos = some (.ok (.flag (decide (fs.flatMap Frag.chars ≠ [] ∧ s <+: fs.flatMap Frag.chars)))) ∧
    call b c fs .endsWith c t pos = some (.ok (.flag (decide (fs.flatMap Frag.chars ≠ [] ∧ s <:+ fs.flatMap Frag.chars)))) ∧
    (∃ r, call b c fs .contains c t pos = some (.ok (.flag r)) ∧ (r = true ↔ s <:+: fs.flatMap Frag.chars)) ∧
    (pos + s.length < 2 ^ 64 → s ≠ [] ∨ pos ≠ length fs ∨ pos = 0 →
      ∃ r, call b c fs .find c t pos = some (.ok (.position r)) ∧
        (FirstFrom (fs.flatMap Frag.chars) s pos r ∨ (r = npos ∧ ∀ i, pos ≤ i → ¬OccursAt (fs.flatMap Frag.chars) s i))) ∧
    (c = .char → ∃ r, call b c fs .compare c t pos = some (.ok (.sign r)) ∧ SignOf r (fs.flatMap Frag.chars) s) ∧
    (t.form ∈ [Form.array, .pointer] →
      (∃ gs, call b c fs .make c t pos = some (.ok (.string gs)) ∧ gs.flatMap Frag.chars = s) ∧
      ∃ gs, call b c fs .plus c t pos = some (.ok (.string gs)) ∧ gs.flatMap Frag.chars = fs.flatMap Frag.chars ++ s) := by
  have key : ∀ f p, expected c f t.form c = some p → chosen c fs.length f (.text t.form c) = some p ∧ seen p t = .ok s :=
    fun f p hp => ⟨by rw [chosen_text]; exact hp, seen_eq ht hp⟩
  have own : ∀ f ∈ [Fn.startsWith, .endsWith, .contains, .find], ∃ p, expected c f t.form c = some p := by
    intro f hf
    simp only [List.mem_cons, List.not_mem_nil, or_false] at hf
    rcases hf with rfl | rfl | rfl | rfl <;> cases t.form <;> simp [expected]
  refine ⟨?_, ?_, ?_, fun hw he => ?_, fun hc => ?_, fun hf => ⟨?_, ?_⟩⟩
  · obtain ⟨p, hp⟩ := own .startsWith (by simp)
    simp only [call, (key _ _ hp).1, (key _ _ hp).2, Outcome.bind_ok, (c89_starts_partial b fs h0 h hsz).1 s]; rfl
  · obtain ⟨p, hp⟩ := own .endsWith (by simp)
    simp only [call, (key _ _ hp).1, (key _ _ hp).2, Outcome.bind_ok, (c89_ends_partial b fs h0 h hsz).1 s]; rfl
  · obtain ⟨p, hp⟩ := own .contains (by simp)
    obtain ⟨r, h1, h2⟩ := c90_view_partial b fs h0 h hsz s hs
    exact ⟨r, by simp only [call, (key _ _ hp).1, (key _ _ hp).2, Outcome.bind_ok, h1]; rfl, h2⟩
  · obtain ⟨p, hp⟩ := own .find (by simp)
    obtain ⟨r, h1, h2⟩ := c92_partial b fs h0 h hsz s pos hw he
    exact ⟨r, by simp only [call, (key _ _ hp).1, (key _ _ hp).2, Outcome.bind_ok, h1]; rfl, h2⟩
  · obtain ⟨r, h1, h2⟩ := (c88_partial b fs h0 h).1 s
    subst hc
    obtain ⟨p, hp⟩ : ∃ p, expected .char .compare t.form .char = some p := by cases t.form <;> simp [expected]
    have hb : s.map (beside .char) = s := by
      rw [show beside .char = id from funext fun x => rfl, List.map_id]
    exact ⟨r, by simp only [call, (key _ _ hp).1, (key _ _ hp).2, Outcome.bind_ok, hb, h1]; rfl, h2⟩
  · obtain ⟨p, hp⟩ : ∃ p, expected c .make t.form c = some p := by
      simp only [List.mem_cons, List.not_mem_nil, or_false] at hf
      rcases hf with e | e <;> rw [e] <;> simp [expected]
    refine ⟨_, by simp only [call, (key _ _ hp).1, (key _ _ hp).2, Outcome.bind_ok]; rfl, ?_⟩
    simp [defaulted, Frag.chars]
  · obtain ⟨p, hp⟩ : ∃ p, expected c .plus t.form c = some p := by
      simp only [List.mem_cons, List.not_mem_nil, or_false] at hf
      rcases hf with e | e <;> rw [e] <;> simp [expected]
    refine ⟨_, by simp only [call, (key _ _ hp).1, (key _ _ hp).2, Outcome.bind_ok]; rfl, ?_⟩
    simp [concat, Frag.chars]

/-- C204 is false for wide strings: `compare` takes narrow text, and where `char` is signed, a wide character from 128 to 255 compares as greater than the narrow
character of the same code. -/
theorem c204_refuted_wide_compare (b : Build) (v : Int) (h : 128 ≤ v ∧ v < 256) (pos : Nat) :
    (∃ r, call b .wchar [some [v]] .compare .char ⟨.string, [v - 256]⟩ pos = some (.ok (.sign r)) ∧ 0 < r) ∧
    call b .wchar [some [v]] .compare .wchar ⟨.string, [v]⟩ pos = none := by
  refine ⟨?_, rfl⟩
  have hc : call b .wchar [some [v]] .compare .char ⟨.string, [v - 256]⟩ pos = some (compareView b [some [v]] [v - 256] >>= fun r => pure (.sign r)) := rfl
  obtain ⟨r, h1, h2⟩ := (c88_partial b [some [v]] (by simp) (by simp)).1 [v - 256]
  refine ⟨r, by rw [hc, h1]; rfl, h2.2.2.mpr ?_⟩
  exact List.Lex.rel (by omega)

/-- What a narrow character counts as beside characters of type `c`: itself, but a negative one beside `char32_t` as the number above
`2^31` that has the same bits. -/
private def CountsAs (c : CharTy) (x u : Int) : Prop :=
  if c = .char32 ∧ x < 0 then u = x + 2 ^ 32 else u = x

/-- C204, exactly how a fragment string of characters `c` compares with narrow text: as its characters compare with what the narrow ones count as.
Only last fragments may be empty. -/
theorem c204_wide_compare_partial (b : Build) (c : CharTy) (fs : FragStr Int) (t : Text) (s : List Int) (pos : Nat) (ht : StandsFor t s) (h0 : fs ≠ [])
    (h : ∀ f ∈ fs.dropLast, f.chars ≠ []) (hs : ∀ x ∈ s, -128 ≤ x ∧ x < 256) :
    ∃ r us, call b c fs .compare .char t pos = some (.ok (.sign r)) ∧ List.Forall₂ (CountsAs c) s us ∧ SignOf r (fs.flatMap Frag.chars) us := by
  obtain ⟨p, hp⟩ : ∃ p, expected c .compare t.form .char = some p := by cases t.form <;> simp [expected]
  obtain ⟨r, h1, h2⟩ := (c88_partial b fs h0 h).1 (s.map (beside c))
  have k1 : chosen c fs.length .compare (.text t.form .char) = some p := by rw [chosen_text]; exact hp
  refine ⟨r, s.map (beside c), by simp only [call, k1, seen_eq ht hp, Outcome.bind_ok, h1]; rfl, ?_, h2⟩
  clear h1 h2 ht
  induction s with
  | nil => exact .nil
  | cons x xs ih =>
    refine .cons ?_ (ih fun y hy => hs y (by simp [hy]))
    have := hs x (by simp)
    unfold CountsAs beside
    by_cases hc : c = .char32
    · by_cases hx : x < 0
      · rw [if_pos ⟨hc, hx⟩, if_pos hc]; omega
      · rw [if_neg (fun h => hx h.2), if_pos hc]; omega
    · rw [if_neg (fun h => hc h.1), if_neg hc]

/-- C204 is false for strings of `char32_t` too: where `char` is signed, every character below `2^31` compares as less than every narrow character
above 127. -/
theorem c204_refuted_char32_compare (b : Build) (u v : Int) (hu : 0 ≤ u ∧ u < 2 ^ 31) (hv : 128 ≤ v ∧ v < 256) (pos : Nat) :
    ∃ r, call b .char32 [some [u]] .compare .char ⟨.string, [v - 256]⟩ pos = some (.ok (.sign r)) ∧ r < 0 := by
  have hc : call b .char32 [some [u]] .compare .char ⟨.string, [v - 256]⟩ pos =
      some (compareView b [some [u]] [(v - 256) % 2 ^ 32] >>= fun r => pure (.sign r)) := rfl
  obtain ⟨r, h1, h2⟩ := (c88_partial b [some [u]] (by simp) (by simp)).1 [(v - 256) % 2 ^ 32]
  refine ⟨r, by rw [hc, h1]; rfl, h2.1.mpr ?_⟩
  exact List.Lex.rel (by omega)

/-! ## Examples -/

private def hello : FragStr Int := [some [104, 101], some [108, 108, 111]]

example : call .debug .char hello .startsWith .char ⟨.array, [104, 101, 108, 0]⟩ 0 = some (.ok (.flag true)) := by decide
example : call .debug .char hello .startsWith .char ⟨.pointer, [104, 101, 108, 0, 120]⟩ 0 = some (.ok (.flag true)) := by decide
example : call .debug .char hello .startsWith .char ⟨.view, [104, 101, 108]⟩ 0 = some (.ok (.flag true)) := by decide
example : call .debug .char hello .startsWith .char ⟨.view, [104, 101, 108, 0]⟩ 0 = some (.ok (.flag false)) := by decide
example : call .debug .char hello .startsWith .char ⟨.array, [104, 101, 108]⟩ 0 = some .ub := by decide
example : call .debug .char hello .plus .char ⟨.array, [33, 0]⟩ 0 = some (.ok (.string [some [104, 101], some [108, 108, 111], some [33]])) := by decide
example : call .debug .char hello .plus .char ⟨.string, [33]⟩ 0 = none := by decide
example : chosen .wchar 3 .compare (.text .string .char) = some (.strOf .char) := by decide
example : chosen .wchar 3 .compare (.text .string .wchar) = none := by decide
example : chosen .char 2 .contains (.chr .char32) = some (.chr .char) := by decide
example : chosen .char 2 .find (.frag .char 1) = none := by decide
example : chosen .char 2 .make (.frag .char 1) = none ∧ chosen .char 2 .make (.frag .char 2) = some (.sameFrag .char 2) := by decide
example : call .debug .char hello .compare .char ⟨.view, [104, 101, 108, 108, 112]⟩ 0 = some (.ok (.sign (-1))) := by decide
example : call .debug .wchar [some [228]] .compare .char ⟨.string, [-28]⟩ 0 = some (.ok (.sign 1)) := by decide
example : call .debug .char32 [some [228]] .compare .char ⟨.string, [-28]⟩ 0 = some (.ok (.sign (-1))) := by decide
example : call .debug .char hello .find .char ⟨.pointer, [108, 0]⟩ 3 = some (.ok (.position 3)) := by decide
example : StandsFor ⟨.pointer, [104, 101, 108, 0, 120]⟩ [104, 101, 108] := ⟨by decide, [120], rfl⟩

end Wite.Props
