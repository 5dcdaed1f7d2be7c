import Mathlib.Data.Nat.Find
import Mathlib.Logic.Basic
import Verif.Lemmas.FragmentString

/-! # Lemmas about fragment strings: the loops of the member functions, and irregular strings -/

namespace Wite.Str

variable {C : Type}

/-! ## Seeking outside the string -/

theorem seekForward_beyond (b : Build) :
    ∀ (rest : FragStr C) (i cur off : Nat), (∀ s ∈ rest.head?, cur ≤ s.chars.length) → rest ≠ [] →
      length rest < cur + off →
      seekForward b i rest cur off = match b with
        | .debug => .throw (.assertion "fragment_string::_seek_forward: trying to seek beyond end of range")
        | .aborting => .terminate
        | .release => .diverge := by
  intro rest
  induction rest with
  | nil => intro i cur off _ h _; exact absurd rfl h
  | cons s rest ih =>
    intro i cur off hc _ hl
    have hcs := hc s rfl
    rw [length] at hl
    cases rest with
    | nil =>
      rw [length] at hl
      rw [Str.seekForward, if_neg (by omega)]
      simp only
      rw [if_neg (by omega)]
      cases b with
      | debug =>
        have : decide (off = s.chars.length - cur) = false := by simp; omega
        simp [debugAssert, this]
      | aborting =>
        have : decide (off = s.chars.length - cur) = false := by simp; omega
        simp [debugAssert, this]
      | release => simp only [debugAssert, Outcome.bind_ok]; rw [if_neg (by omega)]
    | cons t rest =>
      rw [Str.seekForward, if_neg (by omega)]
      simp only
      rw [if_neg (by omega)]
      exact ih (i + 1) 0 _ (fun _ _ => Nat.zero_le _) (by simp) (by omega)

theorem seekBackward_beyond (b : Build) (fs : FragStr C) :
    ∀ (i cur off : Nat), i < fs.length → length (fs.take i) + cur < off →
      seekBackward b fs i cur off = match b with
        | .debug => .throw (.assertion "fragment_string::_seek_backward: trying to seek to before start of range")
        | .aborting => .terminate
        | .release => .ub := by
  intro i
  induction i with
  | zero =>
    intro cur off _ h
    rw [Str.seekBackward, if_neg (by omega)]
    cases b <;> rfl
  | succ i ih =>
    intro cur off hi h
    have ht : fs[i]? = some (fs[i]) := List.getElem?_eq_getElem (by omega)
    have h1 := length_take_succ ht
    rw [Str.seekBackward, if_neg (by omega), fragAt_of ht, Outcome.bind_ok]
    exact ih _ _ (by omega) (by omega)

/-! ## Iterating over a string with empty fragments -/

/-- Fragment `j` is empty and not the last. -/
def Gap (fs : FragStr C) (j : Nat) : Prop := j + 1 < fs.length ∧ ∃ s, fs[j]? = some s ∧ s.chars = []

theorem irregular_gap {fs : FragStr C} (hne : fs ≠ []) (h : ¬Regular fs) : ∃ j, Gap fs j := by
  have : ¬∀ f ∈ fs.dropLast, f.chars ≠ [] := fun hh => h ⟨hne, hh⟩
  simp only [ne_eq, not_forall, Decidable.not_not] at this
  obtain ⟨f, hf, he⟩ := this
  obtain ⟨j, hj⟩ := List.mem_iff_getElem?.mp hf
  rw [List.getElem?_dropLast] at hj
  split at hj
  · exact ⟨j, by omega, f, hj, he⟩
  · cases hj

theorem first_gap {fs : FragStr C} (hne : fs ≠ []) (h : ¬Regular fs) : ∃ j, Gap fs j ∧ ∀ i, i < j → ¬Gap fs i := by
  classical
  have hg := irregular_gap hne h
  exact ⟨Nat.find hg, Nat.find_spec hg, fun i hi => Nat.find_min hg hi⟩

theorem last_gap {fs : FragStr C} (hne : fs ≠ []) (h : ¬Regular fs) : ∃ j, Gap fs j ∧ ∀ i, j < i → ¬Gap fs i := by
  classical
  obtain ⟨j, hj⟩ := irregular_gap hne h
  have hg : ∃ m, m ≤ fs.length ∧ Gap fs (fs.length - m) :=
    ⟨fs.length - j, by omega, by rw [show fs.length - (fs.length - j) = j by have := hj.1; omega]; exact hj⟩
  refine ⟨fs.length - Nat.find hg, (Nat.find_spec hg).2, fun i hi hi' => ?_⟩
  have h1 := (Nat.find_spec hg).1
  have h2 := hi'.1
  refine Nat.find_min hg (m := fs.length - i) (by omega) ⟨by omega, ?_⟩
  rwa [show fs.length - (fs.length - i) = i by omega]

/-- What a dereference of the beginning of an empty fragment does. -/
def badDeref (b : Build) : Outcome (List C) :=
  match b with
  | .debug => .throw (.assertion "fragment_string: dereference iterator out-of-range")
  | .aborting => .terminate
  | .release => .ub

theorem forward_gap (b : Build) (fs : FragStr C) (j : Nat) (s : Frag C) (hj : fs[j]? = some s) (hs : s.chars = [])
    (hl : j + 1 < fs.length) (hbefore : ∀ i t, i < j → fs[i]? = some t → t.chars ≠ []) (last : It) (hlast : last.frag + 1 = fs.length) :
    ∀ (n i k : Nat), i ≤ j → (∀ t, fs[i]? = some t → k < t.chars.length ∨ (i = j ∧ k = 0)) →
      length (fs.take j) < length (fs.take i) + k + n →
      readLoop (fwd b fs) n ⟨i, k⟩ last = badDeref b := by
  intro n
  induction n with
  | zero =>
    intro i k hi hk hn
    exfalso
    have hil := (List.getElem?_eq_getElem (l := fs) (i := i) (by omega))
    have h1 := length_take_succ hil
    by_cases he : i = j
    · subst he
      have := hk _ hj
      rw [hs] at this
      simp at this
      omega
    · have := hk _ hil
      have h2 := length_take_mono fs (i := i + 1) (j := j) (by omega)
      omega
  | succ n ih =>
    intro i k hi hk hn
    have hne : (fwd b fs).eq ⟨i, k⟩ last = false := by
      have : decide (i = last.frag) = false := by simp; omega
      simp [fwd, It.eq, this]
    rw [readLoop, if_neg (by rw [hne]; simp)]
    have hil := (List.getElem?_eq_getElem (l := fs) (i := i) (by omega))
    have h1 := length_take_succ hil
    by_cases he : i = j
    · subst he
      have h0 : k = 0 := by
        have := hk _ hj
        rw [hs] at this
        simp at this
        exact this
      subst h0
      simp only [fwd, Str.deref, fragAt_of hj, Outcome.bind_ok, hs, badDeref]
      cases b <;> simp [debugAssert]
    · have hkl : k < fs[i].chars.length := by
        rcases hk _ hil with h | h
        · exact h
        · omega
      have hd : (fwd b fs).deref ⟨i, k⟩ = .ok (fs[i].chars[k]) := by
        simp only [fwd, Str.deref, fragAt_of hil, Outcome.bind_ok, List.getElem?_eq_getElem hkl]
        cases b <;> simp [debugAssert, hkl]
      have ha : debugAssert b (!(decide (i + 1 = fs.length) && decide (k = fs[i].chars.length)))
          "fragment_string::operator++: already at end" = .ok () := by
        have : decide (k = fs[i].chars.length) = false := by simp; omega
        cases b <;> simp [debugAssert, this]
      rw [hd, Outcome.bind_ok]
      by_cases hend : k + 1 = fs[i].chars.length
      · have hi' : (fwd b fs).next ⟨i, k⟩ = .ok ⟨i + 1, 0⟩ := by
          simp only [fwd, Str.incr, fragAt_of hil, Outcome.bind_ok, ha]
          rw [if_pos hkl, if_pos hend, if_neg (by omega)]; rfl
        rw [hi', Outcome.bind_ok, ih (i + 1) 0 (by omega) ?_ (by omega)]
        · cases b <;> rfl
        · intro t ht
          by_cases hej : i + 1 = j
          · exact Or.inr ⟨hej, rfl⟩
          · exact Or.inl (List.length_pos_iff.mpr (hbefore _ t (by omega) ht))
      · have hi' : (fwd b fs).next ⟨i, k⟩ = .ok ⟨i, k + 1⟩ := by
          simp only [fwd, Str.incr, fragAt_of hil, Outcome.bind_ok, ha]
          rw [if_pos hkl, if_neg hend]; rfl
        rw [hi', Outcome.bind_ok, ih i (k + 1) hi ?_ (by omega)]
        · cases b <;> rfl
        · intro t ht
          rw [hil] at ht; cases ht
          exact Or.inl (by omega)

theorem reverse_gap (b : Build) (fs : FragStr C) (j : Nat) (s : Frag C) (hj : fs[j]? = some s) (hs : s.chars = [])
    (hafter : ∀ i t, j < i → i + 1 < fs.length → fs[i]? = some t → t.chars ≠ []) :
    ∀ (n i k : Nat), j < i → i < fs.length → (∀ t, fs[i]? = some t → k ≤ t.chars.length) →
      length (fs.take i) + k < length (fs.take (j + 1)) + n →
      readLoop (rev b fs) n ⟨i, k⟩ ⟨0, 0⟩ = .ub := by
  intro n
  induction n with
  | zero =>
    intro i k hi hil hk hn
    have := length_take_mono fs (i := j + 1) (j := i) (by omega)
    omega
  | succ n ih =>
    intro i k hi hil hk hn
    have hne : (rev b fs).eq ⟨i, k⟩ ⟨0, 0⟩ = false := by
      have : decide (i = 0) = false := by simp; omega
      simp [rev, It.eq, this]
    have ha : debugAssert b (!(decide (i = 0) && decide (k = 0)))
        "fragment_string::operator--: already at beginning" = .ok () := by
      have : decide (i = 0) = false := by simp; omega
      cases b <;> simp [debugAssert, this]
    have hfi := (List.getElem?_eq_getElem (l := fs) (i := i) hil)
    rw [readLoop, if_neg (by rw [hne]; simp)]
    by_cases h0 : k = 0
    · subst h0
      by_cases he : i - 1 = j
      · have : decr b fs ⟨i, 0⟩ = .ub := by
          rw [Str.decr, ha, Outcome.bind_ok]
          rw [if_pos rfl, if_neg (by show ¬i = 0; omega), he, fragAt_of hj, Outcome.bind_ok, hs, if_pos List.length_nil]
        simp [rev, this]
      · have ht := (List.getElem?_eq_getElem (l := fs) (i := i - 1) (by omega))
        have hn' := List.length_pos_iff.mpr (hafter (i - 1) _ (by omega) (by omega) ht)
        have h1 := length_take_succ ht
        rw [show i - 1 + 1 = i by omega] at h1
        have hde : decr b fs ⟨i, 0⟩ = .ok ⟨i - 1, fs[i - 1].chars.length - 1⟩ := by
          rw [Str.decr, ha, Outcome.bind_ok]
          rw [if_pos rfl, if_neg (by show ¬i = 0; omega), fragAt_of ht, Outcome.bind_ok, if_neg (by omega)]; rfl
        have hlt : fs[i - 1].chars.length - 1 < fs[i - 1].chars.length := by omega
        have hdd : deref b fs ⟨i - 1, fs[i - 1].chars.length - 1⟩ = .ok (fs[i - 1].chars[fs[i - 1].chars.length - 1]) := by
          simp only [Str.deref, fragAt_of ht, Outcome.bind_ok, List.getElem?_eq_getElem hlt]
          cases b <;> simp [debugAssert, hlt]
        have h2 : (rev b fs).deref ⟨i, 0⟩ = .ok (fs[i - 1].chars[fs[i - 1].chars.length - 1]) := by
          simp only [rev, hde, Outcome.bind_ok, hdd]
        rw [h2, Outcome.bind_ok, show (rev b fs).next ⟨i, 0⟩ = .ok ⟨i - 1, fs[i - 1].chars.length - 1⟩ from hde,
          Outcome.bind_ok, ih (i - 1) _ (by omega) (by omega) ?_ (by omega)]
        · rfl
        · intro t ht'; rw [ht] at ht'; cases ht'; omega
    · have hkl := hk _ hfi
      have hde : decr b fs ⟨i, k⟩ = .ok ⟨i, k - 1⟩ := by
        simp only [Str.decr, ha, Outcome.bind_ok]
        rw [if_neg h0]; rfl
      have hlt : k - 1 < fs[i].chars.length := by omega
      have hdd : deref b fs ⟨i, k - 1⟩ = .ok (fs[i].chars[k - 1]) := by
        simp only [Str.deref, fragAt_of hfi, Outcome.bind_ok, List.getElem?_eq_getElem hlt]
        cases b <;> simp [debugAssert, hlt]
      have h2 : (rev b fs).deref ⟨i, k⟩ = .ok (fs[i].chars[k - 1]) := by
        simp only [rev, hde, Outcome.bind_ok, hdd]
      rw [h2, Outcome.bind_ok, show (rev b fs).next ⟨i, k⟩ = .ok ⟨i, k - 1⟩ from hde,
        Outcome.bind_ok, ih i (k - 1) hi hil ?_ (by omega)]
      · rfl
      · intro t ht'; rw [hfi] at ht'; cases ht'; omega

/-! ## Comparison -/

/-- Three-way lexicographic comparison of lists. -/
def lexCmp [LinearOrder C] : List C → List C → Int
  | [], [] => 0
  | [], _ :: _ => -1
  | _ :: _, [] => 1
  | x :: xs, y :: ys => if x < y then -1 else if y < x then 1 else lexCmp xs ys

theorem compareLoop_eq [LinearOrder C] {fs : FragStr C} (hr : Regular fs) (b : Build) {τ : Type} {J : Iter τ C}
    {rel : τ → Nat → Prop} {u : List C} (h' : Tracks J rel u) {endThis : It} {last : τ}
    (he : At fs endThis (length fs)) (hlast : rel last u.length) :
    ∀ (n : Nat) (it : It) (j : τ) (p q : Nat), At fs it p → rel j q → length fs - p < n →
      compareLoop b fs J endThis last n it j = .ok (lexCmp ((text fs).drop p) (u.drop q)) := by
  have h := fwd_tracks hr b
  intro n
  induction n with
  | zero => intro it j p q _ _ hn; omega
  | succ n ih =>
    intro it j p q hi hj hn
    have hpl := h.le hi
    have hql := h'.le hj
    rw [compareLoop]
    have hlen := length_text fs
    by_cases h1 : p = length fs
    · rw [if_pos ((hi.eq_iff he).mpr h1), List.drop_of_length_le (l := text fs) (by omega)]
      by_cases h2 : q = u.length
      · rw [if_pos ((h'.eq hj hlast).mpr h2), List.drop_of_length_le (l := u) (by omega)]; rfl
      · rw [if_neg (fun hh => h2 ((h'.eq hj hlast).mp hh)), List.drop_eq_getElem_cons (l := u) (by omega)]; rfl
    · rw [if_neg (fun hh => h1 ((hi.eq_iff he).mp hh)), List.drop_eq_getElem_cons (l := text fs) (by omega)]
      by_cases h2 : q = u.length
      · rw [if_pos ((h'.eq hj hlast).mpr h2), List.drop_of_length_le (l := u) (by omega)]; rfl
      · rw [if_neg (fun hh => h2 ((h'.eq hj hlast).mp hh)), List.drop_eq_getElem_cons (l := u) (by omega), lexCmp]
        rw [hi.deref b (by omega), Outcome.bind_ok, h'.deref hj (by omega), Outcome.bind_ok]
        split
        · rfl
        · split
          · rfl
          · obtain ⟨i', e, hi'⟩ := h.next hi (by omega)
            obtain ⟨j', e', hj'⟩ := h'.next hj (by omega)
            rw [show incr b fs it = .ok i' from e, Outcome.bind_ok, e', Outcome.bind_ok, ih i' j' (p + 1) (q + 1) hi' hj' (by omega)]

theorem lexCmp_spec [LinearOrder C] : ∀ xs ys : List C,
    (lexCmp xs ys < 0 ↔ List.Lex (· < ·) xs ys) ∧ (lexCmp xs ys = 0 ↔ xs = ys) ∧ (0 < lexCmp xs ys ↔ List.Lex (· < ·) ys xs) := by
  intro xs
  induction xs with
  | nil =>
    intro ys
    cases ys with
    | nil => refine ⟨⟨fun h => absurd h (by simp [lexCmp]), fun h => by cases h⟩, by simp [lexCmp], ⟨fun h => absurd h (by simp [lexCmp]), fun h => by cases h⟩⟩
    | cons y ys =>
      refine ⟨⟨fun _ => .nil, fun _ => by simp [lexCmp]⟩, by simp [lexCmp], ⟨fun h => absurd h (by simp [lexCmp]), fun h => by cases h⟩⟩
  | cons x xs ih =>
    intro ys
    cases ys with
    | nil =>
      refine ⟨⟨fun h => absurd h (by simp [lexCmp]), fun h => by cases h⟩, by simp [lexCmp], ⟨fun _ => .nil, fun _ => by simp [lexCmp]⟩⟩
    | cons y ys =>
      rw [lexCmp]
      rcases lt_trichotomy x y with h | h | h
      · rw [if_pos h]
        refine ⟨⟨fun _ => .rel h, fun _ => by decide⟩, ⟨fun e => absurd e (by decide), fun e => ?_⟩, ⟨fun e => absurd e (by decide), fun e => ?_⟩⟩
        · cases e; exact absurd h (lt_irrefl _)
        · cases e with
          | rel h' => exact absurd h (lt_asymm h')
          | cons _ => exact absurd h (lt_irrefl _)
      · subst h
        rw [if_neg (lt_irrefl _), if_neg (lt_irrefl _)]
        have := ih ys
        refine ⟨⟨fun e => .cons (this.1.mp e), fun e => ?_⟩, ?_, ⟨fun e => .cons (this.2.2.mp e), fun e => ?_⟩⟩
        · cases e with
          | rel h' => exact absurd h' (lt_irrefl _)
          | cons e => exact this.1.mpr e
        · rw [this.2.1]; simp
        · cases e with
          | rel h' => exact absurd h' (lt_irrefl _)
          | cons e => exact this.2.2.mpr e
      · rw [if_neg (lt_asymm h), if_pos h]
        refine ⟨⟨fun e => absurd e (by decide), fun e => ?_⟩, ⟨fun e => absurd e (by decide), fun e => ?_⟩, ⟨fun _ => .rel h, fun _ => by decide⟩⟩
        · cases e with
          | rel h' => exact absurd h (lt_asymm h')
          | cons _ => exact absurd h (lt_irrefl _)
        · cases e; exact absurd h (lt_irrefl _)

/-! ## Searching -/

theorem toDiff_small {n : Nat} (h : n < 2 ^ 63) : toDiff n = n := by
  rw [toDiff, Nat.mod_eq_of_lt (by omega), if_pos h]

/-- `s` occurs in `t` at offset `i`. -/
theorem occurs_iff {t s : List C} {i : Nat} (h : i + s.length ≤ t.length) :
    (t.take (i + s.length)).drop i = s ↔ ∃ x y, t = x ++ s ++ y ∧ x.length = i := by
  constructor
  · intro e
    refine ⟨t.take i, t.drop (i + s.length), ?_, by rw [List.length_take]; omega⟩
    have : t.take i ++ s = t.take (i + s.length) := by
      conv_lhs => rw [← e]
      rw [List.drop_take, List.take_add]
      congr 2
      omega
    rw [this, List.take_append_drop]
  · rintro ⟨x, y, rfl, rfl⟩
    rw [List.take_append_of_le_length (by simp)]
    rw [List.take_of_length_le (by simp)]
    simp

theorem findLoop_eq [DecidableEq C] {fs : FragStr C} (hr : Regular fs) (b : Build) (s : List C) {thisEnd : It}
    (he : At fs thisEnd (length fs)) :
    ∀ (n : Nat) (it ce : It) (p : Nat), At fs it p → At fs ce (p + s.length) → length fs - (p + s.length) < n →
      ∃ r, findLoop b fs s thisEnd n it ce p = .ok r ∧
        ((p ≤ r ∧ r + s.length ≤ length fs ∧ ((text fs).take (r + s.length)).drop r = s ∧
            ∀ k, p ≤ k → k < r → ((text fs).take (k + s.length)).drop k ≠ s) ∨
          (r = npos ∧ ∀ k, p ≤ k → k + s.length ≤ length fs → ((text fs).take (k + s.length)).drop k ≠ s)) := by
  have h := fwd_tracks hr b
  have h' := view_tracks s
  intro n
  induction n with
  | zero => intro it ce p _ _ hn; omega
  | succ n ih =>
    intro it ce p hi hc hn
    have hle := hc.le
    rw [findLoop, h'.stdEqual h (i := 0) (l := s.length) ⟨rfl, Nat.zero_le _⟩ ⟨rfl, Nat.le_refl _⟩ hi hc (Nat.zero_le _) (by omega),
      Outcome.bind_ok, List.take_length, List.drop_zero]
    by_cases hs : s = ((text fs).take (p + s.length)).drop p
    · rw [if_pos (by simpa using hs)]
      exact ⟨p, rfl, Or.inl ⟨Nat.le_refl _, hle, hs.symm, fun k _ _ => by omega⟩⟩
    · rw [if_neg (by simpa using hs)]
      by_cases hend : p + s.length = length fs
      · rw [if_pos ((hc.eq_iff he).mpr hend)]
        refine ⟨npos, rfl, Or.inr ⟨rfl, fun k h1 h2 => ?_⟩⟩
        have : k = p := by omega
        subst this
        exact fun hh => hs hh.symm
      · rw [if_neg (fun hh => hend ((hc.eq_iff he).mp hh))]
        obtain ⟨i', e, hi'⟩ := hi.incr hr b (by omega)
        obtain ⟨c', e', hc'⟩ := hc.incr hr b (by omega)
        rw [e, Outcome.bind_ok, e', Outcome.bind_ok]
        rw [show p + s.length + 1 = p + 1 + s.length by omega] at hc'
        obtain ⟨r, er, hr'⟩ := ih i' c' (p + 1) hi' hc' (by omega)
        refine ⟨r, er, ?_⟩
        rcases hr' with ⟨h1, h2, h3, h4⟩ | ⟨h1, h2⟩
        · refine Or.inl ⟨by omega, h2, h3, fun k hk hk' => ?_⟩
          by_cases hkp : k = p
          · subst hkp; exact fun hh => hs hh.symm
          · exact h4 k (by omega) hk'
        · refine Or.inr ⟨h1, fun k hk hk' => ?_⟩
          by_cases hkp : k = p
          · subst hkp; exact fun hh => hs hh.symm
          · exact h2 k (by omega) hk'

/-- `_seek_fragment_containing_position` finds the fragment that has the position in it. -/
theorem seekFragmentLoop_ok (pos : Nat) :
    ∀ (rest pre : FragStr C) (checked prev : Nat), checked = length pre → length (pre ++ rest) > pos →
      (checked ≤ pos ∨ (∃ pre' f, pre = pre' ++ [f] ∧ prev = f.chars.length ∧ length pre' ≤ pos ∧ pos < length pre)) →
      ∃ i, i < (pre ++ rest).length ∧ seekFragmentLoop pos pre.length checked prev rest = .ok (i, length ((pre ++ rest).take i)) ∧
        length ((pre ++ rest).take i) ≤ pos ∧ pos < length ((pre ++ rest).take (i + 1)) := by
  intro rest
  induction rest with
  | nil =>
    intro pre checked prev hc hp h
    rw [List.append_nil] at hp ⊢
    rcases h with h | ⟨pre', f, rfl, rfl, h1, h2⟩
    · omega
    · rw [seekFragmentLoop, if_neg (by omega)]
      refine ⟨pre'.length, by simp, ?_, ?_, ?_⟩
      · rw [List.take_append_of_le_length (Nat.le_refl _), List.take_length, hc, length_append]
        simp [length]
      · rw [List.take_append_of_le_length (Nat.le_refl _), List.take_length]; exact h1
      · rw [length_take_all _ (by simp)]; exact h2
  | cons g rest ih =>
    intro pre checked prev hc hp h
    rw [seekFragmentLoop]
    by_cases hle : checked ≤ pos
    · rw [if_pos hle]
      have e : pre ++ g :: rest = (pre ++ [g]) ++ rest := by simp
      have hlen : length (pre ++ [g]) = length pre + g.chars.length := by simp [length_append, length]
      have := ih (pre ++ [g]) (checked + g.chars.length) g.chars.length (by rw [hlen, hc]) (by rwa [← e]) ?_
      · rw [e]
        simpa using this
      · by_cases h1 : checked + g.chars.length ≤ pos
        · exact Or.inl h1
        · exact Or.inr ⟨pre, g, rfl, rfl, by omega, by rw [hlen]; omega⟩
    · rw [if_neg hle]
      rcases h with h | ⟨pre', f, rfl, rfl, h1, h2⟩
      · omega
      · have e : pre' ++ [f] ++ g :: rest = pre' ++ (f :: g :: rest) := by simp
        refine ⟨pre'.length, by simp, ?_, ?_, ?_⟩
        · rw [e, List.take_append_of_le_length (Nat.le_refl _), List.take_length, hc, length_append]
          simp [length]
        · rw [e, List.take_append_of_le_length (Nat.le_refl _), List.take_length]; exact h1
        · rw [List.take_append_of_le_length (by simp), length_take_all _ (by simp)]; exact h2

theorem seekFragment_ok {fs : FragStr C} {pos : Nat} (h0 : pos ≠ 0) (h : pos < length fs) :
    ∃ i, i < fs.length ∧ seekFragment fs pos = .ok (i, length (fs.take i)) ∧
      length (fs.take i) ≤ pos ∧ pos < length (fs.take (i + 1)) := by
  have := seekFragmentLoop_ok pos fs [] 0 0 rfl (by simpa using h) (Or.inl (Nat.zero_le _))
  rw [seekFragment, if_neg h0]
  simpa using this

theorem seekFragmentLoop_ub (pos : Nat) :
    ∀ (rest : FragStr C) (i checked prev : Nat), checked + length rest ≤ pos → seekFragmentLoop pos i checked prev rest = .ub := by
  intro rest
  induction rest with
  | nil => intro i checked prev h; rw [seekFragmentLoop, if_pos (by simpa [length] using h)]
  | cons f rest ih =>
    intro i checked prev h
    rw [length] at h
    rw [seekFragmentLoop, if_pos (by omega)]
    exact ih _ _ _ (by omega)

theorem findCharLoop_eq [DecidableEq C] (ch : C) :
    ∀ (rest : FragStr C) (checked : Nat),
      (∃ i, findCharLoop ch checked rest = checked + i ∧ (text rest)[i]? = some ch ∧ ∀ k, k < i → (text rest)[k]? ≠ some ch) ∨
      (findCharLoop ch checked rest = npos ∧ ch ∉ text rest) := by
  intro rest
  induction rest with
  | nil => intro checked; right; exact ⟨rfl, by simp [text]⟩
  | cons f rest ih =>
    intro checked
    rw [findCharLoop, text]
    cases hx : f.chars.idxOf? ch with
    | none =>
      have hn : ch ∉ f.chars := by
        rw [List.idxOf?_eq_none_iff] at hx; exact hx
      simp only
      rcases ih (checked + f.chars.length) with ⟨i, h1, h2, h3⟩ | ⟨h1, h2⟩
      · left
        refine ⟨f.chars.length + i, by rw [h1]; omega, ?_, ?_⟩
        · rw [List.getElem?_append_right (by omega), Nat.add_sub_cancel_left]; exact h2
        · intro k hk
          by_cases hkl : k < f.chars.length
          · rw [List.getElem?_append_left hkl]
            intro hc
            exact hn (List.mem_of_getElem? hc)
          · rw [List.getElem?_append_right (by omega)]
            exact h3 _ (by omega)
      · right
        refine ⟨h1, ?_⟩
        rw [List.mem_append]
        rintro (h | h)
        · exact hn h
        · exact h2 h
    | some p =>
      simp only
      left
      have hp : p < f.chars.length ∧ f.chars[p]? = some ch ∧ ∀ k, k < p → f.chars[k]? ≠ some ch := by
        rw [List.idxOf?, List.findIdx?_eq_some_iff_getElem] at hx
        obtain ⟨h1, h2, h3⟩ := hx
        refine ⟨h1, ?_, ?_⟩
        · rw [List.getElem?_eq_getElem h1]; simpa using h2
        · intro k hk
          have := h3 k hk
          rw [List.getElem?_eq_getElem (by omega)]
          simpa using this
      refine ⟨p, rfl, ?_, ?_⟩
      · rw [List.getElem?_append_left hp.1]; exact hp.2.1
      · intro k hk
        rw [List.getElem?_append_left (by omega)]; exact hp.2.2 k hk

theorem containsLoop_eq [DecidableEq C] {fs gs : FragStr C} (hr : Regular fs) (hg : Regular gs) (b : Build)
    (hsz : length fs < 2 ^ 63) {ob oe thisEnd : It} (hob : At gs ob 0) (hoe : At gs oe (length gs))
    (hle : length gs ≤ length fs) (he : At fs thisEnd (length fs - length gs)) :
    ∀ (n : Nat) (it : It) (p : Nat), At fs it p → p ≤ length fs - length gs → p + n = length fs →
      ∃ r, containsLoop b fs gs ob oe thisEnd n it = .ok r ∧
        (r = true ↔ ∃ k, p ≤ k ∧ k < length fs - length gs ∧ ((text fs).take (k + length gs)).drop k = text gs) := by
  have h := fwd_tracks hr b
  have h' := fwd_tracks hg b
  intro n
  induction n with
  | zero =>
    intro it p hi hp hn
    refine ⟨false, rfl, by simp; intro k h1 h2; omega⟩
  | succ n ih =>
    intro it p hi hp hn
    rw [containsLoop]
    by_cases hend : p = length fs - length gs
    · rw [if_pos ((hi.eq_iff he).mpr hend)]
      refine ⟨false, rfl, by simp; intro k h1 h2; omega⟩
    · rw [if_neg (fun hh => hend ((hi.eq_iff he).mp hh)), toDiff_small (by omega)]
      obtain ⟨stop, es, hst⟩ := hi.plus hr b (length gs) (by omega) (by omega) (by omega)
      rw [show ((p : Int) + (length gs : Int)).toNat = p + length gs by omega] at hst
      rw [es, Outcome.bind_ok, h'.stdEqual h hob hoe hi hst (Nat.zero_le _) (by omega), Outcome.bind_ok, length_text gs,
        List.take_length, List.drop_zero, ← length_text gs]
      by_cases hs : text gs = ((text fs).take (p + length gs)).drop p
      · rw [if_pos (by simpa using hs)]
        exact ⟨true, rfl, by simp only [true_iff]; exact ⟨p, Nat.le_refl _, by omega, hs.symm⟩⟩
      · rw [if_neg (by simpa using hs)]
        obtain ⟨i', e, hi'⟩ := hi.incr hr b (by omega)
        rw [e, Outcome.bind_ok]
        obtain ⟨r, er, hrr⟩ := ih i' (p + 1) hi' (by omega) (by omega)
        refine ⟨r, er, hrr.trans ⟨?_, ?_⟩⟩
        · rintro ⟨k, h1, h2, h3⟩; exact ⟨k, by omega, h2, h3⟩
        · rintro ⟨k, h1, h2, h3⟩
          refine ⟨k, ?_, h2, h3⟩
          by_cases hk : k = p
          · subst hk; exact absurd h3.symm hs
          · omega

end Wite.Str
