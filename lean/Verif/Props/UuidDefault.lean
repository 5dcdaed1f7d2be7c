import Verif.Model.UuidDefault
import Verif.Props.OStream

/-!
# C163, C164: the default UUID format, and formats given as objects
-/

namespace Wite.Props
open Wite Wite.Uuid Wite.Io Wite.Spec.Uuid

/-! ## C163 -/

/-- C163: with any of the ten letters as the default format, what the default functions print the default functions
read: the constructor, `try_make_uuid`, and from a stream, if the field width is not larger than the text. -/
theorem c163_round_trip (host : Endian) (l : Layout) (up : Bool) (u : List Nat) (hu : IsUuid u) (behind : List Nat)
    (hz : 0 ∈ behind) (os : OStream Nat) (hw : os.width ≤ textLength l) :
    (Default.str (letter l up) host u >>= fun s => Default.ofString (letter l up) s behind) = .ok u ∧
    (Default.str (letter l up) host u >>= fun s => Default.tryMake (letter l up) s behind) = .ok (.value u) ∧
    ((Default.insert (letter l up) host u).run os).1 = .ok () ∧
    Default.ofString (letter l up) (((Default.insert (letter l up) host u).run os).2.out.drop os.out.length) behind = .ok u := by
  have h1 := c16_round_trip host l up u hu behind hz
  have hs := str_eq host l up hu
  rw [hs, Outcome.bind_ok] at h1
  refine ⟨by simpa [Default.str, Default.ofString, hs] using h1, ?_, ?_⟩
  · simp only [Default.str, Default.tryMake, hs, Outcome.bind_ok]
    rcases c21_try_make_agrees (text l up u) (letter l up) behind with ⟨v, h, h'⟩ | h | h | h | h | h
    · rw [h1] at h; cases h; exact h'
    all_goals rw [h1] at h; cases h.1
  · have hr : (Default.insert (letter l up) host u).run os = (.ok (), os.insertText (text l up u)) := by
      simp only [Default.insert, Default.str, hs, St.run_bind]
      rfl
    rw [hr]
    refine ⟨rfl, ?_⟩
    have hl : (text l up u).length = textLength l := text_length l up hu
    have : (os.insertText (text l up u)).out = os.out ++ text l up u := by
      simp only [OStream.insertText, hl]
      rw [show os.width - textLength l = 0 by omega]
      cases os.adjust <;> simp
    rw [this, List.drop_left]
    exact h1

/-- A text that the parser of one format takes is taken by the parser of no other, apart from the case of the letter:
the lengths differ, or the characters at the ends. -/
theorem c163_one_format (l l' : Layout) (up up' : Bool) (s u v : List Nat) (hs : ∀ c ∈ s, c < 256) (behind : List Nat)
    (hz : 0 ∈ behind) (h : Default.ofString (letter l up) s behind = .ok u)
    (h' : Default.ofString (letter l' up') s behind = .ok v) : l = l' ∧ u = v := by
  simp only [Default.ofString] at h h'
  have hl : s.length = textLength l := by
    by_contra hne
    rw [c99_wrong_length_partial l up s hne behind] at h; cases h
  have hl' : s.length = textLength l' := by
    by_contra hne
    rw [c99_wrong_length_partial l' up' s hne behind] at h'; cases h'
  have hh : ∀ l up u, l ≠ .X → Uuid.ofString s (letter l up) behind = .ok u → HasShape (shape l) s := by
    intro l up u hX h
    rcases c19_parse l hX up s hs behind hz with ⟨hsh, -⟩ | ⟨-, e⟩
    · exact hsh
    · rw [h] at e; cases e
  have key : l = l' := by
    have hB : ∀ s, HasShape (shape .B) s → s.head? = some 123 := by
      intro s h
      cases s with
      | nil => simp [shape, HasShape] at h
      | cons c s => simp only [shape] at h; simpa [HasShape] using h.1
    have hP : ∀ s, HasShape (shape .P) s → s.head? = some 40 := by
      intro s h
      cases s with
      | nil => simp [shape, HasShape] at h
      | cons c s => simp only [shape] at h; simpa [HasShape] using h.1
    cases l <;> cases l' <;> first
      | rfl
      | (exact absurd (hl.symm.trans hl') (by decide))
      | (have a := hB s (hh .B _ _ (by decide) (by assumption))
         have b := hP s (hh .P _ _ (by decide) (by assumption))
         rw [a] at b; exact absurd b (by decide))
  subst key
  rw [ofString_letter] at h h'
  rw [h] at h'
  exact ⟨rfl, by injection h'⟩

/-- C163: programs with different default formats do not misread each other.  What one prints, the other reads as the
same UUID if the letters agree up to their case, and refuses otherwise. -/
theorem c163_other_default (host : Endian) (l l' : Layout) (up up' : Bool) (u : List Nat) (hu : IsUuid u)
    (behind : List Nat) (hz : 0 ∈ behind) :
    (Default.str (letter l up) host u >>= fun s => Default.ofString (letter l' up') s behind) =
      (if l = l' then .ok u else .throw (.invalidArgument "Invalid UUID format")) ∧
    (Default.str (letter l up) host u >>= fun s => Default.tryMake (letter l' up') s behind) =
      .ok (if l = l' then .value u else .error .invalidUuidFormat) := by
  have hs := str_eq host l up hu
  have h1 : Uuid.ofString (text l up u) (letter l' up') behind =
      if l = l' then .ok u else .throw (.invalidArgument "Invalid UUID format") := by
    split
    · next h =>
      subst h
      have := c16_round_trip_mixed host l up up' u hu behind hz
      rwa [hs, Outcome.bind_ok] at this
    · next h =>
      by_cases hl : textLength l = textLength l'
      · obtain ⟨hsh, -⟩ := ofDigits_text l up hu
        have hlt := hasShape_lt _ (shape_lt l) _ hsh
        have hX : l' ≠ .X := by
          rintro rfl
          cases l <;> first | exact absurd rfl h | exact absurd hl (by decide)
        rcases c19_parse l' hX up' (text l up u) hlt behind hz with ⟨hsh', -⟩ | ⟨-, e⟩
        · exfalso
          have := c163_one_format l l' up up' (text l up u) _ _ hlt behind hz
            (by rw [Default.ofString, ofString_letter]; exact init_hasShape l _ hsh behind hz)
            (by rw [Default.ofString, ofString_letter]; exact init_hasShape l' _ hsh' behind hz)
          exact h this.1
        · exact e
      · exact c99_wrong_length_partial l' up' _ (by rw [text_length l up hu]; exact hl) behind
  refine ⟨by simpa [Default.str, Default.ofString, hs] using h1, ?_⟩
  simp only [Default.str, Default.tryMake, hs, Outcome.bind_ok]
  rcases c21_try_make_agrees (text l up u) (letter l' up') behind with ⟨v, h, h'⟩ | h | h | h | h | h
  · rw [h1] at h; split at h
    · next e => cases h; rw [if_pos e]; exact h'
    · cases h
  · rw [h1] at h; obtain ⟨h, h'⟩ := h
    split at h
    · cases h
    · next e => rw [if_neg e]; exact h'
  all_goals
    rw [h1] at h; obtain ⟨h, -⟩ := h
    split at h <;> first | cases h | (exfalso; revert h; simp)

/-- C163: with any of the ten letters as the default format, `into_c_str` into an array with room for the text and the NUL
returns true and stores what `str()` gives, followed by NUL and nothing else; what stands there reads back as the UUID.  With
less room it returns false and leaves the array alone. -/
theorem c163_c_str (host : Endian) (l : Layout) (up : Bool) (u : List Nat) (hu : IsUuid u) (n : Nat) (mem : List Nat)
    (hm : n ≤ mem.length) :
    (textLength l < n → ∃ t, Default.str (letter l up) host u = .ok t ∧ t.length = textLength l ∧
      (Default.intoCStr (letter l up) host u n).run mem = (.ok true, t ++ 0 :: mem.drop (textLength l + 1)) ∧
      Default.ofString (letter l up) t (0 :: mem.drop (textLength l + 1)) = .ok u) ∧
    (n ≤ textLength l → (Default.intoCStr (letter l up) host u n).run mem = (.ok false, mem)) := by
  have hs := str_eq host l up hu
  constructor
  · intro h
    refine ⟨_, hs, text_length l up hu, ?_, ?_⟩
    · rcases c23_to_c_str host l up u hu n mem hm with ⟨-, e⟩ | ⟨h', -⟩
      · rw [Default.intoCStr, e]; simp
      · omega
    · have h1 := c16_round_trip host l up u hu (0 :: mem.drop (textLength l + 1)) (by simp)
      rw [hs, Outcome.bind_ok] at h1
      exact h1
  · intro h
    rcases c23_to_c_str host l up u hu n mem hm with ⟨h', -⟩ | ⟨-, e⟩
    · omega
    · exact e

/-- C163: a default that is none of the ten letters breaks every default call, and no call touches anything: printing
and reading throw, `try_make_uuid` reports the letter, `into_c_str` returns false and leaves the array alone, and
nothing is written to a stream. -/
theorem c163_unknown (host : Endian) (f : Char) (hf : ∀ l up, f ≠ letter l up) (u s behind mem : List Nat) (n : Nat)
    (os : OStream Nat) :
    Default.str f host u = .throw (.invalidArgument "Invalid UUID format type") ∧
    Default.ofString f s behind = .throw (.invalidArgument "Invalid UUID format type") ∧
    Default.tryMake f s behind = .ok (.error .invalidUuidFormatType) ∧
    (Default.intoCStr f host u n).run mem = (.ok false, mem) ∧
    (Default.insert f host u).run os = (.throw (.invalidArgument "Invalid UUID format type"), os) := by
  have h1 := c17_unknown host u f hf
  have h2 := c19_unknown s f hf behind
  refine ⟨h1, h2, ?_, ?_, ?_⟩
  · rcases c21_try_make_agrees s f behind with ⟨v, h, h'⟩ | h | h | h | h | h
    · rw [h2] at h; cases h
    · rw [h2] at h; exact absurd h.1 (by decide)
    · exact h.2
    all_goals rw [h2] at h; cases h.1
  · have : printFormat f = none := by
      unfold str at h1
      cases hp : printFormat f with
      | none => rfl
      | some fmt =>
        exfalso
        unfold printFormat at hp
        split at hp <;> first
          | exact absurd rfl (hf .D true) | exact absurd rfl (hf .N true) | exact absurd rfl (hf .B true)
          | exact absurd rfl (hf .P true) | exact absurd rfl (hf .X true) | exact absurd rfl (hf .D false)
          | exact absurd rfl (hf .N false) | exact absurd rfl (hf .B false) | exact absurd rfl (hf .P false)
          | exact absurd rfl (hf .X false) | cases hp
    simp only [Default.intoCStr, toCStr, this]
    rfl
  · simp only [Default.insert, Default.str, h1]
    rfl

example : (Default.str 'n' .little (List.range 16) >>= fun s => Default.ofString 'N' s [0]) = .ok (List.range 16) ∧
    (Default.str 'B' .little (List.range 16) >>= fun s => Default.ofString 'P' s [0]) =
      .throw (.invalidArgument "Invalid UUID format") ∧
    ((Default.insert 'n' .little (List.range 16)).run ⟨0, 32, .right, .dec, false, false, [33]⟩).2.out.length = 33 ∧
    (Default.intoCStr 'n' .little (List.range 16) 32).run (List.replicate 34 7) = (.ok false, List.replicate 34 7) ∧
    ((Default.intoCStr 'n' .little (List.range 16) 33).run (List.replicate 34 7)).2.drop 32 = [0, 7] ∧
    Default.str 'Q' .little (List.range 16) = .throw (.invalidArgument "Invalid UUID format type") := by decide +kernel

end Wite.Props
