import Verif.Props.Uuid

/-!
# When parsing a UUID is undefined, accepted or rejected: every string

The formats of C22, C99 and C101 once more, with conditions that are necessary and sufficient
and without the restriction to characters below 256.
-/

namespace Wite.Props

open Wite Wite.Uuid Wite.Spec Wite.Spec.Uuid Wite.Hex Wite.Join

/-- Characters of a string literal, for the examples. -/
private def chars (s : String) : List Nat := s.toList.map Char.toNat

/-- The hexadecimal digits of a string, apart from a '0' directly before an 'x'. -/
def unprefixedDigits (s : List Nat) : List Nat :=
  ((s.zip (s.drop 1 ++ [0])).filter fun p => decide (IsHexDigit p.1 ∧ ¬(p.1 = 48 ∧ p.2 = 120))).map Prod.fst

theorem keepX_eq_unprefixedDigits (s : List Nat) : keepX s = unprefixedDigits s := by
  induction s using keepX.induct with
  | case1 => rfl
  | case2 c h => simp [keepX, unprefixedDigits, h]
  | case3 c h => simp [keepX, unprefixedDigits, h]
  | case4 c c' rest h ih =>
    rw [keepX, if_pos h, ih]
    obtain ⟨rfl, rfl⟩ := h
    cases rest with
    | nil => decide
    | cons d rest =>
      have h120 : ¬IsHexDigit 120 := by decide
      simp [unprefixedDigits, h120]
  | case5 c c' rest h hc ih =>
    rw [keepX, if_neg h, if_pos hc, ih]
    simp only [unprefixedDigits, List.drop_succ_cons, List.drop_zero, List.cons_append, List.zip_cons_cons]
    rw [List.filter_cons_of_pos (by simp only [decide_eq_true_iff]; exact ⟨hc, h⟩)]
    rfl
  | case6 c c' rest h hc ih =>
    rw [keepX, if_neg h, if_neg hc, ih]
    simp only [unprefixedDigits, List.drop_succ_cons, List.drop_zero, List.cons_append, List.zip_cons_cons]
    rw [List.filter_cons_of_neg (by simp [hc])]

theorem isxdigit_wide {c : Nat} (h : 255 < c) : isxdigit c = .ub := by rw [isxdigit, if_neg (by omega)]

theorem copyHex_wide (s : List Nat) (h : ∃ c ∈ s, 255 < c) (st : List Nat × Nat) : copyHex s st = .ub := by
  induction s generalizing st with
  | nil => obtain ⟨c, hc, _⟩ := h; simp at hc
  | cons c s ih =>
    rw [copyHex]
    by_cases hc : 255 < c
    · rw [isxdigit_wide hc]; rfl
    · have ih' := fun st => ih (by
        obtain ⟨d, hd, hw⟩ := h
        rcases List.mem_cons.1 hd with rfl | hd
        · exact absurd hw hc
        · exact ⟨d, hd, hw⟩) st
      rw [isxdigit, if_pos (by omega)]
      simp only [Outcome.bind_ok, ih']
      split
      · rcases writeOne_cases st c with ⟨st', h⟩ | h <;> simp [h]
      · rfl

theorem remove0x_wide (s : List Nat) (h : ∃ c ∈ s, 255 < c) (st : List Nat × Nat) : remove0x s st = .ub := by
  induction s using keepX.induct generalizing st with
  | case1 => obtain ⟨c, hc, _⟩ := h; simp at hc
  | case2 c =>
    obtain ⟨d, hd, hw⟩ := h
    obtain rfl : d = c := by simpa using hd
    rw [remove0x, if_neg (by omega), isxdigit_wide hw]; rfl
  | case3 c =>
    obtain ⟨d, hd, hw⟩ := h
    obtain rfl : d = c := by simpa using hd
    rw [remove0x, if_neg (by omega), isxdigit_wide hw]; rfl
  | case4 c c' rest hp ih =>
    rw [remove0x, if_pos hp]
    refine ih ?_ st
    obtain ⟨d, hd, hw⟩ := h
    rcases List.mem_cons.1 hd with rfl | hd
    · omega
    · rcases List.mem_cons.1 hd with rfl | hd
      · omega
      · exact ⟨d, hd, hw⟩
  | case5 c c' rest hp hc ih =>
    rw [remove0x, if_neg hp]
    by_cases hw : 255 < c
    · rw [isxdigit_wide hw]; rfl
    · have ih' := fun st => ih (by
        obtain ⟨d, hd, hw'⟩ := h
        rcases List.mem_cons.1 hd with rfl | hd
        · exact absurd hw' hw
        · exact ⟨d, hd, hw'⟩) st
      rw [isxdigit, if_pos (by omega)]
      simp only [Outcome.bind_ok, ih']
      split
      · rfl
      · rcases writeOne_cases st c with ⟨st', h⟩ | h <;> simp [h]
  | case6 c c' rest hp hc ih =>
    rw [remove0x, if_neg hp]
    by_cases hw : 255 < c
    · rw [isxdigit_wide hw]; rfl
    · have ih' := fun st => ih (by
        obtain ⟨d, hd, hw'⟩ := h
        rcases List.mem_cons.1 hd with rfl | hd
        · exact absurd hw' hw
        · exact ⟨d, hd, hw'⟩) st
      rw [isxdigit, if_pos (by omega)]
      simp only [Outcome.bind_ok, ih']
      split
      · rfl
      · rcases writeOne_cases st c with ⟨st', h⟩ | h <;> simp [h]

/-- Parsing in X format, every string. -/
theorem init_X_all (s : List Nat) (behind : List Nat) (hz : 0 ∈ behind) :
    initFromFmt s X behind =
      if s.length ≠ 68 then .throw (.invalidArgument "Invalid UUID format")
      else if s.getLast? = some 48 ∨ 32 < (unprefixedDigits s).length ∨ ∃ c ∈ s, 255 < c then .ub
      else if (unprefixedDigits s).length < 32 then .throw (.invalidArgument "Invalid UUID format")
      else .ok (ofDigits (unprefixedDigits s)) := by
  by_cases hw : ∃ c ∈ s, 255 < c
  · rw [initFromFmt, isAValid_X]
    have hp : X.prefixed = true := rfl
    by_cases h : s.length = 68
    · simp only [h, decide_true, Outcome.bind_ok, Bool.not_true, Bool.false_eq_true, if_false, hp, stripNonHex,
        if_true, remove0x_wide s hw, ne_eq, not_true]
      rw [if_pos (.inr (.inr hw))]; rfl
    · simp [h]
  · have hs : ∀ c ∈ s, c < 256 := fun c hc => by
      by_contra h; exact hw ⟨c, hc, by omega⟩
    rw [init_X s hs behind hz, keepX_eq_unprefixedDigits]
    simp only [hw, or_false]

/-! ## C22 -/

/-- C22: parsing in X format leaves the string or its buffer, or calls `std::isxdigit` with an
undefined argument, exactly for the strings of 68 characters that end in '0', have more than 32
digits not counting the '0' of a "0x", or contain a character above 255. -/
theorem c22_undefined_iff_partial (up : Bool) (s : List Nat) (behind : List Nat) (hz : 0 ∈ behind) :
    ofString s (letter .X up) behind = .ub ↔
      s.length = 68 ∧ (s.getLast? = some 48 ∨ 32 < (unprefixedDigits s).length ∨ ∃ c ∈ s, 255 < c) := by
  rw [ofString_letter, parseFmt, init_X_all s behind hz]
  split
  · rename_i h; simp only [reduceCtorEq, false_iff]; exact fun h' => h h'.1
  · rename_i h
    split
    · rename_i h2; exact ⟨fun _ => ⟨by omega, h2⟩, fun _ => rfl⟩
    · rename_i h2
      split <;> simp only [reduceCtorEq, false_iff] <;> exact fun h' => h2 h'.2

example : unprefixedDigits (chars "{0x00112233,0x4455,0x6677,{0x88,0x99,0xAA,0xBB,0xCC,0xDD,0xEE,0xFF}}") =
    chars "00112233445566778899AABBCCDDEEFF" := by decide +kernel

/-! ## C101 -/

/-- C101: a string is accepted in X format exactly if it has 68 characters up to 255, does not
end in '0', and has exactly 32 digits not counting the '0' of a "0x"; those digits are the UUID. -/
theorem c101_accepted_iff_partial (up : Bool) (s : List Nat) (behind u : List Nat) (hz : 0 ∈ behind) :
    ofString s (letter .X up) behind = .ok u ↔
      s.length = 68 ∧ s.getLast? ≠ some 48 ∧ (∀ c ∈ s, c < 256) ∧ (unprefixedDigits s).length = 32 ∧
        u = ofDigits (unprefixedDigits s) := by
  rw [ofString_letter, parseFmt, init_X_all s behind hz]
  split
  · rename_i h; simp only [reduceCtorEq, false_iff]; exact fun h' => h h'.1
  · rename_i h
    split
    · rename_i h2
      simp only [reduceCtorEq, false_iff]
      rintro ⟨_, h3, h4, h5, _⟩
      rcases h2 with h2 | h2 | ⟨c, hc, hw⟩
      · exact h3 h2
      · omega
      · have := h4 c hc; omega
    · rename_i h2
      have h3 : s.getLast? ≠ some 48 := fun e => h2 (.inl e)
      have h4 : ¬32 < (unprefixedDigits s).length := fun e => h2 (.inr (.inl e))
      have h5 : ∀ c ∈ s, c < 256 := fun c hc => by
        by_contra e; exact h2 (.inr (.inr ⟨c, hc, by omega⟩))
      split
      · rename_i h6
        simp only [reduceCtorEq, false_iff]
        rintro ⟨_, _, _, h7, _⟩; omega
      · constructor
        · intro e
          injection e with e
          exact ⟨by omega, h3, h5, by omega, e.symm⟩
        · rintro ⟨_, _, _, _, rfl⟩; rfl

/-- C101: and rejected with an exception exactly if it does not have 68 characters, or has
characters up to 255 only, fewer than 32 such digits and another last character than '0'. -/
theorem c101_rejected_iff_partial (up : Bool) (s : List Nat) (behind : List Nat) (hz : 0 ∈ behind) :
    ofString s (letter .X up) behind = .throw (.invalidArgument "Invalid UUID format") ↔
      s.length ≠ 68 ∨
        (s.getLast? ≠ some 48 ∧ (∀ c ∈ s, c < 256) ∧ (unprefixedDigits s).length < 32) := by
  rw [ofString_letter, parseFmt, init_X_all s behind hz]
  split
  · rename_i h; exact ⟨fun _ => .inl h, fun _ => rfl⟩
  · rename_i h
    split
    · rename_i h2
      simp only [reduceCtorEq, false_iff]
      rintro (h3 | ⟨h3, h4, h5⟩)
      · exact h h3
      · rcases h2 with h2 | h2 | ⟨c, hc, hw⟩
        · exact h3 h2
        · omega
        · have := h4 c hc; omega
    · rename_i h2
      have h3 : s.getLast? ≠ some 48 := fun e => h2 (.inl e)
      have h5 : ∀ c ∈ s, c < 256 := fun c hc => by
        by_contra e; exact h2 (.inr (.inr ⟨c, hc, by omega⟩))
      split
      · rename_i h6; exact ⟨fun _ => .inr ⟨h3, h5, h6⟩, fun _ => rfl⟩
      · rename_i h6
        simp only [reduceCtorEq, false_iff]
        rintro (h7 | ⟨_, _, h7⟩)
        · exact h h7
        · exact h6 h7

example : ofString (List.replicate 68 32) 'X' [0] = .throw (.invalidArgument "Invalid UUID format") := by
  decide +kernel

/-! ## C99 -/

/-- C99: parsing in the formats N, D, B and P is undefined exactly for the strings of the right
length with every dash, brace and parenthesis in place that contain a character above 255. -/
theorem c99_undefined_iff_partial (l : Layout) (hX : l ≠ .X) (up : Bool) (s : List Nat) (behind : List Nat)
    (hz : 0 ∈ behind) :
    ofString s (letter l up) behind = .ub ↔
      s.length = textLength l ∧ (∀ (i q : Nat), (shape l)[i]? = some (some q) → s[i]? = some q) ∧
        ∃ c ∈ s, 255 < c := by
  have hloose : ∀ (ps : List (Option Nat)) (s : List Nat), Loose ps s ↔
      s.length = ps.length ∧ ∀ (i q : Nat), ps[i]? = some (some q) → s[i]? = some q := by
    intro ps
    induction ps with
    | nil => intro s; cases s <;> simp [Loose]
    | cons p ps ih =>
      intro s
      cases s with
      | nil => cases p <;> simp [Loose]
      | cons c s =>
        cases p with
        | none =>
          rw [Loose, ih]
          simp only [List.length_cons, Nat.add_right_cancel_iff]
          refine and_congr_right fun _ => ⟨fun h i q hi => ?_, fun h i q hi => ?_⟩
          · cases i with
            | zero => simp at hi
            | succ i => simpa using h i q (by simpa using hi)
          · simpa using h (i + 1) q (by simpa using hi)
        | some p =>
          rw [Loose, ih]
          simp only [List.length_cons, Nat.add_right_cancel_iff]
          constructor
          · rintro ⟨rfl, h1, h2⟩
            refine ⟨h1, fun i q hi => ?_⟩
            cases i with
            | zero => simpa using hi
            | succ i => simpa using h2 i q (by simpa using hi)
          · rintro ⟨h1, h2⟩
            refine ⟨by simpa using h2 0 p (by simp), h1, fun i q hi => ?_⟩
            simpa using h2 (i + 1) q (by simpa using hi)
  have hlen : (shape l).length = textLength l := by cases l <;> rfl
  have hsplit : (s.length = textLength l ∧ (∀ (i q : Nat), (shape l)[i]? = some (some q) → s[i]? = some q) ∧
      ∃ c ∈ s, 255 < c) ↔ Loose (shape l) s ∧ ∃ c ∈ s, 255 < c := by
    rw [hloose, hlen, and_assoc]
  rw [hsplit]
  by_cases hw : ∃ c ∈ s, 255 < c
  · obtain ⟨v, hv, hiff⟩ := isAValid_eq l hX s
    have hp : (parseFmt l).prefixed = false := by cases l <;> first | rfl | exact absurd rfl hX
    rw [ofString_letter, initFromFmt, hv, ← hiff]
    cases v
    · simp
    · simp [hp, stripNonHex, copyHex_wide s hw, hw]
  · have hs : ∀ c ∈ s, c < 256 := fun c hc => by
      by_contra h; exact hw ⟨c, hc, by omega⟩
    simp only [hw, and_false, iff_false]
    rcases c19_parse l hX up s hs behind hz with ⟨_, e⟩ | ⟨_, e⟩ <;> simp [e]

/-- C99: and a string, wide or not, is accepted in these formats exactly if it has the shape of
the format; the UUID is the one its digits denote. -/
theorem c99_accepted_iff_partial (l : Layout) (hX : l ≠ .X) (up : Bool) (s : List Nat) (behind u : List Nat)
    (hz : 0 ∈ behind) :
    ofString s (letter l up) behind = .ok u ↔ HasShape (shape l) s ∧ u = ofDigits (digitsAt (shape l) s) := by
  by_cases hs : ∀ c ∈ s, c < 256
  · rcases c19_parse l hX up s hs behind hz with ⟨h, e⟩ | ⟨h, e⟩
    · rw [e]
      constructor
      · intro e'; injection e' with e'; exact ⟨h, e'.symm⟩
      · rintro ⟨_, rfl⟩; rfl
    · rw [e]; simp [h]
  · have hn : ¬HasShape (shape l) s := fun h => hs (hasShape_lt _ (shape_lt l) s h)
    simp only [hn, false_and, iff_false]
    intro e
    obtain ⟨v, hv, hiff⟩ := isAValid_eq l hX s
    have hp : (parseFmt l).prefixed = false := by cases l <;> first | rfl | exact absurd rfl hX
    have hw : ∃ c ∈ s, 255 < c := by
      push Not at hs
      obtain ⟨c, hc, h⟩ := hs
      exact ⟨c, hc, by omega⟩
    rw [ofString_letter, initFromFmt, hv] at e
    cases v
    · simp at e
    · simp [hp, stripNonHex, copyHex_wide s hw] at e

example : ofString (chars "00112233-4455-6677-8899-AABBCCDDEEF" ++ [0x416]) 'D' [0] = .ub := by decide +kernel
example : ofString (chars "00112233-4455-6677+8899-AABBCCDDEEF" ++ [0x416]) 'D' [0] =
    .throw (.invalidArgument "Invalid UUID format") := by decide +kernel

end Wite.Props
