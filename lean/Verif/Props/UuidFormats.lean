import Verif.Props.UuidDefault
import Verif.Props.HexWide

/-!
# C164, C165: formats given as objects, and the unchecked UUID parser
-/

namespace Wite.Props
open Wite Wite.Uuid Wite.Io Wite.Spec Wite.Spec.Uuid Wite.Hex

/-! ## C164 -/

private theorem fmt_irrelevant (s behind : List Nat) (f g : Format) (h1 : f.size = g.size) (h2 : f.prefixed = g.prefixed)
    (h3 : f.opening = g.opening) (h4 : f.closing = g.closing) (h5 : f.delims = g.delims) :
    tryMakeFmt s f behind = tryMakeFmt s g behind := by
  unfold tryMakeFmt isAValidUuidString
  rw [h1, h2, h3, h4, h5]

/-- C164, what holds: with nine of the ten format objects `try_make_uuid` does what it does with the letter, and hence
the same for the lower-case and the upper-case object, for every text. -/
theorem c164_same_partial (l : Layout) (up : Bool) (h : ¬ (l = .X ∧ up = false)) (s behind : List Nat) :
    tryMakeFmt s (fmtOf l up) behind = tryMake s (letter l up) behind := by
  rw [tryMake_letter]
  cases l <;> cases up <;> first
    | exact absurd ⟨rfl, rfl⟩ h
    | exact fmt_irrelevant s behind _ _ rfl rfl rfl rfl rfl

/-- C164 for the tenth, `uuid_format::x`: it accepts what the letter accepts, but only between braces. -/
theorem c164_x_exact_partial (s behind : List Nat) :
    tryMakeFmt s x behind =
      if s.head? = some 123 ∧ s.getLast? = some 125 then tryMake s 'x' behind else .ok (.error .invalidUuidFormat) := by
  rw [show tryMake s 'x' behind = tryMakeFmt s X behind from rfl]
  by_cases hl : s.length = 68
  · have hv : isAValidUuidString x s = .ok (decide (s.head? = some 123 ∧ s.getLast? = some 125)) := by
      rw [isAValidUuidString, if_neg (by show ¬ s.length ≠ 68; omega)]
      cases hh : s.head? with
      | none => rw [List.head?_eq_none_iff] at hh; subst hh; cases hl
      | some a =>
        cases ht : s.getLast? with
        | none => rw [List.getLast?_eq_none_iff] at ht; subst ht; cases hl
        | some b =>
          have e1 : isDelimiter x.opening a = decide (a = 123) := by
            show (123 == 0 || 123 == a) = _
            by_cases h : a = 123 <;> simp [h]; omega
          have e2 : isDelimiter x.closing b = decide (b = 125) := by
            show (125 == 0 || 125 == b) = _
            by_cases h : b = 125 <;> simp [h]; omega
          simp only [e1, e2, Option.some.injEq]
          by_cases ha : a = 123 <;> by_cases hb : b = 125 <;> simp [ha, hb, hasInvalidDelimiter, show x.delims = [] from rfl]
    have hX : isAValidUuidString X s = .ok true := by
      rw [isAValidUuidString, if_neg (by show ¬ s.length ≠ 68; omega)]
      cases hh : s.head? with
      | none => rw [List.head?_eq_none_iff] at hh; subst hh; cases hl
      | some a =>
        cases ht : s.getLast? with
        | none => rw [List.getLast?_eq_none_iff] at ht; subst ht; cases hl
        | some b => rfl
    unfold tryMakeFmt
    rw [hv, hX]
    by_cases h : s.head? = some 123 ∧ s.getLast? = some 125
    · rw [if_pos h, decide_eq_true h]
      rfl
    · rw [if_neg h, decide_eq_false h]
      rfl
  · have h1 : tryMakeFmt s x behind = .ok (.error .invalidUuidFormat) := by
      rw [tryMakeFmt, isAValidUuidString, if_pos (by show s.length ≠ 68; exact hl)]; rfl
    have h2 : tryMakeFmt s X behind = .ok (.error .invalidUuidFormat) := by
      rw [tryMakeFmt, isAValidUuidString, if_pos (by show s.length ≠ 68; exact hl)]; rfl
    rw [h1, h2, ite_self]

private theorem keepX_of_no_x (s : List Nat) (h : 120 ∉ s) : keepX s = hexOnly s := by
  induction s using keepX.induct with
  | case1 => rfl
  | case2 c hc => simp [keepX, hexOnly, hc]
  | case3 c hc => simp [keepX, hexOnly, hc]
  | case4 c c' rest hcc ih => exact absurd (by simp [hcc.2]) h
  | case5 c c' rest hcc hc ih =>
    rw [keepX, if_neg hcc, if_pos hc, ih (fun hm => h (List.mem_cons_of_mem _ hm))]
    simp [hexOnly, hc]
  | case6 c c' rest hcc hc ih =>
    rw [keepX, if_neg hcc, if_neg hc, ih (fun hm => h (List.mem_cons_of_mem _ hm))]
    simp [hexOnly, hc]

/-- C164 is false for `uuid_format::x`: for every UUID there is a text that the letters 'x' and 'X' and the object
`uuid_format::X` read as that UUID and `uuid_format::x` refuses. -/
theorem c164_refuted_x (u : List Nat) (hu : IsUuid u) : ∃ s : List Nat, (∀ c ∈ s, c < 256) ∧
    ∀ behind, 0 ∈ behind →
      tryMake s 'x' behind = .ok (.value u) ∧ tryMake s 'X' behind = .ok (.value u) ∧
      tryMakeFmt s X behind = .ok (.value u) ∧ tryMakeFmt s x behind = .ok (.error .invalidUuidFormat) := by
  obtain ⟨hsh, hd⟩ := ofDigits_text .N true hu
  have hlen := text_length .N true hu
  have h32 : (text .N true u).length = 32 := hlen
  rw [show shape .N = List.replicate 32 none from rfl, digitsAt_digits _ 32 h32] at hd
  have hhex : ∀ c ∈ text .N true u, IsHexDigit c := by
    have := digitsAt_isHex _ _ hsh
    rwa [show shape .N = List.replicate 32 none from rfl, digitsAt_digits _ 32 h32] at this
  have hlt : ∀ c ∈ text .N true u ++ List.replicate 36 32, c < 256 := by
    intro c hc
    rcases List.mem_append.1 hc with h | h
    · have := hhex c h; unfold IsHexDigit at this; omega
    · rw [List.eq_of_mem_replicate h]; omega
  refine ⟨text .N true u ++ List.replicate 36 32, hlt, fun behind hz => ?_⟩
  have hlast : (text .N true u ++ List.replicate 36 32).getLast? = some 32 := by
    rw [List.getLast?_append]; rfl
  have hk : keepX (text .N true u ++ List.replicate 36 32) = text .N true u := by
    rw [keepX_of_no_x]
    · rw [hexOnly, List.filter_append, List.filter_eq_self.2 (by intro c hc; exact decide_eq_true (hhex c hc))]
      rw [show (List.replicate 36 32).filter (fun c => decide (IsHexDigit c)) = [] by decide +kernel, List.append_nil]
    · intro hc
      rcases List.mem_append.1 hc with h | h
      · have := hhex _ h; unfold IsHexDigit at this; omega
      · have := List.eq_of_mem_replicate h; omega
  have hi := init_X _ hlt behind hz
  rw [if_neg (by simp [h32]), hk, h32, if_neg (by rw [hlast]; decide), if_neg (by decide), hd] at hi
  have hX : tryMake (text .N true u ++ List.replicate 36 32) 'X' behind = .ok (.value u) := by
    rcases c21_try_make_agrees (text .N true u ++ List.replicate 36 32) 'X' behind with ⟨v, h, h'⟩ | h | h | h | h | h
    · rw [show ofString (text .N true u ++ List.replicate 36 32) 'X' behind =
        initFromFmt (text .N true u ++ List.replicate 36 32) X behind from rfl, hi] at h
      cases h; exact h'
    all_goals
      rw [show ofString (text .N true u ++ List.replicate 36 32) 'X' behind =
        initFromFmt (text .N true u ++ List.replicate 36 32) X behind from rfl, hi] at h
      cases h.1
  refine ⟨hX, hX, hX, ?_⟩
  rw [c164_x_exact_partial, if_neg (by rw [hlast]; rintro ⟨-, h⟩; exact absurd h (by decide))]

/-- C164: unlike the letters, `uuid_format::x` never looks behind the end of the text; it is undefined exactly if the
text between braces has more than 32 digits. -/
theorem c164_x_defined_partial (s : List Nat) (hs : ∀ c ∈ s, c < 256) (behind : List Nat) (hz : 0 ∈ behind) :
    tryMakeFmt s x behind = .ub ↔
      s.length = 68 ∧ s.head? = some 123 ∧ s.getLast? = some 125 ∧ 32 < (keepX s).length := by
  have hi := init_X s hs behind hz
  have hu : tryMake s 'x' behind = .ub ↔ initFromFmt s X behind = .ub := by
    rw [show initFromFmt s X behind = ofString s 'x' behind from rfl]
    rcases c21_try_make_agrees s 'x' behind with ⟨v, h, h'⟩ | ⟨h, h'⟩ | ⟨h, h'⟩ | ⟨h, h'⟩ | ⟨h, h'⟩ | ⟨h, h'⟩ <;>
      rw [h, h'] <;> simp
  rw [c164_x_exact_partial]
  by_cases hb : s.head? = some 123 ∧ s.getLast? = some 125
  · rw [if_pos hb, hu, hi, hb.1, hb.2]
    by_cases h68 : s.length = 68
    · rw [if_neg (by omega)]
      by_cases hk : 32 < (keepX s).length
      · simp [h68, hk]
      · rw [if_neg (by rintro (h | h); exacts [absurd h (by decide), hk h])]
        split <;> simp [hk]
    · rw [if_pos h68]; simp [h68]
  · rw [if_neg hb]
    constructor
    · intro h; cases h
    · rintro ⟨-, h1, h2, -⟩; exact absurd ⟨h1, h2⟩ hb

example : tryMakeFmt (text .X false (List.range 16)) x [0] = .ok (.value (List.range 16)) ∧
    tryMakeFmt (text .D true (List.range 16)) d [0] = .ok (.value (List.range 16)) ∧
    tryMakeFmt (text .N true (List.range 16) ++ List.replicate 36 32) x [0] = .ok (.error .invalidUuidFormat) ∧
    tryMakeFmt (text .N true (List.range 16) ++ List.replicate 36 32) X [0] = .ok (.value (List.range 16)) := by
  decide +kernel

/-! ## C165 -/

/-- C165 is false: `unsafe_basic_uuid_from_string` pays no attention to where the view ends.  A view of the first
characters of a text gives what the whole text gives, for every view and every text. -/
theorem c165_refuted_length (s t behind : List Nat) :
    unsafeFromString s (t ++ behind) = unsafeFromString (s ++ t) behind := by
  simp only [unsafeFromString, List.append_assoc]

/-- C165 is false: so every view of fewer than 32 digits, which is an error of the caller that the memory behind it
decides about, gives different UUIDs in different surroundings, and is undefined in others. -/
theorem c165_refuted_short (s : List Nat) (hs : ∀ c ∈ s, IsHexDigit c) (hl : s.length < 32) :
    ∃ b b' : List Nat, unsafeFromString s [0] = .ub ∧
      ∃ u u', unsafeFromString s b = .ok u ∧ unsafeFromString s b' = .ok u' ∧ u ≠ u' := by
  have hub : unsafeFromString s [0] = .ub := by
    rw [unsafeFromString, usedChars_ofCStr s [0] hs (by simp)]
    simp only [Outcome.bind_ok]
    rw [(c116_undefined_iff 16 _).2.2 (by simp; omega)]; rfl
  have key : ∀ d, IsHexDigit d → unsafeFromString s (List.replicate (32 - s.length) d ++ [0]) =
      .ok (ofDigits (s ++ List.replicate (32 - s.length) d)) := by
    intro d hd
    rw [c165_refuted_length]
    refine unsafeFromString_eq _ _ ?_ (by simp; omega) (by simp)
    intro c hc
    rcases List.mem_append.1 hc with h | h
    · exact hs c h
    · rw [List.eq_of_mem_replicate h]; exact hd
  refine ⟨_, _, hub, _, _, key 48 (by decide), key 49 (by decide), ?_⟩
  intro he
  have h15 : ∀ d, (ofDigits (s ++ List.replicate (32 - s.length) d))[15]? =
      some (hexNumber (((s ++ List.replicate (32 - s.length) d).drop 30).take 2)) := by
    intro d
    simp only [ofDigits]
    rw [List.getElem?_append_right (by simp [leBytes_length])]
    simp [leBytes_length]
  have hsplit : ∀ d, ∃ a, a = (s ++ List.replicate (31 - s.length) d).drop 30 ∧
      ((s ++ List.replicate (32 - s.length) d).drop 30).take 2 = a ++ [d] := by
    intro d
    refine ⟨_, rfl, ?_⟩
    rw [show 32 - s.length = (31 - s.length) + 1 by omega, List.replicate_succ', ← List.append_assoc,
      List.drop_append_of_le_length (by simp; omega), List.take_of_length_le (by simp; omega)]
  have h0 := h15 48
  have h1 := h15 49
  rw [he, h1] at h0
  obtain ⟨a, -, ha⟩ := hsplit 48
  obtain ⟨b, -, hb⟩ := hsplit 49
  rw [ha, hb, hexNumber_append, hexNumber_append] at h0
  have e0 : hexNumber [48] = 0 := by decide
  have e1 : hexNumber [49] = 1 := by decide
  rw [e0, e1] at h0
  simp only [List.length_singleton, pow_one, Option.some.injEq] at h0
  omega

/-- C165 is false: even a view of 32 digits is undefined if no NUL follows it anywhere. -/
theorem c165_refuted_unterminated (s behind : List Nat) (hs : 0 ∉ s) (hb : 0 ∉ behind) :
    unsafeFromString s behind = .ub := by
  rw [unsafeFromString, ofCStr, if_neg (by simp [hs, hb])]; rfl

/-- C165, what holds: it is defined exactly if there is a NUL somewhere, with at least 32 characters before it; it
never throws. -/
theorem c165_defined_partial (s behind : List Nat) :
    ((∃ u, unsafeFromString s behind = .ok u) ↔
      0 ∈ s ++ behind ∧ 32 ≤ ((s ++ behind).takeWhile (· ≠ 0)).length) ∧
    ((¬ ∃ u, unsafeFromString s behind = .ok u) → unsafeFromString s behind = .ub) := by
  unfold unsafeFromString ofCStr
  by_cases hz : 0 ∈ s ++ behind
  · rw [if_pos hz]
    simp only [Outcome.bind_ok]
    by_cases hl : 32 ≤ ((s ++ behind).takeWhile (· ≠ 0)).length
    · obtain ⟨bs, -, h, -⟩ := c116_bytes 16 _ hl
      rw [h]
      exact ⟨⟨fun _ => ⟨hz, hl⟩, fun _ => ⟨_, rfl⟩⟩, fun hn => absurd ⟨_, rfl⟩ hn⟩
    · rw [(c116_undefined_iff 16 _).2.2 (by omega)]
      exact ⟨⟨fun ⟨u, h⟩ => (by cases h), fun h => absurd h.2 hl⟩, fun _ => rfl⟩
  · rw [if_neg hz]
    exact ⟨⟨fun ⟨u, h⟩ => (by cases h), fun h => absurd h.1 hz⟩, fun _ => rfl⟩

/-- C165: a view that starts with 32 digits and is followed by a NUL somewhere gives the UUID of these digits, whatever
else it contains. -/
theorem c165_digits_partial (ds rest behind : List Nat) (h : ∀ c ∈ ds, IsHexDigit c) (hl : ds.length = 32)
    (hz : 0 ∈ rest ++ behind) : unsafeFromString (ds ++ rest) behind = .ok (ofDigits ds) := by
  rw [← c165_refuted_length]
  exact unsafeFromString_eq ds _ h hl hz

example : unsafeFromString (text .N true (List.range 16)) [0] = .ok (List.range 16) ∧
    unsafeFromString (text .N true (List.range 16)) [] = .ub ∧
    unsafeFromString ((text .N true (List.range 16)).take 7) ((text .N true (List.range 16)).drop 7 ++ [33, 0]) =
      .ok (List.range 16) := by decide +kernel

end Wite.Props
