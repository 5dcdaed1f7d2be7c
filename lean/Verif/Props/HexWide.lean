import Verif.Model.HexlifyWide
import Verif.Lemmas.Hex

/-!
# Properties of the unchecked and the wide functions of `binascii`
-/

namespace Wite.Props

open Wite.Hex Wite.Spec

private theorem lowNibble_invalid {c : Nat} (h : hexVal c = none) : lowNibble c = 255 := by
  unfold lowNibble
  split <;> first | rfl | (exact absurd h (by decide))

private theorem highNibble_invalid {c : Nat} (h : hexVal c = none) : highNibble c = 255 := by
  unfold highNibble
  split <;> first | rfl | (exact absurd h (by decide))

private theorem or_255 : ∀ x < 256, (x ||| 255) % 256 = 255 ∧ (255 ||| x) % 256 = 255 := by decide +kernel

private theorem nibble_lt (c : Nat) : lowNibble c < 256 ∧ highNibble c < 256 := by
  cases h : hexVal c with
  | none => rw [lowNibble_invalid h, highNibble_invalid h]; decide
  | some v =>
    have := nibbles h
    have := hexVal_lt h
    omega

/-- The byte the unchecked functions make of two characters. -/
private theorem pair_byte (c1 c2 : Nat) : (highNibble c1 ||| lowNibble c2) % 256 =
    match hexVal c1, hexVal c2 with
    | some h, some l => 16 * h + l
    | _, _ => 255 := by
  split
  · next h l h1 h2 => exact byte_of_digits h1 h2
  · next hno =>
    cases h1 : hexVal c1 with
    | none => rw [highNibble_invalid h1]; exact (or_255 _ (nibble_lt c2).1).2
    | some a =>
      cases h2 : hexVal c2 with
      | none => rw [lowNibble_invalid h2]; exact (or_255 _ (nibble_lt c1).2).1
      | some b => exact absurd h2 (hno a b h1)

private theorem unsafe_pair (c1 c2 : Nat) :
    unsafeFromHexChars 1 [c1, c2] = .ok [(highNibble c1 ||| lowNibble c2) % 256] := rfl

private theorem unsafeN_eq (n : Nat) (s : List Nat) : unsafeUnhexlifyN n s = unsafeFromHexChars n s := by
  induction n generalizing s with
  | zero => rfl
  | succ n ih =>
    match s with
    | [] => rfl
    | [_] => rfl
    | c1 :: c2 :: rest =>
      rw [unsafeUnhexlifyN, unsafe_pair, Outcome.bind_ok, ih, unsafeFromHexChars]
      rfl

/-- C116: reading is undefined exactly if the text has fewer than two characters per byte. -/
theorem c116_undefined_iff (n : Nat) (s : List Nat) :
    (unsafeFromHexChars n s = .ub ↔ s.length < 2 * n) ∧ (unsafeUnhexlifyN n s = .ub ↔ s.length < 2 * n) := by
  rw [unsafeN_eq, and_self]
  induction n generalizing s with
  | zero => simp [unsafeFromHexChars]
  | succ n ih =>
    match s with
    | [] => simp [unsafeFromHexChars]
    | [_] => simp only [unsafeFromHexChars, List.length_cons, List.length_nil, true_iff]; omega
    | c1 :: c2 :: rest =>
      have := ih rest
      rw [unsafeFromHexChars]
      cases h : unsafeFromHexChars n rest with
      | ub => rw [h] at this; simp only [true_iff] at this; simp [this]; omega
      | _ => rw [h] at this; simp at this ⊢; omega

/-- C116: otherwise each byte is the value of its two digits if both are hexadecimal digits, and 0xFF if one is not.
Characters after those are ignored. -/
theorem c116_bytes (n : Nat) (s : List Nat) (hl : 2 * n ≤ s.length) :
    ∃ bs, unsafeFromHexChars n s = .ok bs ∧ unsafeUnhexlifyN n s = .ok bs ∧ bs.length = n ∧
      ∀ k < n, ∀ c1 c2, s[2 * k]? = some c1 → s[2 * k + 1]? = some c2 →
        bs[k]? = some (match hexVal c1, hexVal c2 with
          | some h, some l => 16 * h + l
          | _, _ => 255) := by
  simp only [unsafeN_eq, ← and_assoc, and_self]
  simp only [and_assoc]
  induction n generalizing s with
  | zero => exact ⟨[], rfl, rfl, by simp⟩
  | succ n ih =>
    match s with
    | [] => simp only [List.length_nil] at hl; omega
    | [_] => simp only [List.length_cons, List.length_nil] at hl; omega
    | c1 :: c2 :: rest =>
      obtain ⟨bs, h1, h2, h3⟩ := ih rest (by simp at hl; omega)
      refine ⟨(highNibble c1 ||| lowNibble c2) % 256 :: bs, by rw [unsafeFromHexChars, h1]; rfl, by simp [h2], ?_⟩
      intro k hk d1 d2 e1 e2
      cases k with
      | zero =>
        simp only [Nat.mul_zero, List.getElem?_cons_zero, Option.some.injEq] at e1
        simp only [Nat.mul_zero, Nat.zero_add, List.getElem?_cons_succ, List.getElem?_cons_zero, Option.some.injEq] at e2
        subst e1; subst e2
        rw [List.getElem?_cons_zero, pair_byte]
      | succ k =>
        rw [show 2 * (k + 1) = 2 * k + 1 + 1 by omega, List.getElem?_cons_succ, List.getElem?_cons_succ] at e1
        rw [show 2 * (k + 1) + 1 = 2 * k + 1 + 1 + 1 by omega, List.getElem?_cons_succ, List.getElem?_cons_succ] at e2
        rw [List.getElem?_cons_succ]
        exact h3 k (by omega) d1 d2 e1 e2

/-- C116: wherever a checked function accepts the text, the unchecked one returns the same bytes. -/
theorem c116_agrees (n : Nat) (s bs : List Nat) :
    (fromHexChars n s = .ok bs → unsafeFromHexChars n s = .ok bs) ∧
    (tryFromHexChars n s = .ok (.value bs) → unsafeFromHexChars n s = .ok bs) ∧
    (unhexlifyN n s = .ok bs → unsafeUnhexlifyN n s = .ok bs) ∧
    (tryUnhexlifyN n s = .ok (.value bs) → unsafeUnhexlifyN n s = .ok bs) := by
  refine ⟨fun h => ?_, fun h => ?_, fun h => ?_, fun h => ?_⟩
  · unfold fromHexChars at h
    split at h
    · simp at h
    · split at h
      · simp at h
      · exact h
  · unfold tryFromHexChars at h
    split at h
    · simp at h
    · split at h
      · simp at h
      · cases hu : unsafeFromHexChars n s <;> rw [hu] at h <;> first | (simp_all; done) | exact absurd h (by intro h; cases h)
  · unfold unhexlifyN at h
    split at h
    · simp at h
    · split at h
      · simp at h
      · exact h
  · unfold tryUnhexlifyN at h
    split at h
    · simp at h
    · split at h
      · simp at h
      · cases hu : unsafeUnhexlifyN n s <;> rw [hu] at h <;> first | (simp_all; done) | exact absurd h (by intro h; cases h)

/-- C116: so the unchecked functions cannot be used to find invalid characters: every byte they return is also
returned for a valid text. -/
theorem c116_invalid_not_visible (n : Nat) (s bs : List Nat) (h : unsafeFromHexChars n s = .ok bs) :
    ∃ t, fromHexChars n t = .ok bs := by
  by_cases hl : 2 * n ≤ s.length
  · obtain ⟨cs, h1, -, h2, h3⟩ := c116_bytes n s hl
    have e : cs = bs := by rw [h] at h1; injection h1 with h1; exact h1.symm
    subst e
    have hb : ∀ b ∈ cs, b < 256 := by
      intro b hb
      obtain ⟨k, hk, rfl⟩ := List.getElem_of_mem hb
      have hk' : 2 * k + 1 < s.length := by omega
      have := h3 k (by omega) s[2 * k] s[2 * k + 1] (List.getElem?_eq_getElem (by omega)) (List.getElem?_eq_getElem hk')
      rw [List.getElem?_eq_getElem hk, Option.some.injEq] at this
      rw [this]
      clear this
      split
      · next a b h1 h2 => have := hexVal_lt h1; have := hexVal_lt h2; show 16 * a + b < 256; omega
      · decide
    have hd := denote_hexText cs hb
    refine ⟨hexText cs, ?_⟩
    unfold fromHexChars
    rw [if_neg (by rw [hexText_length, h2]; simp), if_neg, ← h2]
    · exact unsafeFromHexChars_denote hd
    · have := (denote_isSome_iff (hexText cs)).1 ⟨cs, hd⟩
      rw [(isAllValid_iff _).2 this.2]; decide
  · have := (c116_undefined_iff n s).1.2 (by omega)
    rw [this] at h; simp at h

example : unsafeFromHexChars 2 [52, 49, 52, 120, 70, 70] = .ok [0x41, 0xFF] ∧
    unsafeUnhexlifyN 2 [52, 49, 70, 70] = .ok [0x41, 0xFF] ∧ unsafeFromHexChars 2 [52, 49, 52] = .ub ∧
    fromHexChars 2 [52, 49, 70, 70] = .ok [0x41, 0xFF] := by decide

/-! ## Wide characters -/

private theorem wide_nibbles : lowNibbleW = lowNibble ∧ highNibbleW = highNibble := ⟨rfl, rfl⟩

private theorem wide_valid : isAllValidHexWchars = isAllValidHexChars := rfl

private theorem wide_unsafe (n : Nat) (s : List Nat) : unsafeFromHexCharsW n s = unsafeFromHexChars n s := by
  induction n generalizing s with
  | zero => rfl
  | succ n ih =>
    match s with
    | [] => rfl
    | [_] => rfl
    | c1 :: c2 :: rest => rw [unsafeFromHexCharsW, unsafeFromHexChars, ih, wide_nibbles.1, wide_nibbles.2]

private theorem wide_unsafeN (n : Nat) (s : List Nat) : unsafeUnhexlifyNW n s = unsafeUnhexlifyN n s := by
  induction n generalizing s with
  | zero => rfl
  | succ n ih =>
    match s with
    | [] => rfl
    | [_] => rfl
    | c1 :: c2 :: rest => rw [unsafeUnhexlifyNW, unsafeUnhexlifyN, ih, wide_unsafe]

private theorem wide_from (n : Nat) (s : List Nat) : fromHexCharsW n s = fromHexChars n s := by
  rw [fromHexCharsW, fromHexChars, wide_valid, wide_unsafe]

private theorem wide_loop (n : Nat) (s : List Nat) : unhexlifyLoopW n s = unhexlifyLoop n s := by
  induction n generalizing s with
  | zero => rfl
  | succ n ih =>
    match s with
    | [] => rfl
    | [_] => rfl
    | c1 :: c2 :: rest => rw [unhexlifyLoopW, unhexlifyLoop, ih, wide_from]

/-- C117: the wide overloads do with wide text exactly what the narrow ones do with the same text. -/
theorem c117_wide_is_narrow (n : Nat) (s : List Nat) :
    unsafeFromHexCharsW n s = unsafeFromHexChars n s ∧ fromHexCharsW n s = fromHexChars n s ∧
    tryFromHexCharsW n s = tryFromHexChars n s ∧ unhexlifyW s = unhexlify s ∧
    unsafeUnhexlifyNW n s = unsafeUnhexlifyN n s ∧ unhexlifyNW n s = unhexlifyN n s ∧
    tryUnhexlifyNW n s = tryUnhexlifyN n s := by
  refine ⟨wide_unsafe n s, wide_from n s, ?_, wide_loop _ s, wide_unsafeN n s, ?_, ?_⟩
  · rw [tryFromHexCharsW, tryFromHexChars, wide_valid, wide_unsafe]
  · rw [unhexlifyNW, unhexlifyN, wide_valid, wide_unsafeN]
  · rw [tryUnhexlifyNW, tryUnhexlifyN, wide_valid, wide_unsafeN]

/-- C117: the checked wide functions accept exactly the texts of ASCII hexadecimal digits of the right length; no wide
character above 127 is taken for a digit. -/
theorem c117_accepts (n : Nat) (s : List Nat) :
    ((∃ bs, fromHexCharsW n s = .ok bs) ↔ s.length = 2 * n ∧ ∀ c ∈ s, IsHexDigit c) ∧
    ((∃ bs, unhexlifyNW n s = .ok bs) ↔ s.length = 2 * n ∧ ∀ c ∈ s, IsHexDigit c) := by
  have key : ∀ f : Nat → List Nat → Outcome (List Nat),
      (∀ bs, denote s = some bs → f bs.length s = .ok bs) → ∀ g : Nat → List Nat → Outcome (List Nat),
      (∀ e1 e2, g n s = (if s.length ≠ 2 * n then .throw e1 else if !isAllValidHexChars s then .throw e2 else f n s) →
      ((∃ bs, g n s = .ok bs) ↔ s.length = 2 * n ∧ ∀ c ∈ s, IsHexDigit c)) := by
    intro f hf g e1 e2 hg
    rw [hg]
    constructor
    · rintro ⟨bs, h⟩
      split at h
      · simp at h
      · next hl =>
        split at h
        · simp at h
        · next hv => exact ⟨by omega, (isAllValid_iff s).1 (by simpa using hv)⟩
    · rintro ⟨hl, hv⟩
      rw [if_neg (by omega), (isAllValid_iff s).2 hv]
      obtain ⟨bs, h1, h2⟩ := denote_of_valid hl hv
      exact ⟨bs, by rw [← h2]; simpa using hf bs h1⟩
  constructor
  · refine key unsafeFromHexChars (fun bs h => unsafeFromHexChars_denote h) fromHexCharsW (.invalidArgument "Invalid sequence length for type") (.invalidArgument "Invalid hex char") ?_
    rw [wide_from]; rfl
  · refine key unsafeUnhexlifyN (fun bs h => unsafeUnhexlifyN_denote h) unhexlifyNW (.invalidArgument "Invalid sequence length") (.invalidArgument "Invalid hex char") ?_
    rw [(c117_wide_is_narrow n s).2.2.2.2.2.1]; rfl

/-- C117: the wide table of byte texts is the narrow one: entry `b` is the two upper-case digits of `b`. -/
theorem c117_table (b : Nat) (h : b < 256) :
    ∃ p, wideUpperCaseBytes[b]? = some p ∧ p.1.toNat = upperDigit (b / 16) ∧ p.2.toNat = upperDigit (b % 16) := by
  have e : wideUpperCaseBytes = upperCaseBytes := by decide +kernel
  rw [e]
  exact upperCaseBytes_get b h

example : fromHexCharsW 1 [0x134, 0x131] = .throw (.invalidArgument "Invalid hex char") ∧
    fromHexCharsW 1 [0x34, 0x66] = .ok [0x4F] ∧ unhexlifyW [0x34, 0x31, 0x46, 0x66] = .ok [0x41, 0xFF] := by decide

end Wite.Props
