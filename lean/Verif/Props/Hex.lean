import Verif.Lemmas.Hex

/-!
# Properties C09–C15 and C96: hexadecimal text
-/

namespace Wite.Props

open Wite.Hex Wite.Spec

/-- C09: `hexlify` writes two upper-case digits per byte (and stays inside its buffer). -/
theorem c09_hexlify_text (bytes : List Nat) (hb : ∀ b ∈ bytes, b < 256) :
    hexlify bytes = .ok (hexText bytes) := hexlify_spec bytes hb

/-- C09: `unhexlify` undoes `hexlify`. -/
theorem c09_unhexlify_hexlify (bytes : List Nat) (hb : ∀ b ∈ bytes, b < 256) :
    (hexlify bytes >>= unhexlify) = .ok bytes := by
  rw [hexlify_spec bytes hb, Outcome.bind_ok, unhexlify]
  have hl := hexText_length bytes
  have hd := denote_hexText bytes hb
  have htake : (hexText bytes).take (2 * ((hexText bytes).length / 2)) = hexText bytes := by
    apply List.take_of_length_le; omega
  rcases unhexlifyLoop_cases ((hexText bytes).length / 2) (hexText bytes) (by omega) with
    ⟨hbad, _⟩ | ⟨_, bs, hbs, hok⟩
  · rw [htake] at hbad
    exact absurd ((denote_isSome_iff _).1 ⟨_, hd⟩).2 hbad
  · rw [htake, hd] at hbs
    cases hbs
    exact hok

example : (hexlify [0x00, 0xAB, 0xFF]) = .ok ("00ABFF".toList.map Char.toNat) := by decide
example : ∀ b ∈ [0x00, 0xAB, 0xFF], b < 256 := by decide

/-- C10: decoding and re-encoding upper-cases the letters and changes nothing else. -/
theorem c10_hexlify_unhexlify (s : List Nat) (heven : s.length % 2 = 0)
    (hhex : ∀ c ∈ s, IsHexDigit c) :
    (unhexlify s >>= hexlify) = .ok (s.map toUpper) := by
  rw [unhexlify]
  have htake : s.take (2 * (s.length / 2)) = s := by
    apply List.take_of_length_le; omega
  rcases unhexlifyLoop_cases (s.length / 2) s (by omega) with ⟨hbad, _⟩ | ⟨_, bs, hbs, hok⟩
  · rw [htake] at hbad; exact absurd hhex hbad
  · rw [htake] at hbs
    rw [hok, Outcome.bind_ok, hexlify_spec bs (denote_lt hbs), hexText_denote hbs]

example : (unhexlify [97, 66, 57, 102] >>= hexlify) = .ok [65, 66, 57, 70] := by decide
example : ([97, 66, 57, 102] : List Nat).length % 2 = 0 ∧ ∀ c ∈ [97, 66, 57, 102], IsHexDigit c := by
  decide

/-- C11, exactly what the code does: the last character of an odd-length string is
ignored; the rest is accepted iff it consists of hex digits, and then decoded.  Missing
from the claim: rejection of odd lengths. -/
theorem c11_unhexlify_exact_partial (s : List Nat) :
    (unhexlify s = .throw (.invalidArgument "Invalid hex char") ∧
      ∃ c ∈ s.take (s.length - s.length % 2), ¬ IsHexDigit c) ∨
    ((∀ c ∈ s.take (s.length - s.length % 2), IsHexDigit c) ∧
      ∃ bs, denote (s.take (s.length - s.length % 2)) = some bs ∧ unhexlify s = .ok bs) := by
  have e : s.length - s.length % 2 = 2 * (s.length / 2) := by omega
  rw [e, unhexlify]
  rcases unhexlifyLoop_cases (s.length / 2) s (by omega) with ⟨hbad, ht⟩ | h
  · left
    refine ⟨ht, ?_⟩
    by_contra hno
    apply hbad
    intro c hc
    by_contra hh
    exact hno ⟨c, hc, hh⟩
  · right; exact h

/-- C11 for even-length strings, in the words of the property: it returns normally iff all
characters are hex digits, and throws `invalid_argument` otherwise. -/
theorem c11_unhexlify_even_partial (s : List Nat) (heven : s.length % 2 = 0) :
    ((∃ bs, unhexlify s = .ok bs) ↔ ∀ c ∈ s, IsHexDigit c) ∧
    ((¬ ∀ c ∈ s, IsHexDigit c) → unhexlify s = .throw (.invalidArgument "Invalid hex char")) := by
  have := c11_unhexlify_exact_partial s
  rw [heven, Nat.sub_zero, List.take_length] at this
  rcases this with ⟨ht, c, hc, hn⟩ | ⟨hall, bs, _, hok⟩
  · refine ⟨⟨?_, fun h => absurd (h c hc) hn⟩, fun _ => ht⟩
    rintro ⟨bs, h⟩; rw [ht] at h; cases h
  · exact ⟨⟨fun _ => hall, fun _ => ⟨bs, hok⟩⟩, fun h => absurd hall h⟩

example : ([52, 49] : List Nat).length % 2 = 0 ∧ ∀ c ∈ [52, 49], IsHexDigit c := by decide

/-- C11 is false for every string of odd length: its last character, whatever it is, is not even looked at, so that
the string is accepted exactly if the ones before are hex digits. -/
theorem c11_refuted_odd_length_accepted (s : List Nat) (heven : s.length % 2 = 0) (c : Nat) :
    unhexlify (s ++ [c]) = unhexlify s ∧ ((∃ bs, unhexlify (s ++ [c]) = .ok bs) ↔ ∀ d ∈ s, IsHexDigit d) := by
  have e : unhexlify (s ++ [c]) = unhexlify s := by
    have h1 := c11_unhexlify_exact_partial (s ++ [c])
    have h2 := c11_unhexlify_exact_partial s
    rw [show (s ++ [c]).length - (s ++ [c]).length % 2 = s.length by simp; omega, List.take_left] at h1
    rw [heven, Nat.sub_zero, List.take_length] at h2
    rcases h1 with ⟨h1, x, hx, nx⟩ | ⟨a1, bs, d1, h1⟩ <;> rcases h2 with ⟨h2, y, hy, ny⟩ | ⟨a2, bs', d2, h2⟩
    · rw [h1, h2]
    · exact absurd (a2 x hx) nx
    · exact absurd (a1 y hy) ny
    · rw [d1] at d2; cases d2; rw [h1, h2]
  exact ⟨e, by rw [e]; exact (c11_unhexlify_even_partial s heven).1⟩

example : unhexlify [48] = .ok [] ∧ unhexlify [52, 49, 63] = .ok [0x41] ∧ ¬ IsHexDigit 63 := by decide
example : ([52, 63] : List Nat).length % 2 = 0 ∧ ¬ ∀ c ∈ [52, 63], IsHexDigit c := by decide

/-- C12: `from_hex_chars<T>` with `sizeof(T) = n` returns normally iff the string is
exactly `2n` hex digits. -/
theorem c12_from_hex_chars_accepts (n : Nat) (s : List Nat) :
    (∃ bs, fromHexChars n s = .ok bs) ↔ s.length = 2 * n ∧ ∀ c ∈ s, IsHexDigit c := by
  rcases fromHexChars_cases n s with ⟨h, e⟩ | ⟨hl, h, e⟩ | ⟨hl, h, bs, _, _, e⟩
  · rw [e]; constructor
    · rintro ⟨_, h⟩; cases h
    · rintro ⟨h', _⟩; exact absurd h' h
  · rw [e]; constructor
    · rintro ⟨_, h⟩; cases h
    · rintro ⟨_, h'⟩; exact absurd h' h
  · exact ⟨fun _ => ⟨hl, h⟩, fun _ => ⟨bs, e⟩⟩

/-- C12: the errors, in their order of precedence. -/
theorem c12_from_hex_chars_errors (n : Nat) (s : List Nat) :
    (s.length ≠ 2 * n → fromHexChars n s = .throw (.invalidArgument "Invalid sequence length for type")) ∧
    (s.length = 2 * n → (¬ ∀ c ∈ s, IsHexDigit c) →
      fromHexChars n s = .throw (.invalidArgument "Invalid hex char")) := by
  rcases fromHexChars_cases n s with ⟨h, e⟩ | ⟨hl, h, e⟩ | ⟨hl, h, bs, _, _, e⟩
  · exact ⟨fun _ => e, fun h' => absurd h' h⟩
  · exact ⟨fun h' => absurd hl h', fun _ _ => e⟩
  · exact ⟨fun h' => absurd hl h', fun _ h' => absurd h h'⟩

/-- C12: the bytes of the object returned, in memory order, are those denoted by the
digit pairs. -/
theorem c12_from_hex_chars_value (n : Nat) (s bs : List Nat) (h : fromHexChars n s = .ok bs) :
    denote s = some bs ∧ bs.length = n := by
  rcases fromHexChars_cases n s with ⟨_, e⟩ | ⟨_, _, e⟩ | ⟨_, _, bs', hd, hn, e⟩
  · rw [e] at h; cases h
  · rw [e] at h; cases h
  · rw [e] at h; cases h; exact ⟨hd, hn⟩

example : fromHexChars 2 [49, 50, 97, 66] = .ok [0x12, 0xAB] := by decide
example : fromHexChars 2 [63] = .throw (.invalidArgument "Invalid sequence length for type") := by decide
example : fromHexChars 1 [48, 63] = .throw (.invalidArgument "Invalid hex char") := by decide

/-- The error code corresponding to each exception of the throwing functions. -/
def errorOfMessage (e : Exc) : Option Error :=
  match e with
  | .invalidArgument "Invalid sequence length for type" => some .invalidSequenceLength
  | .invalidArgument "Invalid sequence length" => some .invalidSequenceLength
  | .invalidArgument "Invalid hex char" => some .invalidHexChar
  | _ => none

/-- C13: `try_from_hex_chars` returns the same value, or the error corresponding to the
exception; it does nothing else. -/
theorem c13_try_from_hex_chars_agrees (n : Nat) (s : List Nat) :
    (∃ bs, fromHexChars n s = .ok bs ∧ tryFromHexChars n s = .ok (.value bs)) ∨
    (∃ ex er, fromHexChars n s = .throw ex ∧ errorOfMessage ex = some er ∧
      tryFromHexChars n s = .ok (.error er)) := by
  rcases fromHexChars_cases n s with ⟨h, e⟩ | ⟨hl, h, e⟩ | ⟨hl, h, bs, hd, hn, e⟩
  · right; exact ⟨_, _, e, rfl, by simp [tryFromHexChars, h]⟩
  · right
    have hv : isAllValidHexChars s = false := by
      rw [Bool.eq_false_iff]; exact fun h' => h ((isAllValid_iff s).1 h')
    exact ⟨_, _, e, rfl, by simp [tryFromHexChars, hl, hv]⟩
  · left
    have hv := (isAllValid_iff s).2 h
    refine ⟨bs, e, ?_⟩
    simp [tryFromHexChars, hl, hv, ← hn, unsafeFromHexChars_denote hd]

example : tryFromHexChars 2 [49, 50, 97, 66] = .ok (.value [0x12, 0xAB]) ∧
    tryFromHexChars 1 [49] = .ok (.error .invalidSequenceLength) ∧
    tryFromHexChars 1 [49, 71] = .ok (.error .invalidHexChar) := by decide

/-- C14: `unhexlify<N>` returns normally iff the string is exactly `2N` hex digits. -/
theorem c14_unhexlify_n_accepts (n : Nat) (s : List Nat) :
    (∃ bs, unhexlifyN n s = .ok bs) ↔ s.length = 2 * n ∧ ∀ c ∈ s, IsHexDigit c := by
  rcases unhexlifyN_cases n s with ⟨h, e⟩ | ⟨hl, h, e⟩ | ⟨hl, h, bs, _, _, e⟩
  · rw [e]; constructor
    · rintro ⟨_, h⟩; cases h
    · rintro ⟨h', _⟩; exact absurd h' h
  · rw [e]; constructor
    · rintro ⟨_, h⟩; cases h
    · rintro ⟨_, h'⟩; exact absurd h' h
  · exact ⟨fun _ => ⟨hl, h⟩, fun _ => ⟨bs, e⟩⟩

/-- C14: and then returns the bytes denoted. -/
theorem c14_unhexlify_n_value (n : Nat) (s bs : List Nat) (h : unhexlifyN n s = .ok bs) :
    denote s = some bs ∧ bs.length = n := by
  rcases unhexlifyN_cases n s with ⟨_, e⟩ | ⟨_, _, e⟩ | ⟨_, _, bs', hd, hn, e⟩
  · rw [e] at h; cases h
  · rw [e] at h; cases h
  · rw [e] at h; cases h; exact ⟨hd, hn⟩

/-- C14: the `try_` twin agrees. -/
theorem c14_try_unhexlify_n_agrees (n : Nat) (s : List Nat) :
    (∃ bs, unhexlifyN n s = .ok bs ∧ tryUnhexlifyN n s = .ok (.value bs)) ∨
    (∃ ex er, unhexlifyN n s = .throw ex ∧ errorOfMessage ex = some er ∧
      tryUnhexlifyN n s = .ok (.error er)) := by
  rcases unhexlifyN_cases n s with ⟨h, e⟩ | ⟨hl, h, e⟩ | ⟨hl, h, bs, hd, hn, e⟩
  · right; exact ⟨_, _, e, rfl, by simp [tryUnhexlifyN, h]⟩
  · right
    have hv : isAllValidHexChars s = false := by
      rw [Bool.eq_false_iff]; exact fun h' => h ((isAllValid_iff s).1 h')
    exact ⟨_, _, e, rfl, by simp [tryUnhexlifyN, hl, hv]⟩
  · left
    have hv := (isAllValid_iff s).2 h
    refine ⟨bs, e, ?_⟩
    simp [tryUnhexlifyN, hl, hv, ← hn, unsafeUnhexlifyN_denote hd]

/-- C14: the fixed-size and the dynamic version agree on strings of the right length. -/
theorem c14_unhexlify_n_is_unhexlify (n : Nat) (s : List Nat) (hl : s.length = 2 * n) :
    unhexlifyN n s = unhexlify s := by
  have hd := c11_unhexlify_exact_partial s
  rw [show s.length - s.length % 2 = s.length by omega, List.take_length] at hd
  rcases unhexlifyN_cases n s with ⟨h, _⟩ | ⟨_, h, e⟩ | ⟨_, h, bs, hb, _, e⟩
  · exact absurd hl h
  · rcases hd with ⟨ht, _⟩ | ⟨hall, _⟩
    · rw [e, ht]
    · exact absurd hall h
  · rcases hd with ⟨_, c, hc, hn⟩ | ⟨_, bs', hb', ht⟩
    · exact absurd (h c hc) hn
    · rw [hb] at hb'; cases hb'; rw [e, ht]

example : unhexlifyN 2 [49, 50, 97, 66] = .ok [0x12, 0xAB] ∧
    unhexlifyN 2 [49, 50, 97] = .throw (.invalidArgument "Invalid sequence length") ∧
    unhexlifyN 1 [49, 103] = .throw (.invalidArgument "Invalid hex char") := by decide

/-- C15: the hex digits of the little-endian bytes of an `n`-byte unsigned value read back
as an `n`-byte object whose value, on a little-endian machine, is the original. -/
theorem c15_integer_round_trip (n v : Nat) (hv : v < 256 ^ n) :
    ∃ text obj, hexlify (leBytes n v) = .ok text ∧ fromHexChars n text = .ok obj ∧ leValue obj = v := by
  have hlt := leBytes_lt n v
  have hlen := leBytes_length n v
  refine ⟨_, leBytes n v, hexlify_spec _ hlt, ?_, leValue_leBytes n v hv⟩
  have htl := hexText_length (leBytes n v)
  have hd := denote_hexText _ hlt
  rcases fromHexChars_cases n (hexText (leBytes n v)) with ⟨h, _⟩ | ⟨_, h, _⟩ | ⟨_, _, bs, hb, _, e⟩
  · omega
  · exact absurd ((denote_isSome_iff _).1 ⟨_, hd⟩).2 h
  · rw [hd] at hb; cases hb; exact e

/-- C15: on a big-endian machine the same holds with big-endian bytes. -/
theorem c15_integer_round_trip_big_endian (n v : Nat) (hv : v < 256 ^ n) :
    ∃ text obj, hexlify (beBytes n v) = .ok text ∧ fromHexChars n text = .ok obj ∧ beValue obj = v := by
  have hlt : ∀ b ∈ beBytes n v, b < 256 := by
    intro b hb; exact leBytes_lt n v b (by simpa [beBytes] using hb)
  have hlen : (beBytes n v).length = n := by simp [beBytes, leBytes_length]
  refine ⟨_, beBytes n v, hexlify_spec _ hlt, ?_, ?_⟩
  · have htl := hexText_length (beBytes n v)
    have hd := denote_hexText _ hlt
    rcases fromHexChars_cases n (hexText (beBytes n v)) with ⟨h, _⟩ | ⟨_, h, _⟩ | ⟨_, _, bs, hb, _, e⟩
    · omega
    · exact absurd ((denote_isSome_iff _).1 ⟨_, hd⟩).2 h
    · rw [hd] at hb; cases hb; exact e
  · simp [beValue, beBytes, leValue_leBytes n v hv]

example : hexlify (leBytes 4 0xDEADBEEF) = .ok ("EFBEADDE".toList.map Char.toNat) ∧
    0xDEADBEEF < 256 ^ 4 := by decide

/-- C96: `io::to_integer` of a byte object gives its value as an unsigned byte, for signed
and unsigned byte types and every unsigned result type of at least 8 bits. -/
theorem c96_to_integer_is_unsigned_value (rbits : Nat) (hr : 8 ≤ rbits) (v : Int)
    (hv : -128 ≤ v ∧ v ≤ 255) : (toInteger rbits v : Int) = v % 256 := by
  have hp : (256 : Int) ≤ 2 ^ rbits := by
    have : (2 : Int) ^ 8 ≤ 2 ^ rbits := by
      obtain ⟨k, rfl⟩ := Nat.exists_eq_add_of_le hr
      rw [pow_add]
      have : (1 : Int) ≤ 2 ^ k := Int.pow_pos (by decide)
      omega
    simpa using this
  unfold toInteger
  generalize (2 : Int) ^ rbits = P at hp
  split
  · next h =>
    rw [Int.toNat_of_nonneg (Int.emod_nonneg _ (by omega)), Int.emod_eq_of_lt h (by omega)]
    omega
  · next h =>
    rw [Int.toNat_of_nonneg (Int.emod_nonneg _ (by omega))]
    have e : v % P = v + P := by
      rw [← Int.add_emod_right]
      exact Int.emod_eq_of_lt (by omega) (by omega)
    rw [e, show v + P + 255 + 1 = v + 256 + P by omega, Int.add_emod_right,
      Int.emod_eq_of_lt (by omega) (by omega)]
    omega

example : toInteger 64 (-1) = 255 ∧ toInteger 8 (-128) = 128 ∧ toInteger 16 200 = 200 := by decide

end Wite.Props
