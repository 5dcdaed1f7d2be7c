import Verif.Lemmas.UuidRound

/-!
# Properties C16–C28 and C99–C102: UUIDs

Throughout, `behind` is the memory behind the parser's 32-character buffer, which the code
searches for a NUL (see C100).
-/

namespace Wite.Props

open Wite.Uuid Wite.Io Wite.Spec Wite.Spec.Uuid Wite.Hex

/-- Characters of a string literal, for the examples. -/
private def chars (s : String) : List Nat := s.toList.map Char.toNat

/-- A sample UUID. -/
private def sample : List Nat := [0x33, 0x22, 0x11, 0x00, 0x55, 0x44, 0x77, 0x66, 0x88, 0x99, 0xAA, 0xBB, 0xCC, 0xDD, 0xEE, 0xFF]

/-! ## C16 -/

/-- C16: for every UUID and each of the ten format letters, parsing the printed text gives
back the UUID. -/
theorem c16_round_trip (host : Endian) (l : Layout) (up : Bool) (u : List Nat) (hu : IsUuid u)
    (behind : List Nat) (hz : 0 ∈ behind) :
    (str host u (letter l up) >>= fun s => ofString s (letter l up) behind) = .ok u := by
  rw [str_eq host l up hu, Outcome.bind_ok, ofString_letter]
  obtain ⟨h1, h2⟩ := ofDigits_text l up hu
  rw [init_hasShape l _ h1 behind hz, h2]

/-- C16: also across formats of the same layout — text printed in lower case parses with the
upper-case letter and conversely. -/
theorem c16_round_trip_mixed (host : Endian) (l : Layout) (up up' : Bool) (u : List Nat) (hu : IsUuid u)
    (behind : List Nat) (hz : 0 ∈ behind) :
    (str host u (letter l up) >>= fun s => ofString s (letter l up') behind) = .ok u := by
  rw [str_eq host l up hu, Outcome.bind_ok, ofString_letter]
  obtain ⟨h1, h2⟩ := ofDigits_text l up hu
  rw [init_hasShape l _ h1 behind hz, h2]

example : (str .little sample 'x' >>= fun s => ofString s 'x' [7, 0]) = .ok sample := by decide +kernel

/-! ## C17 -/

/-- C17: the text printed is the documented layout of the fields. -/
theorem c17_text (host : Endian) (l : Layout) (up : Bool) (u : List Nat) (hu : IsUuid u) :
    str host u (letter l up) = .ok (text l up u) := str_eq host l up hu

/-- C17: the lengths. -/
theorem c17_length (l : Layout) (up : Bool) (u : List Nat) (hu : IsUuid u) :
    (text l up u).length = textLength l := text_length l up hu

/-- C17: any other format letter throws. -/
theorem c17_unknown (host : Endian) (u : List Nat) (f : Char) (hf : ∀ l up, f ≠ letter l up) :
    str host u f = .throw (.invalidArgument "Invalid UUID format type") := by
  have : printFormat f = none := by
    unfold printFormat
    split <;> first
      | rfl
      | exact absurd rfl (hf .D true) | exact absurd rfl (hf .N true) | exact absurd rfl (hf .B true)
      | exact absurd rfl (hf .P true) | exact absurd rfl (hf .X true) | exact absurd rfl (hf .D false)
      | exact absurd rfl (hf .N false) | exact absurd rfl (hf .B false) | exact absurd rfl (hf .P false)
      | exact absurd rfl (hf .X false)
  simp [str, this]

example : str .big sample 'X' =
    .ok (chars "{0x00112233,0x4455,0x6677,{0x88,0x99,0xAA,0xBB,0xCC,0xDD,0xEE,0xFF}}") := by decide +kernel
example : str .little sample 'b' = .ok (chars "{00112233-4455-6677-8899-aabbccddeeff}") := by decide +kernel
example : str .little sample 'q' = .throw (.invalidArgument "Invalid UUID format type") := by decide

/-! ## C18 -/

theorem ofFields_eq (host : Endian) (d1 d2 d3 : Nat) (d4 : List Nat) (h1 : d1 < 2 ^ 32)
    (h2 : d2 < 2 ^ 16) (h3 : d3 < 2 ^ 16) (h4l : d4.length = 8) (h4 : ∀ b ∈ d4, b < 256) :
    ofFields host d1 d2 d3 d4 = .ok (leBytes 4 d1 ++ leBytes 2 d2 ++ leBytes 2 d3 ++ d4) := by
  have hgood : ∀ k v, ∀ b ∈ intObject host k v, IsByte b := by
    intro k v b hb
    cases host with
    | little => exact leBytes_lt k v b hb
    | big => exact leBytes_lt k v b (by simpa [intObject, beBytes] using hb)
  have hlen : ∀ k v, (intObject host k v).length = k := by
    intro k v
    cases host <;> simp [intObject, beBytes, leBytes_length]
  have hval : ∀ k v, v < 256 ^ k → intValue host (intObject host k v) = v := by
    intro k v hv
    cases host <;> simp [intObject, intValue, beBytes, beValue, leValue_leBytes k v hv]
  rw [ofFields]
  simp only [objectOf_eq]
  rw [write_eq]
  · have ht : totalSize [.single .littleEndian (intObject host 4 d1), .single .littleEndian (intObject host 2 d2),
        .single .littleEndian (intObject host 2 d3), .range 1 (d4.map fun b => [b])] = 16 := by
      simp [totalSize, sizeOfVal, hlen, h4l]
    rw [ht, if_neg (by simp)]
    have hfl : (d4.map fun b => [b]).flatten = d4 := by
      clear h4l h4 ht
      induction d4 with
      | nil => rfl
      | cons b bs ih => simp [ih]
    have he : encodeAll host [.single .littleEndian (intObject host 4 d1), .single .littleEndian (intObject host 2 d2),
        .single .littleEndian (intObject host 2 d3), .range 1 (d4.map fun b => [b])] =
        leBytes 4 d1 ++ leBytes 2 d2 ++ leBytes 2 d3 ++ d4 := by
      simp only [encodeAll, List.flatMap_cons, List.flatMap_nil, encodeVal, encode, hlen, hfl]
      rw [hval 4 d1 (by omega), hval 2 d2 (by omega), hval 2 d3 (by omega)]
      simp
    simp only [he]
    have hl : (leBytes 4 d1 ++ leBytes 2 d2 ++ leBytes 2 d3 ++ d4).length = 16 := by
      simp [leBytes_length, h4l]
    rw [overwrite, hl]
    simp
  · intro v hv
    simp only [List.mem_cons, List.not_mem_nil, or_false] at hv
    rcases hv with rfl | rfl | rfl | rfl
    · exact hgood 4 d1
    · exact hgood 2 d2
    · exact hgood 2 d3
    · intro o ho
      obtain ⟨b, hb, rfl⟩ := List.mem_map.1 ho
      exact ⟨rfl, by simpa [IsByte] using h4 b hb⟩
  · simp [totalSize, sizeOfVal, hlen, h4l]

/-- C18: a UUID built from its fields prints, in D format, the 8-digit value of the first
field, the 4-digit values of the second and third, and the bytes of the fourth in order. -/
theorem c18_fields (host : Endian) (d1 d2 d3 : Nat) (d4 : List Nat) (h1 : d1 < 2 ^ 32)
    (h2 : d2 < 2 ^ 16) (h3 : d3 < 2 ^ 16) (h4l : d4.length = 8) (h4 : ∀ b ∈ d4, b < 256) :
    (ofFields host d1 d2 d3 d4 >>= fun u => str host u 'D') =
      .ok (fixed true 8 d1 ++ [45] ++ fixed true 4 d2 ++ [45] ++ fixed true 4 d3 ++ [45] ++
        pairs true (d4.take 2) ++ [45] ++ pairs true (d4.drop 2)) := by
  rw [ofFields_eq host d1 d2 d3 d4 h1 h2 h3 h4l h4, Outcome.bind_ok]
  have hu : IsUuid (leBytes 4 d1 ++ leBytes 2 d2 ++ leBytes 2 d3 ++ d4) := by
    refine ⟨by simp [leBytes_length, h4l], ?_⟩
    intro b hb
    simp only [List.mem_append] at hb
    rcases hb with ((hb | hb) | hb) | hb
    · exact leBytes_lt _ _ b hb
    · exact leBytes_lt _ _ b hb
    · exact leBytes_lt _ _ b hb
    · exact h4 b hb
  have := str_eq host .D true hu
  rw [show letter .D true = 'D' from rfl] at this
  rw [this, text, fieldText, dashed]
  have e1 : data1 (leBytes 4 d1 ++ leBytes 2 d2 ++ leBytes 2 d3 ++ d4) = d1 := by
    rw [data1, List.append_assoc, List.append_assoc, List.take_left' (leBytes_length 4 d1),
      leValue_leBytes 4 d1 (by omega)]
  have e2 : data2 (leBytes 4 d1 ++ leBytes 2 d2 ++ leBytes 2 d3 ++ d4) = d2 := by
    rw [data2, List.append_assoc, List.append_assoc, List.drop_left' (leBytes_length 4 d1),
      List.take_left' (leBytes_length 2 d2), leValue_leBytes 2 d2 (by omega)]
  have e3 : data3 (leBytes 4 d1 ++ leBytes 2 d2 ++ leBytes 2 d3 ++ d4) = d3 := by
    rw [data3, List.append_assoc, List.drop_left' (by simp [leBytes_length]),
      List.take_left' (leBytes_length 2 d3), leValue_leBytes 2 d3 (by omega)]
  have e4 : data4 (leBytes 4 d1 ++ leBytes 2 d2 ++ leBytes 2 d3 ++ d4) = d4 := by
    rw [data4, List.drop_left' (by simp [leBytes_length])]
  rw [e1, e2, e3, e4]

/-- C18: the fixed-width hexadecimal text of a number denotes the number and has that width. -/
theorem c18_fixed_is_value (up : Bool) (k v : Nat) (h : v < 16 ^ k) :
    hexNumber (fixed up k v) = v ∧ (fixed up k v).length = k ∧ ∀ c ∈ fixed up k v, IsHexDigit c :=
  ⟨hexNumber_fixed up k v h, fixed_length up k v, fixed_isHex up k v⟩

example : (ofFields .big 0x00112233 0x4455 0x6677 [0x88, 0x99, 0xAA, 0xBB, 0xCC, 0xDD, 0xEE, 0xFF] >>=
    fun u => str .big u 'D') = .ok (chars "00112233-4455-6677-8899-AABBCCDDEEFF") := by decide +kernel

/-! ## C19 -/

/-- C19: in the formats N, D, B and P a string is accepted exactly if it has the shape of the
format, and then the UUID is the one its digits denote; otherwise `std::invalid_argument`. -/
theorem c19_parse (l : Layout) (hX : l ≠ .X) (up : Bool) (s : List Nat) (hs : ∀ c ∈ s, c < 256)
    (behind : List Nat) (hz : 0 ∈ behind) :
    (HasShape (shape l) s ∧ ofString s (letter l up) behind = .ok (ofDigits (digitsAt (shape l) s))) ∨
    (¬HasShape (shape l) s ∧
      ofString s (letter l up) behind = .throw (.invalidArgument "Invalid UUID format")) := by
  rw [ofString_letter]
  obtain ⟨h1, h2⟩ := init_plain l hX s hs behind hz
  by_cases h : HasShape (shape l) s
  · exact .inl ⟨h, h1 h⟩
  · exact .inr ⟨h, h2 h⟩

/-- C19: what the shape says: the length of the format, the delimiters at their positions and
hexadecimal digits everywhere else. -/
theorem c19_shape_meaning (l : Layout) (s : List Nat) :
    HasShape (shape l) s ↔ s.length = textLength l ∧
      ∀ (i c : Nat) p, s[i]? = some c → (shape l)[i]? = some p → (∀ q, p = some q → c = q) ∧ (p = none → IsHexDigit c) := by
  have key : ∀ (ps : List (Option Nat)) (s : List Nat), HasShape ps s ↔ s.length = ps.length ∧
      ∀ (i c : Nat) p, s[i]? = some c → ps[i]? = some p → (∀ q, p = some q → c = q) ∧ (p = none → IsHexDigit c) := by
    intro ps
    induction ps with
    | nil => intro s; cases s <;> simp [HasShape]
    | cons p ps ih =>
      intro s
      cases s with
      | nil => cases p <;> simp [HasShape]
      | cons c s =>
        have split : (∀ (i d : Nat) r, (c :: s)[i]? = some d → (p :: ps)[i]? = some r →
            (∀ q, r = some q → d = q) ∧ (r = none → IsHexDigit d)) ↔
            ((∀ q, p = some q → c = q) ∧ (p = none → IsHexDigit c)) ∧
            ∀ (i d : Nat) r, s[i]? = some d → ps[i]? = some r → (∀ q, r = some q → d = q) ∧ (r = none → IsHexDigit d) := by
          constructor
          · intro h
            exact ⟨h 0 c p rfl rfl, fun i d r h1 h2 => h (i + 1) d r (by simpa using h1) (by simpa using h2)⟩
          · rintro ⟨h1, h2⟩ i d r e1 e2
            cases i with
            | zero => simp at e1 e2; subst e1; subst e2; exact h1
            | succ i => exact h2 i d r (by simpa using e1) (by simpa using e2)
        rw [split, List.length_cons, List.length_cons, Nat.add_right_cancel_iff]
        cases p with
        | none => rw [HasShape, ih]; simp; tauto
        | some q => rw [HasShape, ih]; simp; tauto
  have hl : (shape l).length = textLength l := by cases l <;> rfl
  rw [key, hl]

/-- C19: unknown format letters throw. -/
theorem c19_unknown (s : List Nat) (f : Char) (hf : ∀ l up, f ≠ letter l up) (behind : List Nat) :
    ofString s f behind = .throw (.invalidArgument "Invalid UUID format type") := by
  unfold ofString
  split <;> first
    | rfl
    | exact absurd rfl (hf .D true) | exact absurd rfl (hf .N true) | exact absurd rfl (hf .B true)
    | exact absurd rfl (hf .P true) | exact absurd rfl (hf .X true) | exact absurd rfl (hf .D false)
    | exact absurd rfl (hf .N false) | exact absurd rfl (hf .B false) | exact absurd rfl (hf .P false)
    | exact absurd rfl (hf .X false)

example : ofString (chars "(00112233-4455-6677-8899-aAbBcCdDeEfF)") 'P' [0] = .ok sample := by decide +kernel
example : ofString (chars "(00112233-4455-6677-8899-aAbBcCdDeEfF}") 'P' [0] =
    .throw (.invalidArgument "Invalid UUID format") := by decide +kernel
example : ofString (chars "00112233-4455-6677-8899-aAbBcCdDeEf-") 'D' [0] =
    .throw (.invalidArgument "Invalid UUID format") := by decide +kernel

/-! ## C20 -/

/-- C20: changing the case of letters changes neither whether a string parses nor the
result; the case of the format letter is irrelevant as well. -/
theorem c20_case (l : Layout) (hX : l ≠ .X) (up up' : Bool) (s t : List Nat) (hs : ∀ c ∈ s, c < 256)
    (hst : s.map toUpper = t.map toUpper) (behind behind' : List Nat) (hz : 0 ∈ behind) (hz' : 0 ∈ behind') :
    ofString s (letter l up) behind = ofString t (letter l up') behind' := by
  have hc : ∀ a b : Nat, toUpper a = toUpper b → (IsHexDigit a ↔ IsHexDigit b) ∧ (IsHexDigit a → hexVal a = hexVal b) ∧
      (a < 256 → b < 256) ∧ (∀ q, ¬(65 ≤ q ∧ q ≤ 90) → ¬(97 ≤ q ∧ q ≤ 122) → (a = q ↔ b = q)) := by
    intro a b h
    have h' : a = b ∨ (97 ≤ a ∧ a ≤ 122 ∧ b = a - 32) ∨ (97 ≤ b ∧ b ≤ 122 ∧ a = b - 32) := by
      simp only [toUpper] at h
      split at h <;> split at h <;> omega
    have tab : ∀ c : Fin 123, 97 ≤ c.1 → (IsHexDigit c.1 ↔ IsHexDigit (c.1 - 32)) ∧ hexVal c.1 = hexVal (c.1 - 32) := by
      decide +kernel
    rcases h' with rfl | ⟨h1, h2, rfl⟩ | ⟨h1, h2, rfl⟩
    · simp
    · have := tab ⟨a, by omega⟩ h1
      exact ⟨this.1, fun _ => this.2, by omega, by omega⟩
    · have := tab ⟨b, by omega⟩ h1
      exact ⟨this.1.symm, fun _ => this.2.symm, by omega, by omega⟩
  have ht : ∀ c ∈ t, c < 256 := by
    intro c hct
    obtain ⟨i, hi, rfl⟩ := List.mem_iff_getElem.1 hct
    have hl : s.length = t.length := by simpa using congrArg List.length hst
    have he : toUpper s[i] = toUpper t[i] := by
      have := congrArg (fun l => l[i]?) hst
      simpa [List.getElem?_eq_getElem, hi, hl] using this
    exact (hc _ _ he).2.2.1 (hs _ (List.getElem_mem _))
  have key : ∀ (ps : List (Option Nat)) (hps : ∀ q, some q ∈ ps → ¬(65 ≤ q ∧ q ≤ 90) ∧ ¬(97 ≤ q ∧ q ≤ 122))
      (s t : List Nat) (hst : s.map toUpper = t.map toUpper),
      (HasShape ps s ↔ HasShape ps t) ∧
      (HasShape ps s → (digitsAt ps s).map hexVal = (digitsAt ps t).map hexVal) := by
    intro ps
    induction ps with
    | nil =>
      intro _ s t hst
      cases s <;> cases t <;> simp_all [HasShape, digitsAt]
    | cons p ps ih =>
      intro hps s t hst
      match s, t, hst with
      | [], [], _ => simp
      | [], _ :: _, hst => simp at hst
      | _ :: _, [], hst => simp at hst
      | a :: s, b :: t, hst =>
        simp only [List.map_cons, List.cons.injEq] at hst
        obtain ⟨h1, h2, _, h4⟩ := hc a b hst.1
        obtain ⟨i1, i2⟩ := ih (fun q hq => hps q (by simp [hq])) s t hst.2
        cases p with
        | none =>
          simp only [HasShape, digitsAt, List.map_cons, h1, i1]
          refine ⟨trivial, fun hh => ?_⟩
          rw [h2 (h1.2 hh.1), i2 (i1.2 hh.2)]
        | some q =>
          have hq := hps q (by simp)
          simp only [HasShape, digitsAt, h4 q hq.1 hq.2, i1]
          exact ⟨trivial, fun hh => i2 (i1.2 hh.2)⟩
  have hps : ∀ q, some q ∈ shape l → ¬(65 ≤ q ∧ q ≤ 90) ∧ ¬(97 ≤ q ∧ q ≤ 122) := by
    have k : ∀ ps : List (Option Nat), (ps.all fun q => match q with
        | none => true | some q => decide (¬(65 ≤ q ∧ q ≤ 90) ∧ ¬(97 ≤ q ∧ q ≤ 122))) = true →
        ∀ q, some q ∈ ps → ¬(65 ≤ q ∧ q ≤ 90) ∧ ¬(97 ≤ q ∧ q ≤ 122) := by
      intro ps h q hq
      have := List.all_eq_true.1 h _ hq
      exact of_decide_eq_true this
    cases l with
    | X => exact absurd rfl hX
    | N => exact k _ (by decide +kernel)
    | D => exact k _ (by decide +kernel)
    | B => exact k _ (by decide +kernel)
    | P => exact k _ (by decide +kernel)
  obtain ⟨k1, k2⟩ := key (shape l) hps s t hst
  rcases c19_parse l hX up s hs behind hz with ⟨h, e⟩ | ⟨h, e⟩ <;>
    rcases c19_parse l hX up' t ht behind' hz' with ⟨h', e'⟩ | ⟨h', e'⟩
  · rw [e, e', ofDigits_congr _ _ (k2 h)]
  · exact absurd (k1.1 h) h'
  · exact absurd (k1.2 h') h
  · rw [e, e']

example : ofString (chars "{00112233-4455-6677-8899-aabbccddeeff}") 'B' [0] =
    ofString (chars "{00112233-4455-6677-8899-AABBCCddeeff}") 'b' [1, 2, 0] := by decide +kernel

/-! ## C21 -/

/-- C21: for every string, format character and memory, `try_make_uuid` gives the UUID the
constructor gives, an error exactly when the constructor throws (and the error says which of
the two exceptions it was), and is otherwise undefined exactly when the constructor is. -/
theorem c21_try_make_agrees (s : List Nat) (f : Char) (behind : List Nat) :
    (∃ u, ofString s f behind = .ok u ∧ tryMake s f behind = .ok (.value u)) ∨
    (ofString s f behind = .throw (.invalidArgument "Invalid UUID format") ∧
      tryMake s f behind = .ok (.error .invalidUuidFormat)) ∨
    (ofString s f behind = .throw (.invalidArgument "Invalid UUID format type") ∧
      tryMake s f behind = .ok (.error .invalidUuidFormatType)) ∨
    (ofString s f behind = .ub ∧ tryMake s f behind = .ub) ∨
    (ofString s f behind = .terminate ∧ tryMake s f behind = .terminate) ∨
    (ofString s f behind = .diverge ∧ tryMake s f behind = .diverge) := by
  by_cases hf : ∃ l up, f = letter l up
  · obtain ⟨l, up, rfl⟩ := hf
    rw [ofString_letter, tryMake_letter]
    rcases tryMake_of_init s (parseFmt l) behind with h | h | h | h | h
    · exact .inl h
    · exact .inr (.inl h)
    · exact .inr (.inr (.inr (.inl h)))
    · exact .inr (.inr (.inr (.inr (.inl h))))
    · exact .inr (.inr (.inr (.inr (.inr h))))
  · have hf' : ∀ l up, f ≠ letter l up := fun l up h => hf ⟨l, up, h⟩
    refine .inr (.inr (.inl ⟨c19_unknown s f hf' behind, ?_⟩))
    unfold tryMake
    split <;> first
      | rfl
      | exact absurd rfl (hf' .D true) | exact absurd rfl (hf' .N true) | exact absurd rfl (hf' .B true)
      | exact absurd rfl (hf' .P true) | exact absurd rfl (hf' .X true) | exact absurd rfl (hf' .D false)
      | exact absurd rfl (hf' .N false) | exact absurd rfl (hf' .B false) | exact absurd rfl (hf' .P false)
      | exact absurd rfl (hf' .X false)

example : tryMake (chars "00112233-4455-6677-8899-AABBCCDDEEFF") 'D' [0] = .ok (.value sample) := by decide +kernel
example : tryMake (chars "00112233-4455-6677-8899-AABBCCDDEEFG") 'D' [0] = .ok (.error .invalidUuidFormat) := by
  decide +kernel

/-! ## C22 -/

/-- C22 is false: 68 digits overrun the 32-digit buffer. -/
theorem c22_refuted_overrun :
    ∃ s : List Nat, (∀ c ∈ s, c < 256) ∧ ∀ behind, 0 ∈ behind → ofString s 'X' behind = .ub := by
  refine ⟨List.replicate 68 49, by intro c h; rw [List.eq_of_mem_replicate h]; omega, ?_⟩
  intro behind hz
  have := ofString_letter (List.replicate 68 49) .X true behind
  rw [show letter .X true = 'X' from rfl, parseFmt] at this
  rw [this, init_X _ (by intro c h; rw [List.eq_of_mem_replicate h]; omega) behind hz]
  decide +kernel

/-- C22 is false: a final '0' makes the scan look at the character behind the string. -/
theorem c22_refuted_read_past_end :
    ∃ s : List Nat, (∀ c ∈ s, c < 256) ∧ (keepX s).length ≤ 32 ∧
      ∀ behind, 0 ∈ behind → ofString s 'X' behind = .ub := by
  refine ⟨List.replicate 67 32 ++ [48], by decide +kernel, by decide +kernel, ?_⟩
  intro behind hz
  have := ofString_letter (List.replicate 67 32 ++ [48]) .X true behind
  rw [show letter .X true = 'X' from rfl, parseFmt] at this
  rw [this, init_X _ (by decide +kernel) behind hz]
  decide +kernel

/-- C22, what holds: parsing in X format is defined whenever the string contains at most 32
hexadecimal digits and does not end in '0'. -/
theorem c22_safe_partial (up : Bool) (s : List Nat) (hs : ∀ c ∈ s, c < 256)
    (hd : (s.filter fun c => decide (IsHexDigit c)).length ≤ 32) (hl : s.getLast? ≠ some 48) (behind : List Nat)
    (hz : 0 ∈ behind) :
    (∃ u, ofString s (letter .X up) behind = .ok u) ∨
    ofString s (letter .X up) behind = .throw (.invalidArgument "Invalid UUID format") := by
  rw [ofString_letter, parseFmt, init_X s hs behind hz]
  have hk : (keepX s).length ≤ 32 := le_trans (keepX_sublist s).length_le hd
  split
  · exact .inr rfl
  · rw [if_neg (by rintro (h | h); exacts [hl h, by omega])]
    split
    · exact .inr rfl
    · exact .inl ⟨_, rfl⟩

/-- C22: strings of the wrong length are always rejected safely. -/
theorem c22_wrong_length_partial (up : Bool) (s : List Nat) (hs : ∀ c ∈ s, c < 256) (hl : s.length ≠ 68)
    (behind : List Nat) (hz : 0 ∈ behind) :
    ofString s (letter .X up) behind = .throw (.invalidArgument "Invalid UUID format") := by
  rw [ofString_letter, parseFmt, init_X s hs behind hz, if_pos hl]

/-- C22: and every 68-character string that ends in '0' is undefined behaviour. -/
theorem c22_undefined_partial (up : Bool) (s : List Nat) (hs : ∀ c ∈ s, c < 256) (hlen : s.length = 68)
    (hl : s.getLast? = some 48) (behind : List Nat) (hz : 0 ∈ behind) :
    ofString s (letter .X up) behind = .ub := by
  rw [ofString_letter, parseFmt, init_X s hs behind hz, if_neg (by omega), if_pos (.inl hl)]

example : ofString (chars "{0x00112233,0x4455,0x6677,{0x88,0x99,0xAA,0xBB,0xCC,0xDD,0xEE,0xFF}}") 'X' [0] =
    .ok sample := by decide +kernel

/-! ## C23 -/

/-- C23: for a known format: true exactly if the buffer has room for the text and the NUL;
then both are stored at its start; nothing else changes. -/
theorem c23_to_c_str (host : Endian) (l : Layout) (up : Bool) (u : List Nat) (hu : IsUuid u) (n : Nat)
    (mem : List Nat) (hm : n ≤ mem.length) :
    (textLength l + 1 ≤ n ∧
      (toCStr host u n (letter l up)).run mem =
        (.ok true, text l up u ++ [0] ++ mem.drop (textLength l + 1))) ∨
    (n < textLength l + 1 ∧ (toCStr host u n (letter l up)).run mem = (.ok false, mem)) := by
  have : toCStr host u n (letter l up) = toCStrFmt host u (fmtOf l up) n := by
    simp [toCStr, printFormat_letter]
  rw [this, toCStrFmt_run host l up hu n mem hm]
  by_cases h : n < textLength l + 1
  · rw [if_pos h]; exact .inr ⟨h, rfl⟩
  · rw [if_neg h]; exact .inl ⟨by omega, rfl⟩

/-- C23: an unknown format character gives false and changes nothing. -/
theorem c23_unknown (host : Endian) (u : List Nat) (n : Nat) (f : Char) (hf : ∀ l up, f ≠ letter l up)
    (mem : List Nat) : (toCStr host u n f).run mem = (.ok false, mem) := by
  have : printFormat f = none := by
    unfold printFormat
    split <;> first
      | rfl
      | exact absurd rfl (hf .D true) | exact absurd rfl (hf .N true) | exact absurd rfl (hf .B true)
      | exact absurd rfl (hf .P true) | exact absurd rfl (hf .X true) | exact absurd rfl (hf .D false)
      | exact absurd rfl (hf .N false) | exact absurd rfl (hf .B false) | exact absurd rfl (hf .P false)
      | exact absurd rfl (hf .X false)
  simp [toCStr, this]

/-- C23: in every case the memory from `buf[n]` on is untouched. -/
theorem c23_no_overrun (host : Endian) (u : List Nat) (hu : IsUuid u) (n : Nat) (f : Char) (mem : List Nat)
    (hm : n ≤ mem.length) :
    ∃ r mem', (toCStr host u n f).run mem = (.ok r, mem') ∧ mem'.drop n = mem.drop n ∧
      mem'.length = mem.length := by
  by_cases hf : ∃ l up, f = letter l up
  · obtain ⟨l, up, rfl⟩ := hf
    rcases c23_to_c_str host l up u hu n mem hm with ⟨h, e⟩ | ⟨h, e⟩
    · have ht := text_length l up hu
      refine ⟨_, _, e, ?_, by simp [ht]; omega⟩
      have hl : (text l up u ++ [0]).length = textLength l + 1 := by simp [ht]
      rw [List.drop_append, List.drop_eq_nil_of_le (by omega), List.nil_append, List.drop_drop, hl]
      congr 1; omega
    · exact ⟨_, _, e, rfl, rfl⟩
  · exact ⟨_, _, c23_unknown host u n f (fun l up h => hf ⟨l, up, h⟩) mem, rfl, rfl⟩

example : (toCStr .little sample 33 'n').run (List.replicate 35 7) =
    (.ok true, chars "00112233445566778899aabbccddeeff" ++ [0, 7, 7]) := by decide +kernel
example : (toCStr .little sample 32 'n').run (List.replicate 35 7) = (.ok false, List.replicate 35 7) := by
  decide +kernel

/-! ## C24 -/

private theorem version_byte : ∀ v : Fin 256, ((v.1 &&& 0x0F) ||| 0x40) < 256 ∧ ((v.1 &&& 0x0F) ||| 0x40) / 16 = 4 ∧
    ((v.1 &&& 0x0F) ||| 0x40) % 16 = v.1 % 16 := by decide +kernel
private theorem variant_byte : ∀ v : Fin 256, ((v.1 &&& 0x3F) ||| 0x80) < 256 ∧ ((v.1 &&& 0x3F) ||| 0x80) / 64 = 2 ∧
    ((v.1 &&& 0x3F) ||| 0x80) % 64 = v.1 % 64 := by decide +kernel

private theorem intObject_length (host : Endian) (k v : Nat) : (intObject host k v).length = k := by
  cases host <;> simp [intObject, beBytes, leBytes_length]

private theorem intObject_lt (host : Endian) (k v : Nat) : ∀ b ∈ intObject host k v, b < 256 := by
  intro b hb
  cases host with
  | little => exact leBytes_lt k v b hb
  | big => exact leBytes_lt k v b (by simpa [intObject, beBytes] using hb)

/-- C24: whatever the engine delivers, the result is a UUID with version nibble 4 in byte 6
and variant bits 10 in byte 8; the rest of these two bytes and all other bytes are the
engine's. -/
theorem c24_version_variant (host : Endian) (r1 r2 : Nat) :
    IsUuid (ofRandom host r1 r2) ∧
    ∀ i, i < 16 → ∃ x y, (ofRandom host r1 r2)[i]? = some x ∧
      (intObject host 8 r1 ++ intObject host 8 r2)[i]? = some y ∧
      (i = 6 → x / 16 = 4 ∧ x % 16 = y % 16) ∧
      (i = 8 → x / 64 = 2 ∧ x % 64 = y % 64) ∧
      (i ≠ 6 → i ≠ 8 → x = y) := by
  have la := intObject_length host 8 r1
  have lb := intObject_length host 8 r2
  have ba := intObject_lt host 8 r1
  have bb := intObject_lt host 8 r2
  rw [ofRandom]
  simp only [objectOf_eq]
  generalize intObject host 8 r1 = a at *
  generalize intObject host 8 r2 = b at *
  rcases a with _ | ⟨a0, _ | ⟨a1, _ | ⟨a2, _ | ⟨a3, _ | ⟨a4, _ | ⟨a5, _ | ⟨a6, _ | ⟨a7, _ | ⟨a8, _⟩⟩⟩⟩⟩⟩⟩⟩⟩ <;>
    simp at la
  rcases b with _ | ⟨b0, _ | ⟨b1, _ | ⟨b2, _ | ⟨b3, _ | ⟨b4, _ | ⟨b5, _ | ⟨b6, _ | ⟨b7, _ | ⟨b8, _⟩⟩⟩⟩⟩⟩⟩⟩⟩ <;>
    simp at lb
  have v := version_byte ⟨a6, ba a6 (by simp)⟩
  have w := variant_byte ⟨b0, bb b0 (by simp)⟩
  simp only at v w
  have em : List.modify [a0, a1, a2, a3, a4, a5, a6, a7] 6 (fun v => v &&& 0x0F ||| 0x40) =
      [a0, a1, a2, a3, a4, a5, a6 &&& 0x0F ||| 0x40, a7] := rfl
  have eb : List.modify [b0, b1, b2, b3, b4, b5, b6, b7] 0 (fun v => v &&& 0x3F ||| 0x80) =
      [b0 &&& 0x3F ||| 0x80, b1, b2, b3, b4, b5, b6, b7] := rfl
  rw [em, eb]
  generalize hx : (a6 &&& 0x0F ||| 0x40) = x at *
  generalize hy : (b0 &&& 0x3F ||| 0x80) = y at *
  simp only [List.mem_cons, List.not_mem_nil, or_false, forall_eq_or_imp, forall_eq] at ba bb
  refine ⟨⟨rfl, ?_⟩, ?_⟩
  · simp only [List.cons_append, List.nil_append, List.mem_cons, List.not_mem_nil, or_false, forall_eq_or_imp,
      forall_eq]
    refine ⟨?_, ?_, ?_, ?_, ?_, ?_, ?_, ?_, ?_, ?_, ?_, ?_, ?_, ?_, ?_, ?_⟩ <;> omega
  · intro i hi
    interval_cases i <;> exact ⟨_, _, rfl, rfl, by omega, by omega, by omega⟩

/-- C24: every UUID with these bits can be generated: nothing else is fixed. -/
theorem c24_all_reachable (host : Endian) (u : List Nat) (hu : IsUuid u)
    (h6 : ∀ x, u[6]? = some x → x / 16 = 4) (h8 : ∀ x, u[8]? = some x → x / 64 = 2) :
    ∃ r1 r2, r1 < 2 ^ 64 ∧ r2 < 2 ^ 64 ∧ ofRandom host r1 r2 = u := by
  obtain ⟨hl, hb⟩ := hu
  have key : ∀ bs : List Nat, bs.length = 8 → (∀ b ∈ bs, b < 256) →
      ∃ r, r < 2 ^ 64 ∧ intObject host 8 r = bs := by
    intro bs h1 h2
    cases host with
    | little =>
      refine ⟨leValue bs, ?_, ?_⟩
      · have := leValue_lt bs h2; rw [h1] at this; simpa using this
      · have := leBytes_leValue bs h2; rw [h1] at this; exact this
    | big =>
      have h3 : ∀ b ∈ bs.reverse, b < 256 := fun b hb => h2 b (List.mem_reverse.1 hb)
      refine ⟨leValue bs.reverse, ?_, ?_⟩
      · have := leValue_lt bs.reverse h3; rw [List.length_reverse, h1] at this; simpa using this
      · have := leBytes_leValue bs.reverse h3
        rw [List.length_reverse, h1] at this
        rw [intObject, beBytes, this, List.reverse_reverse]
  obtain ⟨r1, hr1, e1⟩ := key (u.take 8) (by simp [hl]) (fun b h => hb b (List.mem_of_mem_take h))
  obtain ⟨r2, hr2, e2⟩ := key (u.drop 8) (by simp [hl]) (fun b h => hb b (List.mem_of_mem_drop h))
  refine ⟨r1, r2, hr1, hr2, ?_⟩
  rw [ofRandom]
  simp only [objectOf_eq, e1, e2]
  have fixed6 : ∀ v : Fin 256, v.1 / 16 = 4 → ((v.1 &&& 0x0F) ||| 0x40) = v.1 := by decide +kernel
  have fixed8 : ∀ v : Fin 256, v.1 / 64 = 2 → ((v.1 &&& 0x3F) ||| 0x80) = v.1 := by decide +kernel
  obtain ⟨b0, b1, b2, b3, b4, b5, b6, b7, b8, b9, b10, b11, b12, b13, b14, b15, rfl⟩ := explode hl
  have f6 := fixed6 ⟨b6, hb b6 (by simp)⟩ (h6 b6 rfl)
  have f8 := fixed8 ⟨b8, hb b8 (by simp)⟩ (h8 b8 rfl)
  simp only at f6 f8
  have em : List.modify (List.take 8 [b0, b1, b2, b3, b4, b5, b6, b7, b8, b9, b10, b11, b12, b13, b14, b15]) 6
      (fun v => v &&& 0x0F ||| 0x40) = [b0, b1, b2, b3, b4, b5, b6 &&& 0x0F ||| 0x40, b7] := rfl
  have eb : List.modify (List.drop 8 [b0, b1, b2, b3, b4, b5, b6, b7, b8, b9, b10, b11, b12, b13, b14, b15]) 0
      (fun v => v &&& 0x3F ||| 0x80) = [b8 &&& 0x3F ||| 0x80, b9, b10, b11, b12, b13, b14, b15] := rfl
  rw [em, eb, f6, f8]
  rfl

example : ofRandom .little 0xFFFFFFFFFFFFFFFF 0 =
    [255, 255, 255, 255, 255, 255, 0x4F, 255, 0x80, 0, 0, 0, 0, 0, 0, 0] := by decide +kernel

/-! ## C25 -/

/-- C25 is false: the 15th character of the text of a generated UUID is a random digit, the first of the eighth byte of the
first random number.  It is '4' exactly if that digit happens to be. -/
theorem c25_refuted (host : Endian) (r1 r2 : Nat) : ∃ s y, str host (ofRandom host r1 r2) 'D' = .ok s ∧
    (intObject host 8 r1)[7]? = some y ∧ (s[14]? = some 52 ↔ y / 16 = 4) := by
  obtain ⟨hu, hbits⟩ := c24_version_variant host r1 r2
  have hstr := str_eq host .D true hu
  rw [show letter .D true = 'D' from rfl] at hstr
  obtain ⟨x, y, hx, hy, _, _, h7⟩ := hbits 7 (by omega)
  have h7 := h7 (by omega) (by omega)
  rw [List.getElem?_append_left (by rw [intObject_length]; omega)] at hy
  refine ⟨_, y, hstr, hy, ?_⟩
  generalize ofRandom host r1 r2 = u at *
  obtain ⟨b0, b1, b2, b3, b4, b5, b6, b7, b8, b9, b10, b11, b12, b13, b14, b15, rfl⟩ := explode hu.1
  have hb := hu.2
  have e7 : b7 = x := by simpa using hx
  have l6 := hb b6 (by simp)
  have l7 := hb b7 (by simp)
  have t14 : (text .D true [b0, b1, b2, b3, b4, b5, b6, b7, b8, b9, b10, b11, b12, b13, b14, b15])[14]? =
      some (digit true ((b6 + 256 * b7) / 4096 % 16)) := by
    simp [text, fieldText, dashed, fixed, data3, leValue, Nat.div_div_eq_div_mul]
  have is4 : ∀ d : Fin 16, digit true d.1 = 52 ↔ d.1 = 4 := by decide
  rw [t14, Option.some.injEq, show (b6 + 256 * b7) / 4096 % 16 = y / 16 by omega]
  exact is4 ⟨y / 16, by omega⟩

example : ∃ s, str .little (ofRandom .little 0 0) 'D' = .ok s ∧ s[14]? = some 48 :=
  ⟨chars "00000000-0000-0040-8000-000000000000", by decide +kernel, by decide +kernel⟩

/-- C25, what holds: the '4' is the 17th character instead (the first digit of the second
byte of the third group); the 20th character is one of 8, 9, A, B. -/
theorem c25_positions_partial (host : Endian) (r1 r2 : Nat) :
    ∃ s, str host (ofRandom host r1 r2) 'D' = .ok s ∧ s[16]? = some 52 ∧
      (s[19]? = some 56 ∨ s[19]? = some 57 ∨ s[19]? = some 65 ∨ s[19]? = some 66) := by
  obtain ⟨hu, hbits⟩ := c24_version_variant host r1 r2
  have hstr := str_eq host .D true hu
  rw [show letter .D true = 'D' from rfl] at hstr
  refine ⟨_, hstr, ?_⟩
  obtain ⟨x6, y6, hx6, _, h6, _, _⟩ := hbits 6 (by omega)
  obtain ⟨x8, y8, hx8, _, _, h8, _⟩ := hbits 8 (by omega)
  have h6 := (h6 rfl).1
  have h8 := (h8 rfl).1
  generalize ofRandom host r1 r2 = u at *
  obtain ⟨b0, b1, b2, b3, b4, b5, b6, b7, b8, b9, b10, b11, b12, b13, b14, b15, rfl⟩ := explode hu.1
  have hb := hu.2
  have e6 : b6 = x6 := by simpa using hx6
  have e8 : b8 = x8 := by simpa using hx8
  subst e6; subst e8
  have l6 := hb b6 (by simp)
  have l7 := hb b7 (by simp)
  have l8 := hb b8 (by simp)
  have t16 : (text .D true [b0, b1, b2, b3, b4, b5, b6, b7, b8, b9, b10, b11, b12, b13, b14, b15])[16]? =
      some (digit true ((b6 + 256 * b7) / 16 % 16)) := by
    simp [text, fieldText, dashed, fixed, data3, leValue]
  have t19 : (text .D true [b0, b1, b2, b3, b4, b5, b6, b7, b8, b9, b10, b11, b12, b13, b14, b15])[19]? =
      some (digit true (b8 / 16 % 16)) := by
    simp [text, fieldText, dashed, fixed, pairs, data4]
  rw [t16, t19]
  have e1 : (b6 + 256 * b7) / 16 % 16 = 4 := by omega
  rw [e1]
  refine ⟨rfl, ?_⟩
  have : b8 / 16 % 16 = 8 ∨ b8 / 16 % 16 = 9 ∨ b8 / 16 % 16 = 10 ∨ b8 / 16 % 16 = 11 := by omega
  rcases this with h | h | h | h <;> rw [h] <;> simp [digit, upperDigit]

example : str .little (ofRandom .little 0 0) 'D' = .ok (chars "00000000-0000-0040-8000-000000000000") := by
  decide +kernel

/-! ## C26 -/

/-- C26: the order is the lexicographic order of the bytes. -/
theorem c26_lexicographic (a b : List Nat) (ha : IsUuid a) (hb : IsUuid b) :
    Uuid.compare a b = .lt ↔ ∃ i x y, a[i]? = some x ∧ b[i]? = some y ∧ a.take i = b.take i ∧ x < y :=
  compare_lt_iff a b (ha.1.trans hb.1.symm)

/-- C26: equal exactly if neither is less. -/
theorem c26_equality (a b : List Nat) :
    (Uuid.compare a b = .eq ↔ a = b) ∧ (Uuid.compare a b ≠ .lt ∧ Uuid.compare b a ≠ .lt ↔ a = b) := by
  refine ⟨compare_eq_iff a b, ?_⟩
  rw [← compare_eq_iff, compare_swap a b]
  cases Uuid.compare a b <;> simp [Ordering.swap]

/-- C26: a strict total order. -/
theorem c26_total_order (a b c : List Nat) :
    Uuid.compare a a ≠ .lt ∧ (Uuid.compare a b = .lt → Uuid.compare b c = .lt → Uuid.compare a c = .lt) ∧
    (Uuid.compare a b = .lt ∨ a = b ∨ Uuid.compare b a = .lt) ∧ (Uuid.compare a b = .gt ↔ Uuid.compare b a = .lt) := by
  refine ⟨by simp [compare_refl], compare_lt_trans a b c, ?_, ?_⟩
  · rw [← compare_eq_iff, compare_swap a b]
    cases Uuid.compare a b <;> simp [Ordering.swap]
  · rw [compare_swap a b]
    cases Uuid.compare a b <;> simp [Ordering.swap]

example : Uuid.compare (sample.set 15 0) sample = .lt := by decide
example : Uuid.compare (sample.set 0 0x34) (sample.set 15 0) = .gt := by decide

/-! ## C27 -/

private theorem xor_cancel (x a b : Nat) (h : x ^^^ a = x ^^^ b) : a = b := by
  have := congrArg (x ^^^ ·) h
  simpa [← Nat.xor_assoc] using this

/-- C27: the hash is the exclusive or of the hashes of the two halves read as integers. -/
theorem c27_hash_value (host : Endian) (h : Nat → Nat) (u : List Nat) :
    Uuid.hash host h u = h (intValue host (u.take 8)) ^^^ h (intValue host (u.drop 8)) := by
  simp [Uuid.hash, numberOf_eq]

/-- C27: with one half in common, hashes of the other halves that differ give different UUID
hashes. -/
theorem c27_both_halves (host : Endian) (h : Nat → Nat) (u v : List Nat) :
    (u.take 8 = v.take 8 → h (intValue host (u.drop 8)) ≠ h (intValue host (v.drop 8)) →
      Uuid.hash host h u ≠ Uuid.hash host h v) ∧
    (u.drop 8 = v.drop 8 → h (intValue host (u.take 8)) ≠ h (intValue host (v.take 8)) →
      Uuid.hash host h u ≠ Uuid.hash host h v) := by
  rw [c27_hash_value, c27_hash_value]
  refine ⟨fun e hne he => hne ?_, fun e hne he => hne ?_⟩
  · rw [e] at he; exact xor_cancel _ _ _ he
  · rw [e] at he
    rw [Nat.xor_comm, Nat.xor_comm (h (intValue host (v.take 8)))] at he
    exact xor_cancel _ _ _ he

/-- C27: with the identity as `std::hash<uint64_t>` (as in the common implementations) two
UUIDs that share a half hash differently unless equal. -/
theorem c27_identity_hash (host : Endian) (u v : List Nat) (hu : IsUuid u) (hv : IsUuid v)
    (hs : u.take 8 = v.take 8 ∨ u.drop 8 = v.drop 8) (he : Uuid.hash host id u = Uuid.hash host id v) : u = v := by
  have inj : ∀ a b : List Nat, a.length = 8 → b.length = 8 → (∀ x ∈ a, x < 256) → (∀ x ∈ b, x < 256) →
      intValue host a = intValue host b → a = b := by
    intro a b la lb ha hb h
    cases host with
    | little =>
      have h1 := leBytes_leValue a ha
      have h2 := leBytes_leValue b hb
      rw [la] at h1; rw [lb] at h2
      simp only [intValue] at h
      rw [← h1, ← h2, h]
    | big =>
      have h1 := leBytes_leValue a.reverse (fun x hx => ha x (List.mem_reverse.1 hx))
      have h2 := leBytes_leValue b.reverse (fun x hx => hb x (List.mem_reverse.1 hx))
      rw [List.length_reverse, la] at h1; rw [List.length_reverse, lb] at h2
      simp only [intValue, beValue] at h
      rw [h, h2] at h1
      exact (List.reverse_inj.1 h1).symm
  have mt : ∀ w : List Nat, IsUuid w → ∀ x ∈ w.take 8, x < 256 := fun w hw x hx => hw.2 x (List.mem_of_mem_take hx)
  have md : ∀ w : List Nat, IsUuid w → ∀ x ∈ w.drop 8, x < 256 := fun w hw x hx => hw.2 x (List.mem_of_mem_drop hx)
  have lt : ∀ w : List Nat, IsUuid w → (w.take 8).length = 8 := fun w hw => by simp [hw.1]
  have ld : ∀ w : List Nat, IsUuid w → (w.drop 8).length = 8 := fun w hw => by simp [hw.1]
  obtain ⟨k1, k2⟩ := c27_both_halves host id u v
  rw [← List.take_append_drop 8 u, ← List.take_append_drop 8 v]
  rcases hs with hs | hs
  · have : intValue host (u.drop 8) = intValue host (v.drop 8) := by
      by_contra hne; exact k1 hs hne he
    rw [hs, inj _ _ (ld u hu) (ld v hv) (md u hu) (md v hv) this]
  · have : intValue host (u.take 8) = intValue host (v.take 8) := by
      by_contra hne; exact k2 hs hne he
    rw [hs, inj _ _ (lt u hu) (lt v hv) (mt u hu) (mt v hv) this]

example : Uuid.hash .little id sample ≠ Uuid.hash .little id (sample.set 15 0) := by decide +kernel

/-! ## C28 -/

/-- C28: in one format, different UUIDs have different text, even if one is printed in upper and the other in lower case. -/
theorem c28_injective (host : Endian) (l : Layout) (up up' : Bool) (u v : List Nat) (hu : IsUuid u) (hv : IsUuid v)
    (h : str host u (letter l up) = str host v (letter l up')) : u = v := by
  rw [str_eq host l up hu, str_eq host l up' hv] at h
  have h' : text l up u = text l up' v := by injection h
  rw [← (ofDigits_text l up hu).2, ← (ofDigits_text l up' hv).2, h']

/-- C28: texts of different formats are never the same. -/
theorem c28_formats (host : Endian) (l l' : Layout) (up up' : Bool) (u v : List Nat) (hu : IsUuid u) (hv : IsUuid v)
    (h : str host u (letter l up) = str host v (letter l' up')) : l = l' := by
  rw [str_eq host l up hu, str_eq host l' up' hv] at h
  have h' : text l up u = text l' up' v := by injection h
  have hlen : textLength l = textLength l' := by rw [← text_length l up hu, ← text_length l' up' hv, h']
  have s1 := ((c19_shape_meaning l (text l up u)).1 (ofDigits_text l up hu).1).2
  have s2 := ((c19_shape_meaning l' (text l' up' v)).1 (ofDigits_text l' up' hv).1).2
  rw [← h'] at s2
  obtain ⟨c, hc⟩ : ∃ c, (text l up u)[0]? = some c :=
    ⟨_, List.getElem?_eq_getElem (by rw [text_length l up hu]; cases l <;> decide)⟩
  cases l <;> cases l' <;> first | rfl | (exact absurd hlen (by decide)) | skip
  all_goals
    have e1 := (s1 0 c _ hc rfl).1 _ rfl
    have e2 := (s2 0 c _ hc rfl).1 _ rfl
    omega

example : str .little sample 'P' ≠ str .little (sample.set 9 0) 'P' := by decide +kernel

/-! ## C99 -/

private theorem copyHex_wide (s : List Nat) (st : List Nat × Nat) (h : ∃ c ∈ s, 256 ≤ c) : copyHex s st = .ub := by
  induction s generalizing st with
  | nil => obtain ⟨c, hc, _⟩ := h; cases hc
  | cons a as ih =>
    rw [copyHex]
    by_cases ha : a ≤ 255
    · have h' : ∃ c ∈ as, 256 ≤ c := by
        obtain ⟨c, hc, hw⟩ := h
        rcases List.mem_cons.1 hc with rfl | hc
        · omega
        · exact ⟨c, hc, hw⟩
      rw [isxdigit, if_pos ha, Outcome.bind_ok]
      split
      · rw [Join.writeOne]
        split
        · rw [Outcome.bind_ok]; exact ih _ h'
        · rfl
      · exact ih _ h'
    · rw [isxdigit, if_neg ha]; rfl

private theorem loose_of (ps : List (Option Nat)) (s : List Nat) (hl : s.length = ps.length)
    (h : ∀ (i q : Nat), ps[i]? = some (some q) → s[i]? = some q) : Loose ps s := by
  induction ps generalizing s with
  | nil => cases s with
    | nil => trivial
    | cons => simp at hl
  | cons p ps ih =>
    cases s with
    | nil => simp at hl
    | cons c cs =>
      have hr := ih cs (by simpa using hl) (fun i q hi => by simpa using h (i + 1) q (by simpa using hi))
      cases p with
      | none => exact hr
      | some q => exact ⟨by simpa using h 0 q rfl, hr⟩

/-- C99 is false for all strings of the right length with the delimiters of the format in place and a wide character (other than
the one that converts to `EOF`) anywhere between them: undefined behaviour (the argument of `std::isxdigit`) instead of a rejection.
In the format N these are all strings of 32 characters with a wide one among them. -/
theorem c99_refuted_wide (l : Layout) (hX : l ≠ .X) (up : Bool) (s : List Nat) (hl : s.length = textLength l)
    (hd : ∀ (i q : Nat), (shape l)[i]? = some (some q) → s[i]? = some q) (hw : ∃ c ∈ s, 256 ≤ c ∧ c ≠ 2 ^ 32 - 1) (behind : List Nat) :
    ofString s (letter l up) behind = .ub := by
  have hlen : (shape l).length = textLength l := by cases l <;> rfl
  obtain ⟨v, h1, h2⟩ := isAValid_eq l hX s
  have hv : v = true := h2.2 (loose_of _ s (by rw [hl, hlen]) hd)
  have hp : (parseFmt l).prefixed = false := by cases l <;> first | rfl | exact absurd rfl hX
  rw [ofString_letter, initFromFmt, h1, hv, Outcome.bind_ok, if_neg (by simp), hp, stripNonHex, if_neg (by simp),
    copyHex_wide s _ (by obtain ⟨c, hc, h, _⟩ := hw; exact ⟨c, hc, h⟩)]
  rfl

example (behind : List Nat) : ofString (1078 :: List.replicate 31 49) 'N' behind = .ub :=
  c99_refuted_wide .N (by simp) true _ (by decide) (fun i q h => by
    rw [show shape .N = List.replicate 32 none from rfl, List.getElem?_replicate] at h
    split at h <;> simp at h) ⟨1078, by simp, by decide⟩ behind

/-- C99, what holds: with all characters below 256, parsing in the formats N, D, B and P is
always defined. -/
theorem c99_defined_partial (l : Layout) (hX : l ≠ .X) (up : Bool) (s : List Nat) (hs : ∀ c ∈ s, c < 256)
    (behind : List Nat) (hz : 0 ∈ behind) :
    (∃ u, IsUuid u ∧ ofString s (letter l up) behind = .ok u) ∨
    ofString s (letter l up) behind = .throw (.invalidArgument "Invalid UUID format") := by
  rcases c19_parse l hX up s hs behind hz with ⟨h, e⟩ | ⟨_, e⟩
  · left
    refine ⟨_, ?_, e⟩
    have hd := digitsAt_isHex _ s h
    have hl := digitsAt_length _ s h
    rw [shape_count] at hl
    obtain ⟨bs, hbs⟩ := (Hex.denote_isSome_iff _).2 ⟨by rw [hl], hd⟩
    have hbl : bs.length = 16 := by have := Hex.denote_length hbs; omega
    rw [← formatAsUuidData_eq hbs hbl]
    refine ⟨by simp [formatAsUuidData, hbl], ?_⟩
    intro b hb
    apply Hex.denote_lt hbs
    simp only [formatAsUuidData, List.mem_append, List.mem_reverse] at hb
    rcases hb with ((hb | hb) | hb) | hb
    · exact List.mem_of_mem_take hb
    · exact List.mem_of_mem_drop (List.mem_of_mem_take hb)
    · exact List.mem_of_mem_drop (List.mem_of_mem_take hb)
    · exact List.mem_of_mem_drop hb
  · exact .inr e

/-- C99: wide strings of the wrong length are rejected safely whatever they contain. -/
theorem c99_wrong_length_partial (l : Layout) (up : Bool) (s : List Nat) (hl : s.length ≠ textLength l)
    (behind : List Nat) :
    ofString s (letter l up) behind = .throw (.invalidArgument "Invalid UUID format") := by
  have hsz : (parseFmt l).size = textLength l := by cases l <;> rfl
  rw [ofString_letter, initFromFmt, isAValidUuidString, if_pos (by rw [hsz]; exact hl)]
  rfl

/-! ## C100 -/

/-- C100 is false: every successful parse reads behind its buffer, since the digits fill it
and are then passed as a NUL-terminated string. -/
theorem c100_refuted_reads_behind (l : Layout) (up : Bool) (s : List Nat) (h : HasShape (shape l) s) :
    ofString s (letter l up) [] = .ub := by
  have hs := hasShape_lt _ (shape_lt l) s h
  have hl := digitsAt_length _ s h
  rw [shape_count] at hl
  have hd := digitsAt_isHex _ s h
  have strip : stripNonHex s (parseFmt l).prefixed = .ok (digitsAt (shape l) s) := by
    by_cases hX : l = .X
    · subst hX
      have hk := keepX_hasShape (shape .X) (by decide +kernel) s h
      have := stripNonHex_X s hs (by rw [getLast_X s h]; simp) (by rw [hk]; omega)
      rw [hk, hl] at this
      have hp : (parseFmt .X).prefixed = true := rfl
      rw [hp]
      simpa using this
    · have e := hexOnly_hasShape _ (shape_nonHex l hX) s h
      have := stripNonHex_plain s hs (by rw [e]; omega)
      rw [e, hl] at this
      have hp : (parseFmt l).prefixed = false := by cases l <;> first | rfl | exact absurd rfl hX
      rw [hp]
      simpa using this
  have hvalid : isAValidUuidString (parseFmt l) s = .ok true := by
    by_cases hX : l = .X
    · subst hX
      rw [parseFmt, isAValid_X]; simp [hasShape_length _ s h]; rfl
    · obtain ⟨v, h1, h2⟩ := isAValid_eq l hX s
      rw [h1, h2.2 (hasShape_loose _ _ h)]
  rw [ofString_letter, initFromFmt, hvalid, Outcome.bind_ok, strip, Outcome.bind_ok]
  have hu := usedLength_eq (digitsAt (shape l) s) 0 hd
  rw [List.replicate_zero, List.append_nil] at hu
  rw [if_neg (by simp), if_neg (fun hne => hne hu)]
  exact unsafeFromString_ub _ _ hd List.not_mem_nil

/-- C100, what holds: if there is a NUL somewhere behind the buffer, what else is there makes
no difference. -/
theorem c100_contents_irrelevant_partial (l : Layout) (up : Bool) (s : List Nat) (hs : ∀ c ∈ s, c < 256)
    (m m' : List Nat) (hm : 0 ∈ m) (hm' : 0 ∈ m') :
    ofString s (letter l up) m = ofString s (letter l up) m' := by
  rw [ofString_letter, ofString_letter]
  by_cases hX : l = .X
  · subst hX; rw [parseFmt, init_X s hs m hm, init_X s hs m' hm']
  · by_cases h : HasShape (shape l) s
    · rw [(init_plain l hX s hs m hm).1 h, (init_plain l hX s hs m' hm').1 h]
    · rw [(init_plain l hX s hs m hm).2 h, (init_plain l hX s hs m' hm').2 h]

example : ofString (chars "00112233445566778899AABBCCDDEEFF") 'N' [52, 52, 52] = .ub := by decide +kernel
example : ofString (chars "00112233445566778899AABBCCDDEEFF") 'N' [52, 52, 52, 0] = .ok sample := by decide +kernel

/-! ## C101 -/

/-- C101 is false: a string that is nothing like X text is accepted in X format. -/
theorem c101_refuted_garbage : ∃ s : List Nat, (∀ c ∈ s, c < 256) ∧ ¬HasShape (shape .X) s ∧
    ∀ behind, 0 ∈ behind → ∃ u, ofString s 'X' behind = .ok u := by
  refine ⟨List.replicate 32 49 ++ List.replicate 36 32, by decide +kernel, ?_, ?_⟩
  · intro h
    have := h.1
    revert this; decide
  · intro behind hz
    have := ofString_letter (List.replicate 32 49 ++ List.replicate 36 32) .X true behind
    rw [show letter .X true = 'X' from rfl, parseFmt] at this
    rw [this, init_X _ (by decide +kernel) behind hz]
    exact ⟨_, by
      rw [if_neg (by decide +kernel), if_neg (by decide +kernel), if_neg (by decide +kernel)]⟩

/-- C101, what holds: X text is accepted, in either letter case, with the value its digits
denote. -/
theorem c101_accepts_partial (up : Bool) (s : List Nat) (h : HasShape (shape .X) s) (behind : List Nat)
    (hz : 0 ∈ behind) :
    ofString s (letter .X up) behind = .ok (ofDigits (digitsAt (shape .X) s)) := by
  rw [ofString_letter, init_hasShape .X s h behind hz]

/-- C101: and what is accepted has 68 characters and, apart from "0x" prefixes, exactly 32
digits, which make up the result. -/
theorem c101_accepted_partial (up : Bool) (s : List Nat) (hs : ∀ c ∈ s, c < 256) (behind u : List Nat)
    (hz : 0 ∈ behind) (h : ofString s (letter .X up) behind = .ok u) :
    s.length = 68 ∧ ∃ ds, ds.length = 32 ∧ ds.Sublist s ∧ (∀ c ∈ ds, IsHexDigit c) ∧ u = ofDigits ds := by
  rw [ofString_letter, parseFmt, init_X s hs behind hz] at h
  split at h
  · simp at h
  · split at h
    · simp at h
    · rename_i h2
      split at h
      · simp at h
      · injection h with h
        refine ⟨by omega, keepX s, by omega, ?_, keepX_hex s, h.symm⟩
        exact (keepX_sublist s).trans List.filter_sublist

example : ofString (chars "                    00112233445566778899AABBCCDDEEFF                ") 'X' [0] =
    .ok sample := by decide +kernel

/-! ## C102 -/

/-- C102 is false: every UUID whose two halves are equal has hash 0, whatever the underlying
hash function. -/
theorem c102_refuted_equal_halves (host : Endian) (h : Nat → Nat) (half : List Nat) (hl : half.length = 8) :
    Uuid.hash host h (half ++ half) = 0 := by
  rw [Uuid.hash, List.take_left' hl, List.drop_left' hl, Nat.xor_self]

/-- C102 is false: exchanging the halves of a UUID does not change its hash. -/
theorem c102_refuted_swapped_halves (host : Endian) (h : Nat → Nat) (a b : List Nat) (ha : a.length = 8)
    (hb : b.length = 8) : Uuid.hash host h (a ++ b) = Uuid.hash host h (b ++ a) := by
  rw [Uuid.hash, Uuid.hash, List.take_left' ha, List.drop_left' ha, List.take_left' hb, List.drop_left' hb,
    Nat.xor_comm]

/-- C102, what holds: with an injective underlying hash, UUIDs collide only if both halves
differ. -/
theorem c102_collisions_partial (host : Endian) (h : Nat → Nat) (hi : Function.Injective h) (u v : List Nat)
    (hne : Uuid.hash host h u = Uuid.hash host h v) :
    (u.take 8 = v.take 8 → intValue host (u.drop 8) = intValue host (v.drop 8)) ∧
    (u.drop 8 = v.drop 8 → intValue host (u.take 8) = intValue host (v.take 8)) := by
  obtain ⟨k1, k2⟩ := c27_both_halves host h u v
  refine ⟨fun e => ?_, fun e => ?_⟩
  · by_contra hn; exact k1 e (fun he => hn (hi he)) hne
  · by_contra hn; exact k2 e (fun he => hn (hi he)) hne

example : Uuid.hash .little (fun x => x * 31 + 7) ([1, 2, 3, 4, 5, 6, 7, 8] ++ [1, 2, 3, 4, 5, 6, 7, 8]) = 0 := by
  decide +kernel

end Wite.Props
