import Verif.Model.Hexlify
import Verif.Spec.Hex
import Mathlib.Tactic.IntervalCases

namespace Wite.Hex

open Wite.Spec

theorem validHexChars_iff (c : Nat) : validHexChars.contains c = true ↔ IsHexDigit c := by
  have h : validHexChars = [48, 49, 50, 51, 52, 53, 54, 55, 56, 57, 65, 66, 67, 68, 69, 70,
      97, 98, 99, 100, 101, 102] := by decide
  rw [h]
  unfold IsHexDigit
  simp only [List.contains_eq_mem, List.mem_cons, List.not_mem_nil, or_false, decide_eq_true_eq]
  omega

theorem isAllValid_iff (s : List Nat) : isAllValidHexChars s = true ↔ ∀ c ∈ s, IsHexDigit c := by
  simp only [isAllValidHexChars, List.all_eq_true, validHexChars_iff]

theorem isHexDigit_iff (c : Nat) : IsHexDigit c ↔ ∃ v, hexVal c = some v := by
  unfold IsHexDigit hexVal
  split
  · simp_all
  · split
    · simp_all
    · split <;> simp_all

theorem hexVal_lt {c v : Nat} (h : hexVal c = some v) : v < 16 := by
  unfold hexVal at h
  split at h
  · simp at h; omega
  · split at h
    · simp at h; omega
    · split at h
      · simp at h; omega
      · simp at h

theorem nibbles_table : ∀ c : Fin 103, ∀ v : Fin 16, hexVal c.1 = some v.1 →
    lowNibble c.1 = v.1 ∧ highNibble c.1 = 16 * v.1 := by
  decide +kernel

theorem nibbles {c v : Nat} (h : hexVal c = some v) : lowNibble c = v ∧ highNibble c = 16 * v := by
  have hc := (isHexDigit_iff c).2 ⟨v, h⟩
  unfold IsHexDigit at hc
  exact nibbles_table ⟨c, by omega⟩ ⟨v, hexVal_lt h⟩ h

theorem or_nibbles : ∀ h < 16, ∀ l < 16, (16 * h ||| l) % 256 = 16 * h + l := by decide +kernel

theorem byte_of_digits {c1 c2 h l : Nat} (h1 : hexVal c1 = some h) (h2 : hexVal c2 = some l) :
    (highNibble c1 ||| lowNibble c2) % 256 = 16 * h + l := by
  rw [(nibbles h1).2, (nibbles h2).1]
  exact or_nibbles h (hexVal_lt h1) l (hexVal_lt h2)

theorem denote_isSome_iff (s : List Nat) :
    (∃ bs, denote s = some bs) ↔ s.length % 2 = 0 ∧ ∀ c ∈ s, IsHexDigit c := by
  induction s using denote.induct with
  | case1 => simp [denote]
  | case2 => simp [denote]
  | case3 c1 c2 rest h l t h3 h2 h1 ih =>
    simp only [denote, h1, h2, h3]
    have := ih.1 ⟨t, h3⟩
    simp only [List.length_cons, List.mem_cons, forall_eq_or_imp]
    refine ⟨fun _ => ⟨by omega, (isHexDigit_iff c1).2 ⟨_, h1⟩, (isHexDigit_iff c2).2 ⟨_, h2⟩, this.2⟩,
      fun _ => ⟨_, rfl⟩⟩
  | case4 c1 c2 rest hno ih =>
    have hd : denote (c1 :: c2 :: rest) = none := by
      rw [denote]
      split
      · next h l t h1 h2 h3 => exact absurd h3 (hno h l t h1 h2)
      · rfl
    rw [hd]
    constructor
    · rintro ⟨_, h⟩; simp at h
    · rintro ⟨hl, hall⟩
      exfalso
      obtain ⟨h, h1⟩ := (isHexDigit_iff c1).1 (hall c1 (by simp))
      obtain ⟨l, h2⟩ := (isHexDigit_iff c2).1 (hall c2 (by simp))
      obtain ⟨t, h3⟩ := ih.2 ⟨by simp at hl; omega, fun c hc => hall c (by simp [hc])⟩
      exact hno h l t h1 h2 h3

theorem denote_length {s bs : List Nat} (h : denote s = some bs) : s.length = 2 * bs.length := by
  induction s using denote.induct generalizing bs with
  | case1 => simp [denote] at h; simp [h]
  | case2 => simp [denote] at h
  | case3 c1 c2 rest hv l t h3 h2 h1 ih =>
    simp only [denote, h1, h2, h3, Option.some.injEq] at h
    subst h
    have := ih h3
    simp only [List.length_cons]; omega
  | case4 c1 c2 rest hno ih =>
    rw [denote] at h
    split at h
    · next h' l t h1 h2 h3 => exact absurd h3 (hno h' l t h1 h2)
    · simp at h

theorem denote_lt {s bs : List Nat} (h : denote s = some bs) : ∀ b ∈ bs, b < 256 := by
  induction s using denote.induct generalizing bs with
  | case1 => simp [denote] at h; simp [h]
  | case2 => simp [denote] at h
  | case3 c1 c2 rest hv l t h3 h2 h1 ih =>
    simp only [denote, h1, h2, h3, Option.some.injEq] at h
    subst h
    intro b hb
    simp only [List.mem_cons] at hb
    have := hexVal_lt h1
    have := hexVal_lt h2
    rcases hb with rfl | hb
    · omega
    · exact ih h3 b hb
  | case4 c1 c2 rest hno ih =>
    rw [denote] at h
    split at h
    · next h' l t h1 h2 h3 => exact absurd h3 (hno h' l t h1 h2)
    · simp at h

theorem unsafeFromHexChars_denote {s bs : List Nat} (h : denote s = some bs) :
    unsafeFromHexChars bs.length s = .ok bs := by
  induction s using denote.induct generalizing bs with
  | case1 => simp [denote] at h; subst h; simp [unsafeFromHexChars]
  | case2 => simp [denote] at h
  | case3 c1 c2 rest hv l t h3 h2 h1 ih =>
    simp only [denote, h1, h2, h3, Option.some.injEq] at h
    subst h
    simp [unsafeFromHexChars, ih h3, byte_of_digits h1 h2]
  | case4 c1 c2 rest hno ih =>
    rw [denote] at h
    split at h
    · next h' l t h1 h2 h3 => exact absurd h3 (hno h' l t h1 h2)
    · simp at h

theorem unsafeUnhexlifyN_denote {s bs : List Nat} (h : denote s = some bs) :
    unsafeUnhexlifyN bs.length s = .ok bs := by
  induction s using denote.induct generalizing bs with
  | case1 => simp [denote] at h; subst h; simp [unsafeUnhexlifyN]
  | case2 => simp [denote] at h
  | case3 c1 c2 rest hv l t h3 h2 h1 ih =>
    simp only [denote, h1, h2, h3, Option.some.injEq] at h
    subst h
    simp [unsafeUnhexlifyN, unsafeFromHexChars, ih h3, byte_of_digits h1 h2]
  | case4 c1 c2 rest hno ih =>
    rw [denote] at h
    split at h
    · next h' l t h1 h2 h3 => exact absurd h3 (hno h' l t h1 h2)
    · simp at h

theorem denote_of_valid {n : Nat} {s : List Nat} (hl : s.length = 2 * n)
    (hv : ∀ c ∈ s, IsHexDigit c) : ∃ bs, denote s = some bs ∧ bs.length = n := by
  obtain ⟨bs, hb⟩ := (denote_isSome_iff s).2 ⟨by omega, hv⟩
  exact ⟨bs, hb, by have := denote_length hb; omega⟩

theorem fromHexChars_cases (n : Nat) (s : List Nat) :
    (s.length ≠ 2 * n ∧ fromHexChars n s = .throw (.invalidArgument "Invalid sequence length for type")) ∨
    (s.length = 2 * n ∧ ¬ (∀ c ∈ s, IsHexDigit c) ∧
      fromHexChars n s = .throw (.invalidArgument "Invalid hex char")) ∨
    (s.length = 2 * n ∧ (∀ c ∈ s, IsHexDigit c) ∧
      ∃ bs, denote s = some bs ∧ bs.length = n ∧ fromHexChars n s = .ok bs) := by
  unfold fromHexChars
  by_cases hl : s.length = 2 * n
  · by_cases hv : ∀ c ∈ s, IsHexDigit c
    · right; right
      obtain ⟨bs, hb, hn⟩ := denote_of_valid hl hv
      refine ⟨hl, hv, bs, hb, hn, ?_⟩
      have := (isAllValid_iff s).2 hv
      simp [hl, this]
      rw [← hn]; exact unsafeFromHexChars_denote hb
    · right; left
      have : isAllValidHexChars s = false := by
        rw [Bool.eq_false_iff]; exact fun h => hv ((isAllValid_iff s).1 h)
      exact ⟨hl, hv, by simp [hl, this]⟩
  · left; exact ⟨hl, by simp [hl]⟩

theorem unhexlifyN_cases (n : Nat) (s : List Nat) :
    (s.length ≠ 2 * n ∧ unhexlifyN n s = .throw (.invalidArgument "Invalid sequence length")) ∨
    (s.length = 2 * n ∧ ¬ (∀ c ∈ s, IsHexDigit c) ∧
      unhexlifyN n s = .throw (.invalidArgument "Invalid hex char")) ∨
    (s.length = 2 * n ∧ (∀ c ∈ s, IsHexDigit c) ∧
      ∃ bs, denote s = some bs ∧ bs.length = n ∧ unhexlifyN n s = .ok bs) := by
  unfold unhexlifyN
  by_cases hl : s.length = 2 * n
  · by_cases hv : ∀ c ∈ s, IsHexDigit c
    · right; right
      obtain ⟨bs, hb, hn⟩ := denote_of_valid hl hv
      refine ⟨hl, hv, bs, hb, hn, ?_⟩
      have := (isAllValid_iff s).2 hv
      simp [hl, this]
      rw [← hn]; exact unsafeUnhexlifyN_denote hb
    · right; left
      have : isAllValidHexChars s = false := by
        rw [Bool.eq_false_iff]; exact fun h => hv ((isAllValid_iff s).1 h)
      exact ⟨hl, hv, by simp [hl, this]⟩
  · left; exact ⟨hl, by simp [hl]⟩

/-- Dynamic `unhexlify` on the first `2 * k` characters. -/
theorem unhexlifyLoop_cases (k : Nat) (s : List Nat) (hk : 2 * k ≤ s.length) :
    (¬ (∀ c ∈ s.take (2 * k), IsHexDigit c) ∧
      unhexlifyLoop k s = .throw (.invalidArgument "Invalid hex char")) ∨
    ((∀ c ∈ s.take (2 * k), IsHexDigit c) ∧
      ∃ bs, denote (s.take (2 * k)) = some bs ∧ unhexlifyLoop k s = .ok bs) := by
  induction k generalizing s with
  | zero => right; simp [unhexlifyLoop, denote]
  | succ k ih =>
    match s with
    | [] => simp at hk
    | [c] => simp at hk; omega
    | c1 :: c2 :: rest =>
      have htake : (c1 :: c2 :: rest).take (2 * (k + 1)) = c1 :: c2 :: rest.take (2 * k) := by
        rw [Nat.mul_add]; rfl
      rw [htake]
      have hrest := ih rest (by simp at hk; omega)
      have hpair := fromHexChars_cases 1 [c1, c2]
      simp only [List.length_cons, List.length_nil, ne_eq, List.mem_cons, List.not_mem_nil, or_false,
        forall_eq_or_imp, forall_eq] at hpair
      rcases hpair with ⟨h, _⟩ | ⟨_, hbad, hthrow⟩ | ⟨_, hgood, bs, hden, hlen, hok⟩
      · exact absurd trivial h
      · left
        refine ⟨?_, ?_⟩
        · simp only [List.mem_cons, forall_eq_or_imp]
          exact fun h => hbad ⟨h.1, h.2.1⟩
        · rw [unhexlifyLoop, hthrow]; rfl
      · rcases hrest with ⟨hbad, hthrow⟩ | ⟨hg, bs', hden', hok'⟩
        · left
          refine ⟨?_, ?_⟩
          · simp only [List.mem_cons, forall_eq_or_imp]
            exact fun h => hbad h.2.2
          · simp [unhexlifyLoop, hok, hthrow]
        · right
          refine ⟨by simp only [List.mem_cons, forall_eq_or_imp]; exact ⟨hgood.1, hgood.2, hg⟩, bs ++ bs', ?_, ?_⟩
          · obtain ⟨h, h1⟩ := (isHexDigit_iff c1).1 hgood.1
            obtain ⟨l, h2⟩ := (isHexDigit_iff c2).1 hgood.2
            simp [denote, h1, h2] at hden
            simp [denote, h1, h2, hden', ← hden]
          · simp [unhexlifyLoop, hok, hok']

theorem upperCaseBytes_table :
    upperCaseBytes.length = 256 ∧
    ∀ b : Fin 256, (upperCaseBytes[b.1]?).map (fun p => (p.1.toNat, p.2.toNat))
      = some (upperDigit (b.1 / 16), upperDigit (b.1 % 16)) := by
  decide +kernel

theorem upperCaseBytes_get (b : Nat) (h : b < 256) : ∃ p, upperCaseBytes[b]? = some p ∧
    p.1.toNat = upperDigit (b / 16) ∧ p.2.toNat = upperDigit (b % 16) := by
  have := upperCaseBytes_table.2 ⟨b, h⟩
  cases hp : upperCaseBytes[b]? with
  | none => simp [hp] at this
  | some p =>
    simp only [hp, Option.map_some, Option.some.injEq, Prod.mk.injEq] at this
    exact ⟨p, rfl, this.1, this.2⟩

theorem hexVal_upperDigit (v : Nat) (h : v < 16) : hexVal (upperDigit v) = some v := by
  interval_cases v <;> decide

theorem writeOne_spec (done ts : List Nat) (t c : Nat) :
    Join.writeOne (done ++ t :: ts, done.length) c = .ok ((done ++ [c]) ++ ts, (done ++ [c]).length) := by
  simp [Join.writeOne, List.set_append_right]

theorem hexlifyLoop_spec (bytes done tail : List Nat) (hb : ∀ b ∈ bytes, b < 256)
    (hl : tail.length = 2 * bytes.length) :
    hexlifyLoop (done ++ tail, done.length) bytes =
      .ok (done ++ hexText bytes, done.length + 2 * bytes.length) := by
  induction bytes generalizing done tail with
  | nil =>
    have : tail = [] := by simpa using hl
    simp [hexlifyLoop, hexText, this]
  | cons b bs ih =>
    match tail with
    | [] => simp at hl
    | [_] => simp at hl; omega
    | t1 :: t2 :: ts =>
      obtain ⟨p, hp, h1, h2⟩ := upperCaseBytes_get b (hb b (by simp))
      simp only [hexlifyLoop, hp]
      rw [writeOne_spec, Outcome.bind_ok, writeOne_spec, Outcome.bind_ok]
      rw [ih _ _ (fun x hx => hb x (by simp [hx])) (by simp at hl; omega)]
      simp [hexText, h1, h2]
      omega

theorem hexlify_spec (bytes : List Nat) (hb : ∀ b ∈ bytes, b < 256) :
    hexlify bytes = .ok (hexText bytes) := by
  have := hexlifyLoop_spec bytes [] (List.replicate (2 * bytes.length) 0) hb (by simp)
  simp at this
  simp [hexlify, this]

theorem hexText_length (bytes : List Nat) : (hexText bytes).length = 2 * bytes.length := by
  induction bytes with
  | nil => rfl
  | cons b bs ih =>
    simp only [hexText, List.flatMap_cons, List.length_append, List.length_cons, List.length_nil] at ih ⊢
    omega

theorem denote_hexText (bytes : List Nat) (hb : ∀ b ∈ bytes, b < 256) :
    denote (hexText bytes) = some bytes := by
  induction bytes with
  | nil => rfl
  | cons b bs ih =>
    have h := hb b (by simp)
    have ih := ih (fun x hx => hb x (by simp [hx]))
    have e : hexText (b :: bs) = upperDigit (b / 16) :: upperDigit (b % 16) :: hexText bs := rfl
    rw [e, denote, hexVal_upperDigit _ (by omega), hexVal_upperDigit _ (by omega), ih]
    simp; omega

theorem upperDigit_toUpper {c v : Nat} (h : hexVal c = some v) : upperDigit v = toUpper c := by
  unfold hexVal at h
  unfold upperDigit toUpper
  split at h
  · simp at h; split <;> split <;> omega
  · split at h
    · simp at h; split <;> split <;> omega
    · split at h
      · simp at h; split <;> split <;> omega
      · simp at h

theorem hexText_denote {s bs : List Nat} (h : denote s = some bs) : hexText bs = s.map toUpper := by
  induction s using denote.induct generalizing bs with
  | case1 => simp [denote] at h; simp [h, hexText]
  | case2 => simp [denote] at h
  | case3 c1 c2 rest hv l t h3 h2 h1 ih =>
    simp only [denote, h1, h2, h3, Option.some.injEq] at h
    subst h
    have e : ∀ b bs, hexText (b :: bs) = upperDigit (b / 16) :: upperDigit (b % 16) :: hexText bs :=
      fun _ _ => rfl
    have := hexVal_lt h1
    have := hexVal_lt h2
    rw [e, ih h3, show (16 * hv + l) / 16 = hv by omega, show (16 * hv + l) % 16 = l by omega,
      upperDigit_toUpper h1, upperDigit_toUpper h2]
    rfl
  | case4 c1 c2 rest hno ih =>
    rw [denote] at h
    split at h
    · next h' l t h1 h2 h3 => exact absurd h3 (hno h' l t h1 h2)
    · simp at h

theorem leBytes_length (n v : Nat) : (leBytes n v).length = n := by
  induction n generalizing v with
  | zero => rfl
  | succ n ih => simp [leBytes, ih]

theorem leBytes_lt (n v : Nat) : ∀ b ∈ leBytes n v, b < 256 := by
  induction n generalizing v with
  | zero => simp [leBytes]
  | succ n ih =>
    intro b hb
    simp only [leBytes, List.mem_cons] at hb
    rcases hb with rfl | hb
    · exact Nat.mod_lt _ (by decide)
    · exact ih _ b hb

theorem leValue_leBytes (n v : Nat) (h : v < 256 ^ n) : leValue (leBytes n v) = v := by
  induction n generalizing v with
  | zero => simp at h; simp [leBytes, leValue, h]
  | succ n ih =>
    have : v / 256 < 256 ^ n := by
      rw [Nat.div_lt_iff_lt_mul (by decide)]; rw [Nat.pow_succ] at h; exact h
    simp only [leBytes, leValue, ih _ this]
    omega

theorem leBytes_leValue (bs : List Nat) (h : ∀ b ∈ bs, b < 256) :
    leBytes bs.length (leValue bs) = bs := by
  induction bs with
  | nil => rfl
  | cons b bs ih =>
    have hb := h b (by simp)
    have ih := ih (fun x hx => h x (by simp [hx]))
    simp only [List.length_cons, leBytes, leValue]
    rw [show (b + 256 * leValue bs) % 256 = b by omega,
      show (b + 256 * leValue bs) / 256 = leValue bs by omega, ih]

theorem leValue_lt (bs : List Nat) (h : ∀ b ∈ bs, b < 256) : leValue bs < 256 ^ bs.length := by
  induction bs with
  | nil => simp [leValue]
  | cons b bs ih =>
    have hb := h b (by simp)
    have ih := ih (fun x hx => h x (by simp [hx]))
    simp only [List.length_cons, leValue, Nat.pow_succ]
    omega

end Wite.Hex
