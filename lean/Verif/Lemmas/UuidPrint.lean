import Verif.Model.Uuid
import Verif.Spec.Uuid
import Verif.Lemmas.Io
import Mathlib.Tactic.IntervalCases
import Mathlib.Data.List.TakeWhile

/-!
# Lemmas about UUID text: printing
-/

namespace Wite.Uuid

open Wite.Io Wite.Spec Wite.Spec.Uuid Wite.Hex

/-! ## Digits -/

theorem printDigit_eq (up : Bool) (v : Nat) : printDigit up v = digit up v := by
  cases up <;> simp [printDigit, digit, upperDigit, lowerDigit]

theorem fixed_length (up : Bool) (k v : Nat) : (fixed up k v).length = k := by
  induction k generalizing v with
  | zero => rfl
  | succ k ih => simp [fixed, ih]

theorem fixed_zero (up : Bool) (k : Nat) : fixed up k 0 = List.replicate k 48 := by
  induction k with
  | zero => rfl
  | succ k ih =>
    have : digit up 0 = 48 := by cases up <;> rfl
    rw [fixed, Nat.zero_div, ih, Nat.zero_mod, this, List.replicate_succ']

theorem printDigits_spec (up : Bool) (w fuel v : Nat) (hf : w ≤ fuel) (hv : v < 16 ^ w) :
    (printDigits up fuel v).length ≤ w ∧
    List.replicate (w - (printDigits up fuel v).length) 48 ++ (printDigits up fuel v).reverse =
      fixed up w v := by
  induction w generalizing fuel v with
  | zero =>
    have : v = 0 := by simpa using hv
    subst this
    cases fuel <;> simp [printDigits, fixed]
  | succ w ih =>
    cases fuel with
    | zero => omega
    | succ f =>
      by_cases h0 : v = 0
      · subst h0
        simp [printDigits, fixed_zero]
      · have hv' : v / 16 < 16 ^ w := by
          rw [Nat.div_lt_iff_lt_mul (by omega)]; rw [pow_succ] at hv; exact hv
        obtain ⟨h1, h2⟩ := ih f (v / 16) (by omega) hv'
        rw [printDigits, if_neg h0]
        refine ⟨by simp; omega, ?_⟩
        rw [List.length_cons, List.reverse_cons, fixed, ← h2, printDigit_eq]
        have : w + 1 - ((printDigits up f (v / 16)).length + 1) = w - (printDigits up f (v / 16)).length := by
          omega
        rw [this, List.append_assoc]

theorem printHex_eq (up : Bool) (w v : Nat) (hw : 1 ≤ w) (hw8 : w ≤ 8) (hv : v < 16 ^ w) :
    printHex up w v = fixed up w v := by
  obtain ⟨h1, h2⟩ := printDigits_spec up w 8 v hw8 hv
  rw [printHex]
  by_cases h : v = 0
  · subst h
    have : printDigits up 8 0 = [] := rfl
    simp only [this, List.reverse_nil, List.isEmpty_nil, if_true, List.length_singleton]
    rw [fixed_zero, ← List.replicate_succ']
    congr 1; omega
  · have hne : (printDigits up 8 v).reverse.isEmpty = false := by
      simp [printDigits, h]
    simp only [hne]
    simpa using h2

theorem digit_hex (up : Bool) (v : Nat) (hv : v < 16) : hexVal (digit up v) = some v := by
  cases up <;> interval_cases v <;> decide

theorem digit_isHex (up : Bool) (v : Nat) (hv : v < 16) : IsHexDigit (digit up v) :=
  (isHexDigit_iff _).2 ⟨v, digit_hex up v hv⟩

theorem fixed_isHex (up : Bool) (k v : Nat) : ∀ c ∈ fixed up k v, IsHexDigit c := by
  induction k generalizing v with
  | zero => simp [fixed]
  | succ k ih =>
    intro c hc
    rw [fixed, List.mem_append, List.mem_singleton] at hc
    rcases hc with h | h
    · exact ih _ c h
    · subst h; exact digit_isHex up _ (Nat.mod_lt _ (by omega))

theorem pairs_isHex (up : Bool) (bs : List Nat) : ∀ c ∈ pairs up bs, IsHexDigit c := by
  intro c hc
  obtain ⟨b, _, h⟩ := List.mem_flatMap.1 hc
  exact fixed_isHex up 2 b c h

theorem isHex_ne_zero {c : Nat} (h : IsHexDigit c) : c ≠ 0 := by
  rcases h with h | h | h <;> omega

/-! ## Numbers in memory -/

theorem numberOf_eq (host : Endian) (o : Obj) : numberOf host o = intValue host o := by
  have h1 : ∀ o : List Nat, o.foldr (fun b acc => b + 256 * acc) 0 = leValue o := by
    intro o
    induction o with
    | nil => rfl
    | cons b bs ih => simp [leValue, ih]
  cases host with
  | little => exact h1 o
  | big =>
    simp only [numberOf, intValue, beValue]
    rw [← h1 o.reverse, List.foldr_reverse]
    congr 1; funext a b; omega

theorem numberOf_bytesOf (host : Endian) (bs : List Nat) :
    numberOf host (bytesOf host .littleEndian bs) = leValue bs := by
  rw [numberOf_eq]
  cases host <;> simp [bytesOf, littleEndianBytes, intValue, beValue]

theorem objectOf_eq (host : Endian) (k v : Nat) : objectOf host k v = intObject host k v := by
  have h1 : ∀ k v, (List.range k).map (fun i => v / 256 ^ i % 256) = leBytes k v := by
    intro k
    induction k with
    | zero => intro v; rfl
    | succ k ih =>
      intro v
      rw [List.range_succ_eq_map, List.map_cons, List.map_map, leBytes, ← ih (v / 256)]
      congr 1
      · simp
      · apply List.map_congr_left
        intro i _
        simp only [Function.comp, Nat.succ_eq_add_one, pow_succ]
        rw [Nat.mul_comm, Nat.div_div_eq_div_mul]
  cases host <;> simp only [objectOf, h1] <;> rfl

theorem explode {u : List Nat} (h : u.length = 16) :
    ∃ b0 b1 b2 b3 b4 b5 b6 b7 b8 b9 b10 b11 b12 b13 b14 b15,
      u = [b0, b1, b2, b3, b4, b5, b6, b7, b8, b9, b10, b11, b12, b13, b14, b15] := by
  rcases u with _ | ⟨b0, _ | ⟨b1, _ | ⟨b2, _ | ⟨b3, _ | ⟨b4, _ | ⟨b5, _ | ⟨b6, _ | ⟨b7, _ | ⟨b8, _ | ⟨b9,
    _ | ⟨b10, _ | ⟨b11, _ | ⟨b12, _ | ⟨b13, _ | ⟨b14, _ | ⟨b15, _ | ⟨b16, u⟩⟩⟩⟩⟩⟩⟩⟩⟩⟩⟩⟩⟩⟩⟩⟩⟩ <;>
    simp at h
  exact ⟨_, _, _, _, _, _, _, _, _, _, _, _, _, _, _, _, rfl⟩

/-! ## The text produced -/

/-- The format object used for printing a layout. -/
def fmtOf : Layout → Bool → Format
  | .N, true => N | .N, false => n
  | .D, true => D | .D, false => d
  | .B, true => B | .B, false => b
  | .P, true => P | .P, false => p
  | .X, true => X | .X, false => x

theorem printFormat_letter (l : Layout) (up : Bool) : printFormat (letter l up) = some (fmtOf l up) := by
  cases l <;> cases up <;> rfl

theorem fmtOf_size (l : Layout) (up : Bool) : (fmtOf l up).size = textLength l := by
  cases l <;> cases up <;> rfl

/-- The tokens of the format strings. -/
def toks : Layout → Bool → List Tok
  | .N, u => [.hex 8 u, .hex 4 u, .hex 4 u, .hex 2 u, .hex 2 u, .hex 2 u, .hex 2 u, .hex 2 u, .hex 2 u,
      .hex 2 u, .hex 2 u]
  | .D, u => [.hex 8 u, .lit 45, .hex 4 u, .lit 45, .hex 4 u, .lit 45, .hex 2 u, .hex 2 u, .lit 45,
      .hex 2 u, .hex 2 u, .hex 2 u, .hex 2 u, .hex 2 u, .hex 2 u]
  | .B, u => [.lit 123, .hex 8 u, .lit 45, .hex 4 u, .lit 45, .hex 4 u, .lit 45, .hex 2 u, .hex 2 u, .lit 45,
      .hex 2 u, .hex 2 u, .hex 2 u, .hex 2 u, .hex 2 u, .hex 2 u, .lit 125]
  | .P, u => [.lit 40, .hex 8 u, .lit 45, .hex 4 u, .lit 45, .hex 4 u, .lit 45, .hex 2 u, .hex 2 u, .lit 45,
      .hex 2 u, .hex 2 u, .hex 2 u, .hex 2 u, .hex 2 u, .hex 2 u, .lit 41]
  | .X, u => [.lit 123, .lit 48, .lit 120, .hex 8 u, .lit 44, .lit 48, .lit 120, .hex 4 u, .lit 44, .lit 48,
      .lit 120, .hex 4 u, .lit 44, .lit 123, .lit 48, .lit 120, .hex 2 u, .lit 44, .lit 48, .lit 120, .hex 2 u,
      .lit 44, .lit 48, .lit 120, .hex 2 u, .lit 44, .lit 48, .lit 120, .hex 2 u, .lit 44, .lit 48, .lit 120,
      .hex 2 u, .lit 44, .lit 48, .lit 120, .hex 2 u, .lit 44, .lit 48, .lit 120, .hex 2 u, .lit 44, .lit 48,
      .lit 120, .hex 2 u, .lit 125, .lit 125]

theorem parseFormat_eq (l : Layout) (up : Bool) :
    parseFormat (fmtOf l up).format.toList = some (toks l up) := by
  cases l <;> cases up <;> decide +kernel

theorem formatText_eq (l : Layout) (up : Bool) (d1 d2 d3 : Nat) (d4 : List Nat) (h1 : d1 < 2 ^ 32)
    (h2 : d2 < 2 ^ 16) (h3 : d3 < 2 ^ 16) (h4l : d4.length = 8) (h4 : ∀ b ∈ d4, b < 256) :
    formatText (toks l up) (d1 :: d2 :: d3 :: d4) = .ok (fieldText l up d1 d2 d3 d4) := by
  rcases d4 with _ | ⟨b0, _ | ⟨b1, _ | ⟨b2, _ | ⟨b3, _ | ⟨b4, _ | ⟨b5, _ | ⟨b6, _ | ⟨b7, _ | ⟨b8, u⟩⟩⟩⟩⟩⟩⟩⟩⟩ <;>
    simp at h4l
  simp only [List.mem_cons, List.not_mem_nil, or_false, forall_eq_or_imp, forall_eq] at h4
  obtain ⟨a0, a1, a2, a3, a4, a5, a6, a7⟩ := h4
  have e1 := printHex_eq up 8 d1 (by omega) (by omega) (by omega)
  have e2 := printHex_eq up 4 d2 (by omega) (by omega) (by omega)
  have e3 := printHex_eq up 4 d3 (by omega) (by omega) (by omega)
  have e : ∀ b, b < 256 → printHex up 2 b = fixed up 2 b := fun b hb =>
    printHex_eq up 2 b (by omega) (by omega) (by omega)
  cases l <;>
    simp [toks, formatText, fieldText, dashed, pairs, e1, e2, e3, e _ a0, e _ a1, e _ a2, e _ a3, e _ a4,
      e _ a5, e _ a6, e _ a7, List.intercalate, List.intersperse]

theorem fieldText_length (l : Layout) (up : Bool) (d1 d2 d3 : Nat) (d4 : List Nat) (h4l : d4.length = 8) :
    (fieldText l up d1 d2 d3 d4).length = textLength l := by
  rcases d4 with _ | ⟨b0, _ | ⟨b1, _ | ⟨b2, _ | ⟨b3, _ | ⟨b4, _ | ⟨b5, _ | ⟨b6, _ | ⟨b7, _ | ⟨b8, u⟩⟩⟩⟩⟩⟩⟩⟩⟩ <;>
    simp at h4l
  cases l <;>
    simp [fieldText, dashed, pairs, fixed_length, List.intercalate, List.intersperse, textLength]

theorem fieldText_ne_zero (l : Layout) (up : Bool) (d1 d2 d3 : Nat) (d4 : List Nat) (h4l : d4.length = 8) :
    ∀ c ∈ fieldText l up d1 d2 d3 d4, c ≠ 0 := by
  have hf : ∀ k v, ∀ c ∈ fixed up k v, c ≠ 0 := fun k v c hc => isHex_ne_zero (fixed_isHex up k v c hc)
  have hz : ∀ k v, 0 ∉ fixed up k v := fun k v h => hf k v 0 h rfl
  rcases d4 with _ | ⟨b0, _ | ⟨b1, _ | ⟨b2, _ | ⟨b3, _ | ⟨b4, _ | ⟨b5, _ | ⟨b6, _ | ⟨b7, _ | ⟨b8, u⟩⟩⟩⟩⟩⟩⟩⟩⟩ <;>
    simp at h4l
  have : 0 ∉ fieldText l up d1 d2 d3 [b0, b1, b2, b3, b4, b5, b6, b7] := by
    cases l <;>
      simp [fieldText, dashed, pairs, hz, List.intercalate, List.intersperse]
  intro c hc h0
  subst h0
  exact this hc

theorem data_bounds {u : List Nat} (hu : IsUuid u) :
    data1 u < 2 ^ 32 ∧ data2 u < 2 ^ 16 ∧ data3 u < 2 ^ 16 ∧ (data4 u).length = 8 ∧
      ∀ b ∈ data4 u, b < 256 := by
  obtain ⟨hl, hb⟩ := hu
  have h1 := leValue_lt (u.take 4) (fun b h => hb b (List.mem_of_mem_take h))
  have h2 := leValue_lt ((u.drop 4).take 2) (fun b h => hb b (List.mem_of_mem_drop (List.mem_of_mem_take h)))
  have h3 := leValue_lt ((u.drop 6).take 2) (fun b h => hb b (List.mem_of_mem_drop (List.mem_of_mem_take h)))
  have l1 : (u.take 4).length = 4 := by simp [hl]
  have l2 : ((u.drop 4).take 2).length = 2 := by simp [hl]
  have l3 : ((u.drop 6).take 2).length = 2 := by simp [hl]
  rw [l1] at h1; rw [l2] at h2; rw [l3] at h3
  refine ⟨h1, h2, h3, by simp [data4, hl], fun b h => hb b (List.mem_of_mem_drop h)⟩

theorem text_length (l : Layout) (up : Bool) {u : List Nat} (hu : IsUuid u) :
    (text l up u).length = textLength l := fieldText_length l up _ _ _ _ (data_bounds hu).2.2.2.1

theorem text_ne_zero (l : Layout) (up : Bool) {u : List Nat} (hu : IsUuid u) :
    ∀ c ∈ text l up u, c ≠ 0 := fieldText_ne_zero l up _ _ _ _ (data_bounds hu).2.2.2.1

theorem toCStrFmt_run (host : Endian) (l : Layout) (up : Bool) {u : List Nat} (hu : IsUuid u) (maxLen : Nat)
    (mem : List Nat) (hm : maxLen ≤ mem.length) :
    (toCStrFmt host u (fmtOf l up) maxLen).run mem =
      if maxLen < textLength l + 1 then (.ok false, mem)
      else (.ok true, text l up u ++ [0] ++ mem.drop (textLength l + 1)) := by
  rw [toCStrFmt, St.run_ite, fmtOf_size]
  by_cases h : maxLen < textLength l + 1
  · rw [if_pos h, if_pos h]; rfl
  · rw [if_neg h, if_neg h]
    obtain ⟨b1, b2, b3, b4l, b4⟩ := data_bounds hu
    have hl := hu.1
    have r1 : uncheckedRead host ⟨4, .littleEndian⟩ u 0 = .ok (bytesOf host .littleEndian (u.take 4), 4) := by
      simp [uncheckedRead, readMem, hl]
    have r2 : uncheckedRead host ⟨2, .littleEndian⟩ u 4 =
        .ok (bytesOf host .littleEndian ((u.drop 4).take 2), 6) := by
      simp [uncheckedRead, readMem, hl]
    have r3 : uncheckedRead host ⟨2, .littleEndian⟩ u 6 =
        .ok (bytesOf host .littleEndian ((u.drop 6).take 2), 8) := by
      simp [uncheckedRead, readMem, hl]
    have r4 : readMem u 8 8 = .ok (data4 u) := by
      simp only [readMem, hl, Nat.reduceAdd, Nat.le_refl, if_true, data4]
      rw [List.take_of_length_le (by simp [hl])]
    have ht := text_length l up hu
    have hft := formatText_eq l up _ _ _ _ b1 b2 b3 b4l b4
    simp only [St.run_bind, St.run_lift, r1, r2, r3, r4, parseFormat_eq, numberOf_bytesOf]
    simp only [data1, data2, data3] at hft
    rw [hft]
    simp only
    have hs : (snprintf maxLen (text l up u)).run mem =
        (.ok ⟨⟩, text l up u ++ [0] ++ mem.drop (textLength l + 1)) := by
      have h0 : maxLen ≠ 0 := by omega
      have htk : (text l up u).take (maxLen - 1) = text l up u := List.take_of_length_le (by omega)
      have hle : textLength l + 1 ≤ mem.length := by omega
      simp [snprintf, St.run, h0, htk, ht, hle]
    have hs' := hs
    simp only [text, data1, data2, data3] at hs'
    rw [hs']
    rfl

theorem takeWhile_append_nul {t r : List Nat} (h : ∀ c ∈ t, c ≠ 0) :
    (t ++ 0 :: r).takeWhile (· ≠ 0) = t := by
  induction t with
  | nil => simp
  | cons a t ih =>
    have ha : a ≠ 0 := h a (by simp)
    simp only [List.cons_append, List.takeWhile_cons, ha, ne_eq, not_false_eq_true, decide_true, if_true]
    rw [ih (fun c hc => h c (by simp [hc]))]

theorem str_eq (host : Endian) (l : Layout) (up : Bool) {u : List Nat} (hu : IsUuid u) :
    str host u (letter l up) = .ok (text l up u) := by
  have hX : X.size = 68 := rfl
  have hT : textLength l ≤ 68 := by cases l <;> decide
  simp only [str, printFormat_letter, toStringFmt]
  rw [toCStrFmt_run host l up hu _ _ (by simp), if_neg (by rw [hX]; omega)]
  simp only [ofCStr]
  rw [if_pos (by simp), List.append_assoc, List.singleton_append, takeWhile_append_nul (text_ne_zero l up hu)]

end Wite.Uuid
