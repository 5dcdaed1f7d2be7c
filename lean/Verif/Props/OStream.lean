import Verif.Props.Uuid
import Verif.Props.Point
import Verif.Model.OStream
import Mathlib.Data.Nat.Digits.Lemmas

/-!
# C121 - C123: insertion of UUIDs, indexes, ids, points and ranges into streams
-/

namespace Wite.Props

open Wite.Io Wite.Spec Wite.Spec.Uuid Wite.Uuid Wite.Hex Wite.OStream

/-- A text padded with a number of fill characters on one side. -/
def padded {C : Type} (left : Bool) (k : Nat) (fill : C) (s : List C) : List C :=
  if left then s ++ List.replicate k fill else List.replicate k fill ++ s

/-! ## C121: UUIDs -/

/-- C121: inserting a UUID writes its D text as one field: padded as a whole to the width, which is reset; nothing else
in the stream changes. -/
theorem c121_insert (host : Endian) (u : List Nat) (hu : IsUuid u) (os : OStream Nat) :
    insertUuid host u os = .ok { os with
      out := os.out ++ padded (os.adjust == .left) (os.width - 36) os.fill (text .D true u), width := 0 } := by
  have h := str_eq host .D true hu
  simp only [letter] at h
  rw [insertUuid, h, Outcome.bind_ok]
  have hl : (text .D true u).length = 36 := text_length .D true hu
  simp only [insertText, hl, padded]
  cases os.adjust <;> rfl

/-- C121: two UUIDs inserted into the same stream are told apart by the output, whatever the width and fill. -/
theorem c121_injective (host : Endian) (u v : List Nat) (hu : IsUuid u) (hv : IsUuid v) (os os' os'' : OStream Nat)
    (h1 : insertUuid host u os = .ok os') (h2 : insertUuid host v os = .ok os'') (h : os'.out = os''.out) : u = v := by
  rw [c121_insert host u hu] at h1
  rw [c121_insert host v hv] at h2
  cases h1; cases h2
  have h := List.append_cancel_left h
  have e : text .D true u = text .D true v := by
    simp only [padded] at h
    split at h
    · exact List.append_cancel_right h
    · exact List.append_cancel_left h
  have hu' := (ofDigits_text .D true hu).2
  rw [e, (ofDigits_text .D true hv).2] at hu'
  exact hu'.symm

/-- C121: what a stream without a width received is read back by the constructor. -/
theorem c121_read_back (host : Endian) (u : List Nat) (hu : IsUuid u) (os os' : OStream Nat) (hw : os.width ≤ 36)
    (h : insertUuid host u os = .ok os') (behind : List Nat) (hz : 0 ∈ behind) :
    ofString (os'.out.drop os.out.length) 'D' behind = .ok u := by
  rw [c121_insert host u hu] at h
  cases h
  have hp : padded (os.adjust == .left) (os.width - 36) os.fill (text .D true u) = text .D true u := by
    rw [show os.width - 36 = 0 by omega]; simp [padded]
  simp only [hp, List.drop_left]
  have := c16_round_trip host .D true u hu behind hz
  rw [str_eq host .D true hu, Outcome.bind_ok] at this
  exact this

/-- C121: an id wrapping a UUID is inserted as that UUID. -/
theorem c121_id (host : Endian) (u : List Nat) (os : OStream Nat) :
    insertId (insertUuid host) (Id.make u) os = insertUuid host u os := rfl

example : (insertUuid .little (List.range 16) ⟨40, 42, .left, .dec, false, false, [33]⟩ >>= fun os => .ok (os.out.length, os.width)) =
    .ok (41, 0) := by decide +kernel

/-! ## C122: indexes -/

/-- The number a numeral denotes. -/
def numeralValue (radix : Nat) (s : List Nat) : Nat := s.foldl (fun acc c => radix * acc + (hexVal c).getD 0) 0

theorem hexVal_digitChar (up : Bool) (d : Nat) (h : d < 16) : hexVal (digitChar up d) = some d := by
  interval_cases d <;> cases up <;> rfl

/-- C122: the digits written for a number are digits of the base, denote the number, and begin with a zero only for zero. -/
theorem c122_digits (base : Base) (up : Bool) (v : Nat) :
    digits base up v ≠ [] ∧ (∀ c ∈ digits base up v, ∃ d, hexVal c = some d ∧ d < radix base) ∧
    numeralValue (radix base) (digits base up v) = v ∧ ((digits base up v).head? = some 48 → v = 0) := by
  have hr : 1 < radix base ∧ radix base ≤ 16 := by cases base <;> decide
  unfold digits
  split
  · rename_i h0
    subst h0
    refine ⟨by simp, fun c hc => ?_, rfl, fun _ => rfl⟩
    rw [List.mem_singleton] at hc
    exact ⟨0, by rw [hc]; rfl, by omega⟩
  · rename_i h0
    have hlt : ∀ d ∈ Nat.digits (radix base) v, d < radix base := fun d hd => Nat.digits_lt_base hr.1 hd
    have hne : Nat.digits (radix base) v ≠ [] := Nat.digits_ne_nil_iff_ne_zero.2 h0
    refine ⟨by simpa using hne, fun c hc => ?_, ?_, fun hh => ?_⟩
    · obtain ⟨d, hd, rfl⟩ := List.mem_map.1 hc
      have := hlt d (List.mem_reverse.1 hd)
      exact ⟨d, hexVal_digitChar up d (by omega), this⟩
    · have key : ∀ ds : List Nat, (∀ d ∈ ds, d < radix base) →
          numeralValue (radix base) (ds.reverse.map (digitChar up)) = Nat.ofDigits (radix base) ds := by
        intro ds
        induction ds with
        | nil => intro _; rfl
        | cons d ds ih =>
          intro h
          have hd := h d (by simp)
          have ih := ih (fun x hx => h x (by simp [hx]))
          unfold numeralValue at ih ⊢
          rw [List.reverse_cons, List.map_append, List.foldl_append, ih]
          simp only [List.map_cons, List.map_nil, List.foldl_cons, List.foldl_nil]
          rw [hexVal_digitChar up d (by omega), Option.getD_some, Nat.ofDigits_cons, Nat.add_comm]
      rw [key _ hlt, Nat.ofDigits_digits]
    · exfalso
      rw [List.head?_map, List.head?_reverse, List.getLast?_eq_some_getLast hne] at hh
      have hh : digitChar up ((Nat.digits (radix base) v).getLast hne) = 48 := by simpa using hh
      have hz := Nat.getLast_digit_ne_zero (radix base) h0
      have hm := hlt _ (List.getLast_mem hne)
      have := hexVal_digitChar up _ (show (Nat.digits (radix base) v).getLast hne < 16 by omega)
      rw [hh] at this
      have this : some 0 = some ((Nat.digits (radix base) v).getLast hne) := this
      injection this with this
      exact hz this.symm

/-- C122: the bases are ten, sixteen and eight, and the letters among the digits are all small or, with `uppercase`, all capital. -/
theorem c122_letters (base : Base) (up : Bool) (v : Nat) :
    (∀ c ∈ digits base up v, c ∈ (if up then "0123456789ABCDEF" else "0123456789abcdef").toList.map Char.toNat) ∧
    numeralValue (match base with | .dec => 10 | .hex => 16 | .oct => 8) (digits base up v) = v := by
  constructor
  · intro c hc
    have key : ∀ d < 16, digitChar up d ∈ (if up then "0123456789ABCDEF" else "0123456789abcdef").toList.map Char.toNat := by
      cases up <;> decide +kernel
    unfold digits at hc
    split at hc
    · rw [List.mem_singleton] at hc
      subst hc
      exact key 0 (by omega)
    · obtain ⟨d, hd, rfl⟩ := List.mem_map.1 hc
      have hr : 1 < radix base ∧ radix base ≤ 16 := by cases base <;> decide
      have := Nat.digits_lt_base hr.1 (List.mem_reverse.1 hd)
      exact key d (by omega)
  · have h := (c122_digits base up v).2.2.1
    cases base <;> exact h

/-- C122: what is written for any index under any flags: with `showbase`, "0x" or "0X" before hexadecimal and "0" before octal digits,
except for zero; the fill characters before it, or behind for left adjustment, or between "0x" and the digits for internal
adjustment. -/
theorem c122_layout (idx : Nat) (os : OStream Nat) :
    let ds := digits os.base os.uppercase idx
    let pre : List Nat := (match os.base, os.uppercase, decide (os.showbase = true ∧ 0 < idx) with
      | .hex, false, true => "0x"
      | .hex, true, true => "0X"
      | .oct, _, true => "0"
      | _, _, _ => "").toList.map Char.toNat
    let fill := List.replicate (os.width - (pre.length + ds.length)) os.fill
    insertIndex idx os = { os with
      out := os.out ++ (match os.adjust, os.base with
        | .left, _ => pre ++ ds ++ fill
        | .internal, .hex => pre ++ fill ++ ds
        | _, _ => fill ++ pre ++ ds), width := 0 } := by
  intro ds pre fill
  have hpre : basePrefix os.base os.showbase os.uppercase idx = pre := by
    by_cases h0 : idx = 0
    · subst h0
      simp only [basePrefix, pre]
      cases os.base <;> cases os.uppercase <;> simp
    · have hp : 0 < idx := by omega
      cases hs : os.showbase
      · simp only [basePrefix, pre, hs]
        cases os.base <;> cases os.uppercase <;> simp
      · simp only [basePrefix, pre, hs, hp]
        cases os.base <;> cases os.uppercase <;> simp [h0]
  clear_value pre
  simp only [insertIndex, Index.value, insertUnsigned, hpre, List.length_append, fill, ds]
  cases os.adjust <;> cases os.base <;> rfl

/-- C122: an index is inserted as its number in decimal, padded to the width, unless the stream is told otherwise. -/
theorem c122_decimal (idx : Nat) (os : OStream Nat) (hb : os.base = .dec) :
    insertIndex idx os = { os with
      out := os.out ++ padded (os.adjust == .left) (os.width - (digits .dec os.uppercase idx).length) os.fill
        (digits .dec os.uppercase idx), width := 0 } := by
  have hp : basePrefix .dec os.showbase os.uppercase idx = [] := by
    unfold basePrefix; split <;> rfl
  simp only [insertIndex, Index.value, insertUnsigned, hb, hp, List.nil_append, padded]
  cases os.adjust <;> simp

/-- C122, what holds: with no width set, different indexes give different output, whatever the flags of the stream. -/
theorem c122_injective_partial (i j : Nat) (os : OStream Nat) (hw : os.width = 0) (h : (insertIndex i os).out = (insertIndex j os).out) :
    i = j := by
  have form : ∀ v, (insertIndex v os).out =
      os.out ++ (basePrefix os.base os.showbase os.uppercase v ++ digits os.base os.uppercase v) := by
    intro v
    simp only [insertIndex, Index.value, insertUnsigned, hw, Nat.zero_sub, List.replicate_zero]
    cases os.adjust <;> simp
  rw [form, form] at h
  have h := List.append_cancel_left h
  have zero : ∀ v, basePrefix os.base os.showbase os.uppercase v ++ digits os.base os.uppercase v = [48] → v = 0 := by
    intro v hv
    obtain ⟨h1, -, -, h4⟩ := c122_digits os.base os.uppercase v
    cases hp : basePrefix os.base os.showbase os.uppercase v with
    | nil => rw [hp, List.nil_append] at hv; exact h4 (by rw [hv]; rfl)
    | cons c p =>
      exfalso
      rw [hp] at hv
      have hlen := congrArg List.length hv
      have hpos := List.length_pos_iff.2 h1
      simp only [List.length_append, List.length_cons, List.length_nil] at hlen
      omega
  have text0 : basePrefix os.base os.showbase os.uppercase 0 ++ digits os.base os.uppercase 0 = [48] := by
    simp [basePrefix, digits]
  by_cases hi : i = 0
  · subst hi; rw [text0] at h; exact (zero j h.symm).symm
  · by_cases hj : j = 0
    · subst hj; rw [text0] at h; exact zero i h
    · have hp : basePrefix os.base os.showbase os.uppercase i = basePrefix os.base os.showbase os.uppercase j := by
        simp [basePrefix, hi, hj]
      rw [hp] at h
      have e := List.append_cancel_left h
      have h1 := (c122_digits os.base os.uppercase i).2.2.1
      rw [e, (c122_digits os.base os.uppercase j).2.2.1] at h1
      exact h1.symm

/-- C122 is false in general: with left adjustment, a digit as fill character and a width beyond the text of the index, every
index but zero looks the same as the index with that digit behind. -/
theorem c122_refuted_fill (i d : Nat) (hi : 0 < i) (os : OStream Nat) (hd : d < radix os.base) (ha : os.adjust = .left)
    (hf : os.fill = digitChar os.uppercase d)
    (hw : (basePrefix os.base os.showbase os.uppercase i ++ digits os.base os.uppercase i).length < os.width) :
    i ≠ radix os.base * i + d ∧ (insertIndex i os).out = (insertIndex (radix os.base * i + d) os).out := by
  have hr : 1 < radix os.base := by cases os.base <;> decide
  have hgt : i < radix os.base * i + d := by nlinarith
  refine ⟨by omega, ?_⟩
  have hp : basePrefix os.base os.showbase os.uppercase (radix os.base * i + d) =
      basePrefix os.base os.showbase os.uppercase i := by
    simp only [basePrefix, beq_false_of_ne (show i ≠ 0 by omega), beq_false_of_ne (show radix os.base * i + d ≠ 0 by omega)]
  have hds : digits os.base os.uppercase (radix os.base * i + d) =
      digits os.base os.uppercase i ++ [digitChar os.uppercase d] := by
    unfold digits
    rw [if_neg (by omega), if_neg (by omega), Nat.add_comm, Nat.digits_add _ hr d i hd (.inr (by omega))]
    simp
  simp only [insertIndex, Index.value, insertUnsigned, hp, hds, ha, ← hf, ← List.append_assoc]
  generalize hx : basePrefix os.base os.showbase os.uppercase i ++ digits os.base os.uppercase i = x at hw
  have e : os.width - x.length = (os.width - (x ++ [os.fill]).length) + 1 := by simp; omega
  rw [List.append_assoc os.out, hx, e, List.replicate_succ]
  simp [← hx]

example : (insertIndex 1 ⟨3, 49, .right, .dec, false, false, []⟩).out =
      (insertIndex 11 ⟨3, 49, .right, .dec, false, false, []⟩).out ∧
    (insertIndex 7 ⟨3, 48, .left, .dec, false, false, []⟩).out = [55, 48, 48] ∧
    (insertIndex 70 ⟨3, 48, .left, .dec, false, false, []⟩).out = [55, 48, 48] := by
  simp [insertIndex, Index.value, insertUnsigned, basePrefix, digits, radix, digitChar]

example : (insertIndex 255 ⟨8, 46, .internal, .hex, true, true, []⟩).out = [48, 88, 46, 46, 46, 46, 70, 70] := by
  simp [insertIndex, Index.value, insertUnsigned, basePrefix, digits, radix, digitChar]

/-! ## C123: points and ranges under a width -/

variable {α : Type}

private theorem insertText_zero {C : Type} (s : List C) (os : OStream C) (h : os.width = 0) :
    os.insertText s = { os with out := os.out ++ s } := by
  cases os
  simp only at h
  subst h
  simp [insertText]

private theorem insert_loop (text : α → List Char) (p : Geometry.Point α) (xs : List α) :
    ∀ (pre : List α) (os : OStream Char), os.width = 0 → p.cells = (pre ++ xs).map some →
      insertPoint.loop text p os pre.length xs.length =
        .ok { os with out := os.out ++ (xs.map fun x => ", ".toList ++ text x).flatten } := by
  induction xs with
  | nil => intro pre os _ _; simp [insertPoint.loop]
  | cons x xs ih =>
    intro pre os hw hc
    have hg : p.get pre.length = .ok x := by simp [Geometry.Point.get, hc]
    rw [List.length_cons, insertPoint.loop, hg, Outcome.bind_ok, insertText_zero _ os hw, insertText_zero (text x) _ (by exact hw)]
    have := ih (pre ++ [x]) { os with out := os.out ++ ", ".toList ++ text x } hw (by simp [hc])
    rw [List.length_append] at this
    refine Eq.trans this ?_
    simp

/-- C123, exactly: only the opening bracket of a point is padded to the width of the stream. -/
theorem c123_point (text : α → List Char) (x : α) (xs : List α) (os : OStream Char) :
    insertPoint text (Geometry.Point.ofArray (x :: xs)) os = .ok { os with
      out := os.out ++ padded (os.adjust == .left) (os.width - 2) os.fill "[ ".toList ++
        ((", ".toList).intercalate ((x :: xs).map text) ++ " ]".toList), width := 0 } := by
  have hg : (Geometry.Point.ofArray (x :: xs)).get 0 = .ok x := by simp [Geometry.Point.get, Geometry.Point.ofArray]
  have hd : (Geometry.Point.ofArray (x :: xs)).dimensions - 1 = xs.length := by
    simp [Geometry.Point.dimensions, Geometry.Point.ofArray]
  have hfirst : os.insertText "[ ".toList = { os with
      out := os.out ++ padded (os.adjust == .left) (os.width - 2) os.fill "[ ".toList, width := 0 } := by
    simp only [insertText, padded]
    cases os.adjust <;> rfl
  have inter : ∀ (y : α) (ys : List α), text y ++ (ys.map fun x => ", ".toList ++ text x).flatten =
      (", ".toList).intercalate ((y :: ys).map text) := by
    intro y ys
    induction ys generalizing y with
    | nil => simp
    | cons z zs ih =>
      rw [List.map_cons, List.flatten_cons, List.map_cons, List.map_cons, List.intercalate_cons_cons, ← List.map_cons, ← ih z]
      simp
  rw [insertPoint, hfirst, hg, Outcome.bind_ok, insertText_zero _ _ rfl, hd]
  have := insert_loop text (Geometry.Point.ofArray (x :: xs)) xs [x]
    { os with out := os.out ++ padded (os.adjust == .left) (os.width - 2) os.fill "[ ".toList ++ text x, width := 0 } rfl rfl
  rw [List.length_singleton] at this
  refine Eq.trans (congrArg (· >>= _) this) ?_
  rw [Outcome.bind_ok, insertText_zero _ _ rfl, ← inter]
  simp

/-- C123, exactly, for ranges of every kind of bounds. -/
theorem c123_range {lb hb : Maths.Boundary} (text : α → List Char) (r : Maths.ValueRange α lb hb) (os : OStream Char) :
    insertRange text r os = { os with
      out := os.out ++ padded (os.adjust == .left) (os.width - 2) os.fill ((r.print text).take 2) ++ (r.print text).drop 2,
      width := 0 } := by
  have hfirst : ∀ s : List Char, s.length = 2 → os.insertText s = { os with
      out := os.out ++ padded (os.adjust == .left) (os.width - 2) os.fill s, width := 0 } := by
    intro s hs
    simp only [insertText, padded, hs]
    cases os.adjust <;> rfl
  have hz : ∀ (s : List Char) (o : OStream Char), o.width = 0 → o.insertText s = { o with out := o.out ++ s } :=
    fun s o h => insertText_zero s o h
  cases lb <;> cases hb <;>
    · simp only [insertRange]
      rw [hfirst _ rfl, hz _ _ rfl, hz _ _ rfl, hz _ _ rfl, hz _ _ rfl]
      simp [Maths.ValueRange.print]

/-- C123, what holds: up to width 2 a point and a range are written as on a stream without width. -/
theorem c123_partial {lb hb : Maths.Boundary} (text : α → List Char) (x : α) (xs : List α) (r : Maths.ValueRange α lb hb)
    (os : OStream Char) (hw : os.width ≤ 2) :
    (∃ s, Geometry.Point.print text (Geometry.Point.ofArray (x :: xs)) = .ok s ∧
      insertPoint text (Geometry.Point.ofArray (x :: xs)) os = .ok { os with out := os.out ++ s, width := 0 }) ∧
    insertRange text r os = { os with out := os.out ++ r.print text, width := 0 } := by
  have h2 : os.width - 2 = 0 := by omega
  refine ⟨⟨_, c111_point text x xs, ?_⟩, ?_⟩
  · rw [c123_point, h2]; simp [padded]
  · rw [c123_range, h2]; simp [padded, List.append_assoc]

/-- C123 is false for every greater width, all values, fill characters and adjustments: the output is never the padded
text of the point (of the range), as it is for a string or a UUID. -/
theorem c123_refuted {lb hb : Maths.Boundary} (text : α → List Char) (x : α) (xs : List α) (r : Maths.ValueRange α lb hb)
    (os : OStream Char) (hw : 2 < os.width) :
    (∀ s, Geometry.Point.print text (Geometry.Point.ofArray (x :: xs)) = .ok s →
      insertPoint text (Geometry.Point.ofArray (x :: xs)) os ≠ .ok (os.insertText s)) ∧
    insertRange text r os ≠ os.insertText (r.print text) := by
  have plen : ∀ (left : Bool) (k : Nat) (c : Char) (s : List Char), (padded left k c s).length = k + s.length := by
    intro left k c s; unfold padded; split <;> simp [Nat.add_comm]
  have tlen : ∀ s : List Char, (os.insertText s).out.length = os.out.length + ((os.width - s.length) + s.length) := by
    intro s; simp only [insertText]; split <;> simp [Nat.add_comm]
  constructor
  · intro s hs h
    rw [c111_point] at hs
    injection hs with hs
    rw [c123_point] at h
    injection h with h
    have h := congrArg (fun o => o.out.length) h
    simp only [tlen, ← hs, List.length_append, plen] at h
    have e1 : "[ ".toList.length = 2 := rfl
    have e2 : " ]".toList.length = 2 := rfl
    omega
  · intro h
    rw [c123_range] at h
    have h := congrArg (fun o => o.out.length) h
    simp only [tlen, List.length_append, plen, List.length_take, List.length_drop] at h
    have : 4 ≤ (r.print text).length := by
      cases lb <;> cases hb <;> simp [Maths.ValueRange.print] <;> omega
    omega

example : insertPoint (Nat.toDigits 10) (Geometry.Point.ofArray [1, 23]) ⟨5, '*', .right, .dec, false, false, []⟩ =
    .ok ⟨0, '*', .right, .dec, false, false, "***[ 1, 23 ]".toList⟩ := by decide +kernel

example : insertRange (Nat.toDigits 10) (⟨1, 2⟩ : Maths.ValueRange Nat .closed .opened) ⟨5, '*', .left, .dec, false, false, []⟩ =
    ⟨0, '*', .left, .dec, false, false, "[ ***1, 2 )".toList⟩ := by decide +kernel

end Wite.Props
