import Verif.Lemmas.UuidParse

/-!
# Lemmas about UUID text: shapes and the outcome of parsing
-/

namespace Wite.Uuid

open Wite.Io Wite.Spec Wite.Spec.Uuid Wite.Hex Wite.Join

/-! ## Shapes -/

/-- The characters a shape fixes, with their positions. -/
def fixedAt : Nat → List (Option Nat) → List (Nat × Nat)
  | _, [] => []
  | i, none :: ps => fixedAt (i + 1) ps
  | i, some q :: ps => (q, i) :: fixedAt (i + 1) ps

/-- A string agrees with a shape where the shape fixes the character. -/
def Loose : List (Option Nat) → List Nat → Prop
  | [], [] => True
  | none :: ps, _ :: cs => Loose ps cs
  | some q :: ps, c :: cs => c = q ∧ Loose ps cs
  | _, _ => False

theorem loose_iff (ps : List (Option Nat)) (s pre : List Nat) :
    Loose ps s ↔ s.length = ps.length ∧ ∀ x ∈ fixedAt pre.length ps, (pre ++ s)[x.2]? = some x.1 := by
  induction ps generalizing s pre with
  | nil => cases s <;> simp [Loose, fixedAt]
  | cons p ps ih =>
    cases s with
    | nil => cases p <;> simp [Loose]
    | cons c s =>
      have e : pre ++ c :: s = (pre ++ [c]) ++ s := by simp
      have l : (pre ++ [c]).length = pre.length + 1 := by simp
      cases p with
      | none =>
        rw [Loose, ih s (pre ++ [c]), fixedAt, ← e, l]; simp
      | some q =>
        rw [Loose, ih s (pre ++ [c]), fixedAt, ← e, l]
        simp only [List.mem_cons, forall_eq_or_imp, List.length_cons, Nat.add_right_cancel_iff]
        have : (pre ++ c :: s)[pre.length]? = some c := by simp
        rw [this]
        simp only [Option.some.injEq]
        tauto

/-- The fixed characters of a shape are not hexadecimal digits. -/
def NonHex (ps : List (Option Nat)) : Prop := ∀ q, some q ∈ ps → ¬IsHexDigit q

theorem hexOnly_loose (ps : List (Option Nat)) (hn : NonHex ps) (s : List Nat) (h : Loose ps s) :
    (hexOnly s).length ≤ ps.count none ∧ ((hexOnly s).length = ps.count none ↔ HasShape ps s) := by
  induction ps generalizing s with
  | nil => cases s <;> simp_all [Loose, hexOnly, HasShape]
  | cons p ps ih =>
    have hn' : NonHex ps := fun q hq => hn q (by simp [hq])
    cases s with
    | nil => cases p <;> simp [Loose] at h
    | cons c s =>
      cases p with
      | none =>
        obtain ⟨h1, h2⟩ := ih hn' s h
        by_cases hc : IsHexDigit c
        · have : hexOnly (c :: s) = c :: hexOnly s := by simp [hexOnly, hc]
          rw [this, HasShape, List.count_cons_self, List.length_cons, ← h2]
          refine ⟨by omega, ?_⟩
          simp [hc]
        · have : hexOnly (c :: s) = hexOnly s := by simp [hexOnly, hc]
          rw [this, HasShape, List.count_cons_self]
          refine ⟨by omega, ?_⟩
          simp only [hc, false_and, iff_false]; omega
      | some q =>
        obtain ⟨rfl, h⟩ := h
        obtain ⟨h1, h2⟩ := ih hn' s h
        have hc : ¬IsHexDigit c := hn c (by simp)
        have : hexOnly (c :: s) = hexOnly s := by simp [hexOnly, hc]
        rw [this, HasShape, List.count_cons_of_ne (by simp), ← h2]
        exact ⟨h1, by simp⟩

theorem hasShape_loose (ps : List (Option Nat)) (s : List Nat) (h : HasShape ps s) : Loose ps s := by
  induction ps generalizing s with
  | nil => cases s <;> simp_all [Loose, HasShape]
  | cons p ps ih =>
    cases s with
    | nil => cases p <;> simp [HasShape] at h
    | cons c s =>
      cases p with
      | none => exact ih s h.2
      | some q => exact ⟨h.1, ih s h.2⟩

theorem hexOnly_hasShape (ps : List (Option Nat)) (hn : NonHex ps) (s : List Nat) (h : HasShape ps s) :
    hexOnly s = digitsAt ps s := by
  induction ps generalizing s with
  | nil => cases s <;> simp_all [HasShape, hexOnly, digitsAt]
  | cons p ps ih =>
    have hn' : NonHex ps := fun q hq => hn q (by simp [hq])
    cases s with
    | nil => cases p <;> simp [HasShape] at h
    | cons c s =>
      cases p with
      | none =>
        have hc := h.1
        have : hexOnly (c :: s) = c :: hexOnly s := by simp [hexOnly, hc]
        rw [this, digitsAt, ih hn' s h.2]
      | some q =>
        obtain ⟨rfl, h⟩ := h
        have hc : ¬IsHexDigit c := hn c (by simp)
        have : hexOnly (c :: s) = hexOnly s := by simp [hexOnly, hc]
        rw [this, digitsAt, ih hn' s h]

theorem digitsAt_isHex (ps : List (Option Nat)) (s : List Nat) (h : HasShape ps s) :
    ∀ c ∈ digitsAt ps s, IsHexDigit c := by
  induction ps generalizing s with
  | nil => cases s <;> simp [digitsAt]
  | cons p ps ih =>
    cases s with
    | nil => cases p <;> simp [digitsAt]
    | cons c s =>
      cases p with
      | none =>
        intro d hd
        rw [digitsAt, List.mem_cons] at hd
        rcases hd with rfl | hd
        · exact h.1
        · exact ih s h.2 d hd
      | some q => exact ih s h.2

theorem digitsAt_length (ps : List (Option Nat)) (s : List Nat) (h : HasShape ps s) :
    (digitsAt ps s).length = ps.count none := by
  induction ps generalizing s with
  | nil => cases s <;> simp [digitsAt]
  | cons p ps ih =>
    cases s with
    | nil => cases p <;> simp [HasShape] at h
    | cons c s =>
      cases p with
      | none => rw [digitsAt, List.length_cons, List.count_cons_self, ih s h.2]
      | some q => rw [digitsAt, List.count_cons_of_ne (by simp), ih s h.2]

theorem hasShape_length (ps : List (Option Nat)) (s : List Nat) (h : HasShape ps s) : s.length = ps.length :=
  ((loose_iff ps s []).1 (hasShape_loose ps s h)).1

/-- The shapes on which the X-format scan keeps exactly the digits at the digit positions. -/
def GoodX : List (Option Nat) → Bool
  | [] => true
  | [none] => true
  | none :: some q :: ps => q != 120 && GoodX (some q :: ps)
  | none :: none :: ps => GoodX (none :: ps)
  | some q :: some q' :: ps =>
    if q = 48 ∧ q' = 120 then GoodX ps else !decide (IsHexDigit q) && GoodX (some q' :: ps)
  | some q :: ps => !decide (IsHexDigit q) && GoodX ps

theorem keepX_skip {c : Nat} (h : ¬IsHexDigit c) (s : List Nat) : keepX (c :: s) = keepX s := by
  have : c ≠ 48 := by rintro rfl; exact h (by decide)
  cases s with
  | nil => simp [keepX, h]
  | cons d s => simp [keepX, h, this]

theorem keepX_digit {c d : Nat} (h : IsHexDigit c) (hd : d ≠ 120) (s : List Nat) :
    keepX (c :: d :: s) = c :: keepX (d :: s) := by
  simp [keepX, h, hd]

theorem keepX_hasShape (ps : List (Option Nat)) (hg : GoodX ps = true) (s : List Nat) (h : HasShape ps s) :
    keepX s = digitsAt ps s := by
  induction ps using GoodX.induct generalizing s with
  | case1 => cases s <;> simp_all [HasShape, keepX, digitsAt]
  | case2 =>
    match s, h with
    | [c], h => simp [keepX, digitsAt, h.1]
  | case3 q ps ih =>
    rw [GoodX, Bool.and_eq_true] at hg
    match s, h with
    | c :: d :: s, h =>
      have h2 := h.2
      have : d ≠ 120 := by have := h2.1; have := hg.1; simp_all
      rw [keepX_digit h.1 this, digitsAt, ih hg.2 _ h.2]
  | case4 ps ih =>
    rw [GoodX] at hg
    match s, h with
    | c :: d :: s, h =>
      have h2 := h.2.1
      have : d ≠ 120 := by rintro rfl; revert h2; decide
      rw [keepX_digit h.1 this, digitsAt, ih hg _ h.2]
  | case5 q q' ps hq ih =>
    rw [GoodX, if_pos hq] at hg
    match s, h with
    | c :: d :: s, h =>
      have h1 := h.1
      have h2 := h.2.1
      rw [keepX, if_pos (by omega), digitsAt, digitsAt, ih hg _ h.2.2]
  | case6 q q' ps hq ih =>
    rw [GoodX, if_neg hq, Bool.and_eq_true] at hg
    match s, h with
    | c :: d :: s, h =>
      have h1 := h.1
      have hn : ¬IsHexDigit c := by rw [h1]; simpa using hg.1
      rw [keepX_skip hn, digitsAt, ih hg.2 _ h.2]
  | case7 q ps hps ih =>
    have hg' : ¬IsHexDigit q ∧ GoodX ps = true := by
      cases ps with
      | nil => simpa [GoodX] using hg
      | cons p ps =>
        cases p with
        | none => simpa [GoodX] using hg
        | some q' => exact absurd rfl (hps q' ps)
    match s, h with
    | c :: s, h =>
      have h1 := h.1
      have hn : ¬IsHexDigit c := by rw [h1]; exact hg'.1
      rw [keepX_skip hn, digitsAt, ih hg'.2 _ h.2]

/-! ## Validation -/

/-- The format object used for parsing a layout. -/
def parseFmt : Layout → Format
  | .N => N | .D => D | .B => B | .P => P | .X => X

theorem ofString_letter (s : List Nat) (l : Layout) (up : Bool) (behind : List Nat) :
    ofString s (letter l up) behind = initFromFmt s (parseFmt l) behind := by
  cases l <;> cases up <;> rfl

theorem tryMake_letter (s : List Nat) (l : Layout) (up : Bool) (behind : List Nat) :
    tryMake s (letter l up) behind = tryMakeFmt s (parseFmt l) behind := by
  cases l <;> cases up <;> rfl

theorem hasInvalidDelimiter_eq (ds : List (Nat × Nat)) (s : List Nat) (h : ∀ x ∈ ds, x.2 < s.length) :
    hasInvalidDelimiter ds s = .ok (!decide (∀ x ∈ ds, s[x.2]? = some x.1)) := by
  induction ds with
  | nil => simp [hasInvalidDelimiter]
  | cons x ds ih =>
    obtain ⟨v, pos⟩ := x
    have hp : pos < s.length := h (v, pos) (by simp)
    have hs : s[pos]? = some s[pos] := List.getElem?_eq_getElem hp
    rw [hasInvalidDelimiter, hs]
    simp only
    by_cases hv : v = s[pos]
    · rw [if_neg (by simpa using hv), ih (fun x hx => h x (by simp [hx]))]
      have : (∀ x ∈ (v, pos) :: ds, s[x.2]? = some x.1) ↔ ∀ x ∈ ds, s[x.2]? = some x.1 := by
        simp [hs, hv.symm]
      simp only [this]
    · rw [if_pos hv]
      have : ¬∀ x ∈ (v, pos) :: ds, s[x.2]? = some x.1 := by
        intro hall
        have := hall (v, pos) (by simp)
        rw [hs] at this
        exact hv (Option.some.inj this).symm
      rw [decide_eq_false this]; rfl

theorem isAValid_general (fmt : Format) (s : List Nat) (hs : s.length = fmt.size) (hpos : 0 < fmt.size)
    (hd : ∀ x ∈ fmt.delims, x.2 < fmt.size) :
    ∃ v, isAValidUuidString fmt s = .ok v ∧ (v = true ↔
      (fmt.opening = 0 ∨ s[0]? = some fmt.opening) ∧ (fmt.closing = 0 ∨ s[fmt.size - 1]? = some fmt.closing) ∧
      ∀ x ∈ fmt.delims, s[x.2]? = some x.1) := by
  rw [isAValidUuidString, if_neg (by omega), List.head?_eq_getElem?, List.getLast?_eq_getElem?]
  rw [hasInvalidDelimiter_eq fmt.delims s (by rw [hs]; exact hd)]
  rw [List.getElem?_eq_getElem (by omega : 0 < s.length),
    List.getElem?_eq_getElem (by omega : s.length - 1 < s.length),
    List.getElem?_eq_getElem (by omega : fmt.size - 1 < s.length)]
  have e : s[s.length - 1] = s[fmt.size - 1] := by simp only [hs]
  simp only [e, Option.some.injEq]
  have key : ∀ a c : Nat, isDelimiter a c = true ↔ (a = 0 ∨ c = a) := by
    intro a c
    rw [isDelimiter, Bool.or_eq_true, beq_iff_eq, beq_iff_eq, eq_comm (a := a) (b := c)]
  by_cases h1 : isDelimiter fmt.opening s[0] = true
  · by_cases h2 : isDelimiter fmt.closing s[fmt.size - 1] = true
    · rw [if_neg (by simp [h1, h2])]
      refine ⟨_, rfl, ?_⟩
      rw [Bool.not_not, decide_eq_true_iff]
      exact ⟨fun h => ⟨(key _ _).1 h1, (key _ _).1 h2, h⟩, fun h => h.2.2⟩
    · rw [if_pos (by simp [h2])]
      refine ⟨_, rfl, ?_⟩
      simp only [Bool.false_eq_true, false_iff]
      exact fun h => h2 ((key _ _).2 h.2.1)
  · rw [if_pos (by simp [h1])]
    refine ⟨_, rfl, ?_⟩
    simp only [Bool.false_eq_true, false_iff]
    exact fun h => h1 ((key _ _).2 h.1)

theorem isAValid_eq (l : Layout) (hX : l ≠ .X) (s : List Nat) :
    ∃ v, isAValidUuidString (parseFmt l) s = .ok v ∧ (v = true ↔ Loose (shape l) s) := by
  have hlen : (shape l).length = (parseFmt l).size := by cases l <;> rfl
  by_cases hs : s.length = (parseFmt l).size
  · have hloose : Loose (shape l) s ↔ ∀ x ∈ fixedAt 0 (shape l), s[x.2]? = some x.1 := by
      have := loose_iff (shape l) s []
      simp only [List.length_nil, List.nil_append] at this
      rw [this, hlen]; simp [hs]
    obtain ⟨v, h1, h2⟩ := isAValid_general (parseFmt l) s hs (by cases l <;> decide) (by cases l <;> decide)
    refine ⟨v, h1, ?_⟩
    rw [h2, hloose]
    cases l with
    | X => exact absurd rfl hX
    | N =>
      have : fixedAt 0 (shape .N) = [] := rfl
      simp [this, parseFmt, N]
    | D =>
      have : fixedAt 0 (shape .D) = D.delims := rfl
      rw [this]
      exact ⟨fun h => h.2.2, fun h => ⟨.inl rfl, .inl rfl, h⟩⟩
    | B =>
      have : fixedAt 0 (shape .B) = (123, 0) :: (B.delims ++ [(125, 37)]) := rfl
      rw [this]
      simp only [List.mem_cons, List.mem_append, List.not_mem_nil, or_false, or_imp,
        forall_and, forall_eq]
      have hc : (parseFmt .B).size - 1 = 37 := rfl
      rw [hc]
      simp only [parseFmt]
      have ho : ¬B.opening = 0 := by decide
      have hc' : ¬B.closing = 0 := by decide
      simp only [ho, hc', false_or]
      have e1 : B.opening = 123 := rfl
      have e2 : B.closing = 125 := rfl
      rw [e1, e2]
      tauto
    | P =>
      have : fixedAt 0 (shape .P) = (40, 0) :: (P.delims ++ [(41, 37)]) := rfl
      rw [this]
      simp only [List.mem_cons, List.mem_append, List.not_mem_nil, or_false, or_imp,
        forall_and, forall_eq]
      have hc : (parseFmt .P).size - 1 = 37 := rfl
      rw [hc]
      simp only [parseFmt]
      have ho : ¬P.opening = 0 := by decide
      have hc' : ¬P.closing = 0 := by decide
      simp only [ho, hc', false_or]
      have e1 : P.opening = 40 := rfl
      have e2 : P.closing = 41 := rfl
      rw [e1, e2]
      tauto
  · refine ⟨false, by rw [isAValidUuidString, if_pos hs], ?_⟩
    simp only [Bool.false_eq_true, false_iff]
    intro h
    exact hs (((loose_iff _ s []).1 h).1.trans hlen)

theorem isAValid_X (s : List Nat) : isAValidUuidString X s = .ok (decide (s.length = 68)) := by
  rw [isAValidUuidString]
  have hX : X.size = 68 := rfl
  rw [hX]
  by_cases h : s.length = 68
  · rw [if_neg (by omega)]
    have hpos : 0 < s.length := by omega
    have hh : s.head? = some s[0] := by rw [List.head?_eq_getElem?, List.getElem?_eq_getElem hpos]
    have hla : s.getLast? = some s[s.length - 1] := by
      rw [List.getLast?_eq_getElem?, List.getElem?_eq_getElem (by omega)]
    rw [hh, hla]
    simp [h, X, isDelimiter, hasInvalidDelimiter]
  · rw [if_pos h]; simp [h]

/-! ## The outcome of parsing -/

theorem shape_nonHex (l : Layout) (hX : l ≠ .X) : NonHex (shape l) := by
  have key : ∀ ps : List (Option Nat), (ps.all fun q => match q with | none => true | some q => !decide (IsHexDigit q)) = true →
      NonHex ps := by
    intro ps h q hq
    have := List.all_eq_true.1 h _ hq
    simpa using this
  cases l with
  | X => exact absurd rfl hX
  | N => exact key _ (by decide +kernel)
  | D => exact key _ (by decide +kernel)
  | B => exact key _ (by decide +kernel)
  | P => exact key _ (by decide +kernel)

theorem shape_count (l : Layout) : (shape l).count none = 32 := by cases l <;> decide +kernel

theorem stripNonHex_plain (s : List Nat) (hs : ∀ c ∈ s, c < 256) (h : (hexOnly s).length ≤ 32) :
    stripNonHex s false = .ok (hexOnly s ++ List.replicate (32 - (hexOnly s).length) 0) := by
  simp only [stripNonHex, Bool.false_eq_true, if_false, copyHex_eq s hs]
  rw [copyInto_fits _ h]; rfl

theorem stripNonHex_X (s : List Nat) (hs : ∀ c ∈ s, c < 256) (hl : s.getLast? ≠ some 48)
    (h : (keepX s).length ≤ 32) :
    stripNonHex s true = .ok (keepX s ++ List.replicate (32 - (keepX s).length) 0) := by
  simp only [stripNonHex, if_true, remove0x_eq s hs hl]
  rw [copyInto_fits _ h]; rfl

theorem hexOnly_isHex (s : List Nat) : ∀ c ∈ hexOnly s, IsHexDigit c := by
  intro c hc
  simpa using (List.mem_filter.1 hc).2

/-- Parsing in the formats N, D, B and P. -/
theorem init_plain (l : Layout) (hX : l ≠ .X) (s : List Nat) (hs : ∀ c ∈ s, c < 256) (behind : List Nat)
    (hz : 0 ∈ behind) :
    (HasShape (shape l) s → initFromFmt s (parseFmt l) behind = .ok (ofDigits (digitsAt (shape l) s))) ∧
    (¬HasShape (shape l) s →
      initFromFmt s (parseFmt l) behind = .throw (.invalidArgument "Invalid UUID format")) := by
  obtain ⟨v, hv, hiff⟩ := isAValid_eq l hX s
  have hp : (parseFmt l).prefixed = false := by cases l <;> first | rfl | exact absurd rfl hX
  have hn := shape_nonHex l hX
  constructor
  · intro h
    have hv' : v = true := hiff.2 (hasShape_loose _ _ h)
    subst hv'
    have e := hexOnly_hasShape _ hn s h
    have el := digitsAt_length _ s h
    rw [shape_count] at el
    rw [initFromFmt, hv]
    simp only [Outcome.bind_ok, Bool.not_true, Bool.false_eq_true, if_false, hp]
    rw [stripNonHex_plain s hs (by rw [e]; omega)]
    simp only [Outcome.bind_ok]
    rw [usedLength_eq _ _ (hexOnly_isHex s), e]
    simp only [el, Nat.sub_self, List.replicate_zero, List.append_nil, ne_eq, not_true, if_false]
    exact unsafeFromString_eq _ _ (digitsAt_isHex _ s h) el hz
  · intro h
    by_cases hv' : v = true
    · subst hv'
      have hloose := hiff.1 rfl
      obtain ⟨h1, h2⟩ := hexOnly_loose _ hn s hloose
      rw [shape_count] at h1 h2
      have h3 : (hexOnly s).length ≠ 32 := fun e => h (h2.1 e)
      rw [initFromFmt, hv]
      simp only [Outcome.bind_ok, Bool.not_true, Bool.false_eq_true, if_false, hp]
      rw [stripNonHex_plain s hs h1]
      simp only [Outcome.bind_ok]
      rw [usedLength_eq _ _ (hexOnly_isHex s), if_pos]
      simp; omega
    · have : v = false := by simpa using hv'
      subst this
      rw [initFromFmt, hv]
      simp

/-- Parsing in the X format: every case. -/
theorem init_X (s : List Nat) (hs : ∀ c ∈ s, c < 256) (behind : List Nat) (hz : 0 ∈ behind) :
    initFromFmt s X behind =
      if s.length ≠ 68 then .throw (.invalidArgument "Invalid UUID format")
      else if s.getLast? = some 48 ∨ 32 < (keepX s).length then .ub
      else if (keepX s).length < 32 then .throw (.invalidArgument "Invalid UUID format")
      else .ok (ofDigits (keepX s)) := by
  rw [initFromFmt, isAValid_X]
  have hp : X.prefixed = true := rfl
  by_cases h : s.length = 68
  · rw [if_neg (by omega)]
    simp only [Outcome.bind_ok, h, decide_true, Bool.not_true, Bool.false_eq_true, if_false, hp]
    by_cases h48 : s.getLast? = some 48
    · rw [if_pos (.inl h48)]
      simp only [stripNonHex, if_true, remove0x_ub s h48]
      rfl
    · by_cases h32 : 32 < (keepX s).length
      · rw [if_pos (.inr h32)]
        simp only [stripNonHex, if_true, remove0x_eq s hs h48]
        rw [copyInto_overrun _ _ (by simp) (by rw [List.length_replicate]; omega)]
        rfl
      · rw [if_neg (by tauto), stripNonHex_X s hs h48 (by omega)]
        simp only [Outcome.bind_ok]
        rw [usedLength_eq _ _ (keepX_hex s)]
        by_cases hlt : (keepX s).length < 32
        · rw [if_pos hlt, if_pos]
          simp; omega
        · have he : (keepX s).length = 32 := by omega
          rw [if_neg hlt, if_neg (by simp [he]), he]
          simp only [Nat.sub_self, List.replicate_zero, List.append_nil]
          exact unsafeFromString_eq _ _ (keepX_hex s) he hz
  · rw [if_pos h]
    simp [h]

/-! ## No exceptions from the inner steps -/

theorem writeOne_no_throw (st : List Nat × Nat) (c : Nat) (e : Exc) : writeOne st c ≠ .throw e := by
  rw [writeOne]; split <;> simp

theorem isxdigit_no_throw (c : Nat) (e : Exc) : isxdigit c ≠ .throw e := by
  rw [isxdigit]; split <;> simp

theorem bind_no_throw {α β : Type} {x : Outcome α} {f : α → Outcome β} (hx : ∀ e, x ≠ .throw e)
    (hf : ∀ a e, f a ≠ .throw e) (e : Exc) : (x >>= f) ≠ .throw e := by
  cases x with
  | ok a => exact hf a e
  | throw e' => exact absurd rfl (hx e')
  | ub => simp
  | terminate => simp
  | diverge => simp

theorem copyHex_no_throw (s : List Nat) (st : List Nat × Nat) (e : Exc) : copyHex s st ≠ .throw e := by
  induction s generalizing st e with
  | nil => simp [copyHex]
  | cons c s ih =>
    rw [copyHex]
    refine bind_no_throw (isxdigit_no_throw c) (fun h e => ?_) e
    split
    · exact bind_no_throw (writeOne_no_throw st c) (fun st' e => ih st' e) e
    · exact ih st e

theorem remove0x_no_throw (s : List Nat) (st : List Nat × Nat) (e : Exc) : remove0x s st ≠ .throw e := by
  have step : ∀ (c : Nat) (st : List Nat × Nat) (f : List Nat × Nat → Outcome (List Nat × Nat)) (e : Exc),
      (∀ st e, f st ≠ .throw e) →
      (isxdigit c >>= fun h => if (!h) = true then f st else writeOne st c >>= f) ≠ .throw e := by
    intro c st f e hf
    refine bind_no_throw (isxdigit_no_throw c) (fun h e => ?_) e
    split
    · exact hf st e
    · exact bind_no_throw (writeOne_no_throw st c) hf e
  have one : ∀ (c : Nat) (st : List Nat × Nat) (e : Exc), remove0x [c] st ≠ .throw e := by
    intro c st e
    rw [remove0x]
    split
    · simp
    · refine bind_no_throw (isxdigit_no_throw c) (fun h e => ?_) e
      split
      · simp
      · exact writeOne_no_throw st c e
  induction s using keepX.induct generalizing st e with
  | case1 => simp [remove0x]
  | case2 c => exact one c st e
  | case3 c => exact one c st e
  | case4 c c' rest h ih => rw [remove0x, if_pos h]; exact ih st e
  | case5 c c' rest h hc ih => rw [remove0x, if_neg h]; exact step c st _ e ih
  | case6 c c' rest h hc ih => rw [remove0x, if_neg h]; exact step c st _ e ih

theorem stripNonHex_no_throw (s : List Nat) (pre : Bool) (e : Exc) : stripNonHex s pre ≠ .throw e := by
  rw [stripNonHex]
  split
  · exact bind_no_throw (fun e => remove0x_no_throw _ _ e) (fun a e => by simp) e
  · exact bind_no_throw (fun e => copyHex_no_throw _ _ e) (fun a e => by simp) e

theorem isAValid_no_throw (fmt : Format) (s : List Nat) (e : Exc) : isAValidUuidString fmt s ≠ .throw e := by
  have hd : ∀ (ds : List (Nat × Nat)) (e : Exc), hasInvalidDelimiter ds s ≠ .throw e := by
    intro ds
    induction ds with
    | nil => simp [hasInvalidDelimiter]
    | cons x ds ih =>
      intro e
      rw [hasInvalidDelimiter]
      split
      · simp
      · split
        · simp
        · exact ih e
  rw [isAValidUuidString]
  split
  · simp
  · split
    · split
      · simp
      · exact bind_no_throw (hd _) (fun a e => by simp) e
    · simp

theorem unsafeFromHexChars_no_throw (n : Nat) (s : List Nat) (e : Exc) : unsafeFromHexChars n s ≠ .throw e := by
  induction n generalizing s e with
  | zero => simp [unsafeFromHexChars]
  | succ n ih =>
    match s with
    | [] => simp [unsafeFromHexChars]
    | [_] => simp [unsafeFromHexChars]
    | c1 :: c2 :: rest =>
      rw [unsafeFromHexChars]
      exact bind_no_throw (fun e => ih rest e) (fun a e => by simp) e

theorem unsafeUnhexlifyN_no_throw (n : Nat) (s : List Nat) (e : Exc) : unsafeUnhexlifyN n s ≠ .throw e := by
  induction n generalizing s e with
  | zero => simp [unsafeUnhexlifyN]
  | succ n ih =>
    match s with
    | [] => simp [unsafeUnhexlifyN]
    | [_] => simp [unsafeUnhexlifyN]
    | c1 :: c2 :: rest =>
      rw [unsafeUnhexlifyN]
      exact bind_no_throw (fun e => unsafeFromHexChars_no_throw 1 _ e)
        (fun a e => bind_no_throw (fun e => ih rest e) (fun a e => by simp) e) e

theorem unsafeFromString_no_throw (arr behind : List Nat) (e : Exc) : unsafeFromString arr behind ≠ .throw e := by
  rw [unsafeFromString]
  refine bind_no_throw (fun e => ?_) (fun v e => bind_no_throw (fun e => unsafeUnhexlifyN_no_throw 16 v e)
    (fun a e => by simp) e) e
  rw [ofCStr]; split <;> simp

/-- What `try_make_uuid` makes of the constructor's outcome; the only exception the
constructor throws for a known format letter. -/
theorem tryMake_of_init (s : List Nat) (fmt : Format) (behind : List Nat) :
    (∃ u, initFromFmt s fmt behind = .ok u ∧ tryMakeFmt s fmt behind = .ok (.value u)) ∨
    (initFromFmt s fmt behind = .throw (.invalidArgument "Invalid UUID format") ∧
      tryMakeFmt s fmt behind = .ok (.error .invalidUuidFormat)) ∨
    (initFromFmt s fmt behind = .ub ∧ tryMakeFmt s fmt behind = .ub) ∨
    (initFromFmt s fmt behind = .terminate ∧ tryMakeFmt s fmt behind = .terminate) ∨
    (initFromFmt s fmt behind = .diverge ∧ tryMakeFmt s fmt behind = .diverge) := by
  rw [initFromFmt, tryMakeFmt]
  cases h : isAValidUuidString fmt s with
  | throw e => exact absurd h (isAValid_no_throw fmt s e)
  | ub => simp
  | terminate => simp
  | diverge => simp
  | ok v =>
    cases v with
    | false => simp
    | true =>
      simp only [Outcome.bind_ok, Bool.not_true, Bool.false_eq_true, if_false]
      cases h2 : stripNonHex s fmt.prefixed with
      | throw e => exact absurd h2 (stripNonHex_no_throw s _ e)
      | ub => simp
      | terminate => simp
      | diverge => simp
      | ok arr =>
        simp only [Outcome.bind_ok]
        by_cases h3 : usedLength arr ≠ arr.length
        · simp [h3]
        · simp only [h3, if_false]
          cases h4 : unsafeFromString arr behind with
          | throw e => exact absurd h4 (unsafeFromString_no_throw arr behind e)
          | ub => simp
          | terminate => simp
          | diverge => simp
          | ok u => simp

end Wite.Uuid
