import Verif.Lemmas.UuidShape

/-!
# Lemmas about UUIDs: round trip, fields, comparison
-/

namespace Wite.Uuid

open Wite.Io Wite.Spec Wite.Spec.Uuid Wite.Hex Wite.Join

/-- The 32 digits of the fields. -/
def fieldDigits (up : Bool) (d1 d2 d3 : Nat) (d4 : List Nat) : List Nat :=
  fixed up 8 d1 ++ fixed up 4 d2 ++ fixed up 4 d3 ++ pairs up d4

theorem hasShape_append (p q : List (Option Nat)) (s t : List Nat) (h1 : HasShape p s) (h2 : HasShape q t) :
    HasShape (p ++ q) (s ++ t) := by
  induction p generalizing s with
  | nil => cases s with
    | nil => exact h2
    | cons _ _ => simp [HasShape] at h1
  | cons a p ih =>
    cases s with
    | nil => cases a <;> simp [HasShape] at h1
    | cons c s =>
      cases a with
      | none => exact ⟨h1.1, ih s h1.2⟩
      | some q => exact ⟨h1.1, ih s h1.2⟩

theorem hasShape_digits (s : List Nat) (h : ∀ c ∈ s, IsHexDigit c) (k : Nat) (hk : s.length = k) :
    HasShape (List.replicate k none) s := by
  induction s generalizing k with
  | nil => subst hk; trivial
  | cons c s ih =>
    subst hk
    exact ⟨h c (by simp), ih (fun d hd => h d (by simp [hd])) _ rfl⟩

theorem digitsAt_append (p q : List (Option Nat)) (s t : List Nat) (h : s.length = p.length) :
    digitsAt (p ++ q) (s ++ t) = digitsAt p s ++ digitsAt q t := by
  induction p generalizing s with
  | nil => cases s with
    | nil => simp [digitsAt]
    | cons _ _ => simp at h
  | cons a p ih =>
    cases s with
    | nil => simp at h
    | cons c s =>
      have h' : s.length = p.length := by simpa using h
      cases a <;> simp [digitsAt, ih s h']

theorem digitsAt_digits (s : List Nat) (k : Nat) (hk : s.length = k) :
    digitsAt (List.replicate k none) s = s := by
  induction s generalizing k with
  | nil => subst hk; rfl
  | cons c s ih => subst hk; rw [List.length_cons, List.replicate_succ, digitsAt, ih _ rfl]

/-- Shape and digits together, for assembling. -/
def Seg (p : List (Option Nat)) (s ds : List Nat) : Prop := HasShape p s ∧ digitsAt p s = ds

theorem Seg.append {p q : List (Option Nat)} {s t ds es : List Nat} (h1 : Seg p s ds) (h2 : Seg q t es) :
    Seg (p ++ q) (s ++ t) (ds ++ es) :=
  ⟨hasShape_append p q s t h1.1 h2.1, by
    rw [digitsAt_append p q s t (hasShape_length p s h1.1), h1.2, h2.2]⟩

theorem seg_fixed (up : Bool) (k v : Nat) : Seg (List.replicate k none) (fixed up k v) (fixed up k v) :=
  ⟨hasShape_digits _ (fixed_isHex up k v) k (fixed_length up k v), digitsAt_digits _ k (fixed_length up k v)⟩

theorem seg_lits (cs : List Nat) : Seg (cs.map some) cs [] := by
  induction cs with
  | nil => exact ⟨trivial, rfl⟩
  | cons c cs ih => exact ⟨⟨rfl, ih.1⟩, ih.2⟩

theorem pairs_length (up : Bool) (bs : List Nat) : (pairs up bs).length = 2 * bs.length := by
  induction bs with
  | nil => rfl
  | cons b bs ih =>
    have : pairs up (b :: bs) = fixed up 2 b ++ pairs up bs := rfl
    rw [this, List.length_append, ih, fixed_length, List.length_cons]; omega

theorem seg_pairs (up : Bool) (bs : List Nat) (k : Nat) (hk : 2 * bs.length = k) :
    Seg (List.replicate k none) (pairs up bs) (pairs up bs) :=
  ⟨hasShape_digits _ (pairs_isHex up bs) k (by rw [pairs_length, hk]),
    digitsAt_digits _ k (by rw [pairs_length, hk])⟩

theorem Seg.cast {p p' : List (Option Nat)} {s s' ds ds' : List Nat} (h : Seg p s ds) (hp : p = p') (hs : s = s')
    (hd : ds = ds') : Seg p' s' ds' := by subst hp; subst hs; subst hd; exact h

theorem seg_dashed (up : Bool) (d1 d2 d3 : Nat) (d4 : List Nat) (h4 : d4.length = 8) :
    Seg shape.dashes (dashed up d1 d2 d3 d4) (fieldDigits up d1 d2 d3 d4) := by
  have e : pairs up d4 = pairs up (d4.take 2) ++ pairs up (d4.drop 2) := by
    rw [pairs, pairs, pairs, ← List.flatMap_append, List.take_append_drop]
  have h := (((((((seg_fixed up 8 d1).append (seg_lits [45])).append (seg_fixed up 4 d2)).append
    (seg_lits [45])).append (seg_fixed up 4 d3)).append (seg_lits [45])).append
    (seg_pairs up (d4.take 2) 4 (by simp [h4]))).append (seg_lits [45]) |>.append
    (seg_pairs up (d4.drop 2) 12 (by simp [h4]))
  refine h.cast rfl rfl ?_
  rw [fieldDigits, e]; simp

theorem seg_text (l : Layout) (up : Bool) (d1 d2 d3 : Nat) (d4 : List Nat) (h4 : d4.length = 8) :
    Seg (shape l) (fieldText l up d1 d2 d3 d4) (fieldDigits up d1 d2 d3 d4) := by
  cases l with
  | N =>
    refine ((((seg_fixed up 8 d1).append (seg_fixed up 4 d2)).append (seg_fixed up 4 d3)).append
      (seg_pairs up d4 16 (by omega))).cast rfl rfl rfl
  | D => exact seg_dashed up d1 d2 d3 d4 h4
  | B =>
    refine (((seg_lits [123]).append (seg_dashed up d1 d2 d3 d4 h4)).append (seg_lits [125])).cast rfl rfl ?_
    simp
  | P =>
    refine (((seg_lits [40]).append (seg_dashed up d1 d2 d3 d4 h4)).append (seg_lits [41])).cast rfl rfl ?_
    simp
  | X =>
    rcases d4 with _ | ⟨b0, _ | ⟨b1, _ | ⟨b2, _ | ⟨b3, _ | ⟨b4, _ | ⟨b5, _ | ⟨b6, _ | ⟨b7, _ | ⟨b8, u⟩⟩⟩⟩⟩⟩⟩⟩⟩ <;>
      simp at h4
    have h := ((((((seg_lits [123, 48, 120]).append (seg_fixed up 8 d1)).append (seg_lits [44, 48, 120])).append
      (seg_fixed up 4 d2)).append (seg_lits [44, 48, 120])).append (seg_fixed up 4 d3)).append
      (seg_lits [44, 123])
    have c : ∀ b, Seg [some 44, some 48, some 120, none, none] ([44, 48, 120] ++ fixed up 2 b) (fixed up 2 b) :=
      fun b => ((seg_lits [44, 48, 120]).append (seg_fixed up 2 b)).cast rfl rfl rfl
    have c0 : Seg [some 48, some 120, none, none] ([48, 120] ++ fixed up 2 b0) (fixed up 2 b0) :=
      ((seg_lits [48, 120]).append (seg_fixed up 2 b0)).cast rfl rfl rfl
    have h' := ((((((((h.append c0).append (c b1)).append (c b2)).append (c b3)).append (c b4)).append
      (c b5)).append (c b6)).append (c b7)).append (seg_lits [125, 125])
    refine h'.cast rfl ?_ ?_
    · simp [fieldText, List.intercalate, List.intersperse]
    · simp [fieldDigits, pairs]

/-! ## The number of digits -/

theorem hexNumber_fixed (up : Bool) (k v : Nat) (h : v < 16 ^ k) : hexNumber (fixed up k v) = v := by
  induction k generalizing v with
  | zero => have : v = 0 := by simpa using h
            subst this; rfl
  | succ k ih =>
    have h' : v / 16 < 16 ^ k := by rw [Nat.div_lt_iff_lt_mul (by omega)]; rwa [pow_succ] at h
    rw [fixed, hexNumber_append, ih _ h']
    have : hexNumber [digit up (v % 16)] = v % 16 := by
      simp [hexNumber, digit_hex up (v % 16) (Nat.mod_lt _ (by omega))]
    rw [this]
    simp
    omega

theorem ofDigits_fieldDigits (up : Bool) (d1 d2 d3 : Nat) (d4 : List Nat) (h1 : d1 < 2 ^ 32)
    (h2 : d2 < 2 ^ 16) (h3 : d3 < 2 ^ 16) (h4l : d4.length = 8) (h4 : ∀ b ∈ d4, b < 256) :
    ofDigits (fieldDigits up d1 d2 d3 d4) = leBytes 4 d1 ++ leBytes 2 d2 ++ leBytes 2 d3 ++ d4 := by
  have e1 : (fieldDigits up d1 d2 d3 d4).take 8 = fixed up 8 d1 := by
    rw [fieldDigits, List.append_assoc, List.append_assoc, List.take_left' (fixed_length up 8 d1)]
  have e2 : ((fieldDigits up d1 d2 d3 d4).drop 8).take 4 = fixed up 4 d2 := by
    rw [fieldDigits, List.append_assoc, List.append_assoc, List.drop_left' (fixed_length up 8 d1),
      List.take_left' (fixed_length up 4 d2)]
  have e3 : ((fieldDigits up d1 d2 d3 d4).drop 12).take 4 = fixed up 4 d3 := by
    rw [fieldDigits, List.append_assoc, List.drop_left' (by simp [fixed_length]),
      List.take_left' (fixed_length up 4 d3)]
  have e4 : ∀ i, (fieldDigits up d1 d2 d3 d4).drop (16 + 2 * i) = (pairs up d4).drop (2 * i) := by
    intro i
    rw [← List.drop_drop, fieldDigits, List.drop_left' (by simp [fixed_length])]
  have e5 : ∀ (bs : List Nat) (i : Nat), ((pairs up bs).drop (2 * i)) = pairs up (bs.drop i) := by
    intro bs
    induction bs with
    | nil => intro i; simp [pairs]
    | cons b bs ih =>
      intro i
      cases i with
      | zero => simp
      | succ i =>
        have : pairs up (b :: bs) = fixed up 2 b ++ pairs up bs := rfl
        rw [this, Nat.mul_succ, Nat.add_comm, ← List.drop_drop, List.drop_left' (fixed_length up 2 b), ih]
        rfl
  rw [ofDigits, e1, e2, e3, hexNumber_fixed up 8 d1 (by omega), hexNumber_fixed up 4 d2 (by omega),
    hexNumber_fixed up 4 d3 (by omega)]
  congr 1
  apply List.ext_getElem
  · simp [h4l]
  · intro i hi1 hi2
    have hi : i < d4.length := hi2
    rw [List.getElem_map, List.getElem_range, e4, e5, List.drop_eq_getElem_cons hi]
    have : pairs up (d4[i] :: d4.drop (i + 1)) = fixed up 2 d4[i] ++ pairs up (d4.drop (i + 1)) := rfl
    rw [this, List.take_left' (fixed_length up 2 _), hexNumber_fixed up 2 _ (by
      have := h4 _ (List.getElem_mem hi); omega)]

theorem fields_eq {u : List Nat} (hu : IsUuid u) :
    leBytes 4 (data1 u) ++ leBytes 2 (data2 u) ++ leBytes 2 (data3 u) ++ data4 u = u := by
  obtain ⟨hl, hb⟩ := hu
  have key : ∀ a k, ((u.drop a).take k).length = k → leBytes k (leValue ((u.drop a).take k)) = (u.drop a).take k := by
    intro a k hk
    have h2 := leBytes_leValue ((u.drop a).take k) (fun b hbm =>
      hb b (List.mem_of_mem_drop (List.mem_of_mem_take hbm)))
    rw [hk] at h2
    exact h2
  have k1 := key 0 4 (by simp [hl])
  have k2 := key 4 2 (by simp [hl])
  have k3 := key 6 2 (by simp [hl])
  rw [List.drop_zero] at k1
  rw [data1, data2, data3, data4, k1, k2, k3]
  obtain ⟨b0, b1, b2, b3, b4, b5, b6, b7, b8, b9, b10, b11, b12, b13, b14, b15, rfl⟩ := explode hl
  rfl

theorem ofDigits_text (l : Layout) (up : Bool) {u : List Nat} (hu : IsUuid u) :
    HasShape (shape l) (text l up u) ∧ ofDigits (digitsAt (shape l) (text l up u)) = u := by
  obtain ⟨b1, b2, b3, b4l, b4⟩ := data_bounds hu
  obtain ⟨h1, h2⟩ := seg_text l up (data1 u) (data2 u) (data3 u) (data4 u) b4l
  refine ⟨h1, ?_⟩
  rw [text, h2, ofDigits_fieldDigits up _ _ _ _ b1 b2 b3 b4l b4, fields_eq hu]

theorem hasShape_lt (ps : List (Option Nat)) (hps : ∀ q, some q ∈ ps → q < 256) (s : List Nat) (h : HasShape ps s) :
    ∀ c ∈ s, c < 256 := by
  induction ps generalizing s with
  | nil => cases s <;> simp_all [HasShape]
  | cons p ps ih =>
    cases s with
    | nil => simp
    | cons c s =>
      cases p with
      | none =>
        have hc := h.1
        have := ih (fun q hq => hps q (by simp [hq])) s h.2
        intro d hd
        rcases List.mem_cons.1 hd with rfl | hd
        · rcases hc with h | h | h <;> omega
        · exact this d hd
      | some q =>
        have hc := h.1
        have := ih (fun q hq => hps q (by simp [hq])) s h.2
        intro d hd
        rcases List.mem_cons.1 hd with rfl | hd
        · rw [hc]; exact hps q (by simp)
        · exact this d hd

theorem shape_lt (l : Layout) : ∀ q, some q ∈ shape l → q < 256 := by
  have key : ∀ ps : List (Option Nat), (ps.all fun q => match q with | none => true | some q => decide (q < 256)) = true →
      ∀ q, some q ∈ ps → q < 256 := by
    intro ps h q hq
    have := List.all_eq_true.1 h _ hq
    simpa using this
  cases l <;> exact key _ (by decide +kernel)

theorem getLast_X (s : List Nat) (h : HasShape (shape .X) s) : s.getLast? = some 125 := by
  have h1 := (loose_iff (shape .X) s []).1 (hasShape_loose _ _ h)
  have hl : s.length = 68 := h1.1
  have := h1.2 (125, 67) (by decide +kernel)
  rw [List.getLast?_eq_getElem?, hl]
  simpa using this

/-- Every string of the shape parses to the UUID its digits denote. -/
theorem init_hasShape (l : Layout) (s : List Nat) (h : HasShape (shape l) s) (behind : List Nat)
    (hz : 0 ∈ behind) : initFromFmt s (parseFmt l) behind = .ok (ofDigits (digitsAt (shape l) s)) := by
  have hs := hasShape_lt _ (shape_lt l) s h
  by_cases hX : l = .X
  · subst hX
    have hk := keepX_hasShape (shape .X) (by decide +kernel) s h
    have hl := digitsAt_length _ s h
    rw [shape_count] at hl
    have hlen : s.length = 68 := hasShape_length _ s h
    rw [parseFmt, init_X s hs behind hz, hk]
    rw [if_neg (by omega), if_neg (by rw [getLast_X s h]; simp; omega), if_neg (by omega)]
  · exact (init_plain l hX s hs behind hz).1 h

/-! ## Case -/

theorem hexVal_toUpper (c : Nat) (h : IsHexDigit c) : hexVal (toUpper c) = hexVal c ∧ IsHexDigit (toUpper c) := by
  have key : ∀ c : Fin 103, IsHexDigit c.1 → hexVal (toUpper c.1) = hexVal c.1 ∧ IsHexDigit (toUpper c.1) := by
    decide +kernel
  have : c < 103 := by rcases h with h | h | h <;> omega
  exact key ⟨c, this⟩ h

theorem hexNumber_congr (s t : List Nat) (h : s.map hexVal = t.map hexVal) : hexNumber s = hexNumber t := by
  have key : ∀ s : List Nat, hexNumber s = (s.map hexVal).foldl (fun acc v => 16 * acc + v.getD 0) 0 := by
    intro s; rw [hexNumber, List.foldl_map]
  rw [key, key, h]

theorem ofDigits_congr (s t : List Nat) (h : s.map hexVal = t.map hexVal) : ofDigits s = ofDigits t := by
  have key : ∀ a k, hexNumber ((s.drop a).take k) = hexNumber ((t.drop a).take k) := by
    intro a k
    apply hexNumber_congr
    rw [List.map_take, List.map_drop, h, ← List.map_drop, ← List.map_take]
  have k0 := key 0 8
  rw [List.drop_zero, List.drop_zero] at k0
  rw [ofDigits, ofDigits, k0, key, key]
  congr 1
  apply List.map_congr_left
  intro i _
  exact key _ _

/-! ## Comparison -/

theorem compare_refl (a : List Nat) : compare a a = .eq := by
  induction a with
  | nil => rfl
  | cons x a ih => simp [compare, ih]

theorem compare_eq_iff (a b : List Nat) : compare a b = .eq ↔ a = b := by
  constructor
  · intro h
    induction a generalizing b with
    | nil => cases b <;> simp_all [compare]
    | cons x a ih =>
      cases b with
      | nil => simp [compare] at h
      | cons y b =>
        rw [compare] at h
        split at h
        · simp at h
        · split at h
          · simp at h
          · rw [ih b h, show x = y by omega]
  · rintro rfl; exact compare_refl a

theorem compare_swap (a b : List Nat) : compare b a = (compare a b).swap := by
  induction a generalizing b with
  | nil => cases b <;> rfl
  | cons x a ih =>
    cases b with
    | nil => rfl
    | cons y b =>
      rw [compare, compare]
      by_cases h1 : x < y
      · rw [if_neg (by omega), if_pos h1, if_pos h1]; rfl
      · by_cases h2 : y < x
        · rw [if_pos h2, if_neg h1, if_pos h2]; rfl
        · rw [if_neg h2, if_neg h1, if_neg h1, if_neg h2, ih]

theorem compare_lt_trans (a b c : List Nat) (h1 : compare a b = .lt) (h2 : compare b c = .lt) :
    compare a c = .lt := by
  induction a generalizing b c with
  | nil =>
    cases b with
    | nil => simp [compare] at h1
    | cons y b => cases c <;> simp_all [compare]
  | cons x a ih =>
    cases b with
    | nil => simp [compare] at h1
    | cons y b =>
      cases c with
      | nil => simp [compare] at h2
      | cons z c =>
        rw [compare] at h1 h2 ⊢
        by_cases e1 : x < y
        · by_cases e2 : y < z
          · rw [if_pos (by omega)]
          · rw [if_neg e2] at h2
            split at h2
            · simp at h2
            · rw [if_pos (by omega)]
        · rw [if_neg e1] at h1
          split at h1
          · simp at h1
          · by_cases e2 : y < z
            · rw [if_pos (by omega)]
            · rw [if_neg e2] at h2
              split at h2
              · simp at h2
              · rw [if_neg (by omega), if_neg (by omega)]
                exact ih b c h1 h2

theorem compare_lt_iff (a b : List Nat) (hl : a.length = b.length) :
    compare a b = .lt ↔ ∃ i x y, a[i]? = some x ∧ b[i]? = some y ∧ a.take i = b.take i ∧ x < y := by
  induction a generalizing b with
  | nil => cases b with
    | nil => simp [compare]
    | cons _ _ => simp at hl
  | cons x a ih =>
    cases b with
    | nil => simp at hl
    | cons y b =>
      have ih := ih b (by simpa using hl)
      rw [compare]
      by_cases h1 : x < y
      · rw [if_pos h1]
        simp only [true_iff]
        exact ⟨0, x, y, rfl, rfl, rfl, h1⟩
      · rw [if_neg h1]
        by_cases h2 : y < x
        · rw [if_pos h2]
          simp only [reduceCtorEq, false_iff]
          rintro ⟨i, v, w, hv, hw, ht, hlt⟩
          cases i with
          | zero => simp at hv hw; omega
          | succ i => simp at ht; omega
        · have : x = y := by omega
          subst this
          rw [if_neg h2, ih]
          constructor
          · rintro ⟨i, v, w, hv, hw, ht, hlt⟩
            exact ⟨i + 1, v, w, by simpa using hv, by simpa using hw, by simpa using ht, hlt⟩
          · rintro ⟨i, v, w, hv, hw, ht, hlt⟩
            cases i with
            | zero => simp at hv hw; omega
            | succ i => exact ⟨i, v, w, by simpa using hv, by simpa using hw, by simpa using ht, hlt⟩

end Wite.Uuid
