import Verif.Props.Uuid

/-!
# C196: the order of UUIDs and the order of their texts
-/

namespace Wite.Props

open Wite Wite.Uuid Wite.Spec Wite.Spec.Uuid

private theorem lt_append_iff {a a' b b' : List Nat} (h : a.length = a'.length) :
    a ++ b < a' ++ b' ↔ a < a' ∨ a = a' ∧ b < b' := by
  induction a generalizing a' with
  | nil =>
    cases a' with
    | nil => simp
    | cons _ _ => simp at h
  | cons x xs ih =>
    cases a' with
    | nil => simp at h
    | cons y ys =>
      simp only [List.length_cons, Nat.add_right_cancel_iff] at h
      simp only [List.cons_append, List.cons_lt_cons_iff, ih h, List.cons.injEq]
      constructor
      · rintro (h | ⟨h, h' | ⟨h', h''⟩⟩)
        · exact Or.inl (Or.inl h)
        · exact Or.inl (Or.inr ⟨h, h'⟩)
        · exact Or.inr ⟨⟨h, h'⟩, h''⟩
      · rintro ((h | ⟨h, h'⟩) | ⟨⟨h, h'⟩, h''⟩)
        · exact Or.inl h
        · exact Or.inr ⟨h, Or.inl h'⟩
        · exact Or.inr ⟨h, Or.inr ⟨h', h''⟩⟩

private theorem lt_irrefl' (a : List Nat) : ¬a < a := List.lt_irrefl a

private theorem digit_lt (up : Bool) {v w : Nat} (hv : v < 16) (hw : w < 16) : digit up v < digit up w ↔ v < w := by
  have : ∀ up : Bool, ∀ v : Fin 16, ∀ w : Fin 16, digit up v < digit up w ↔ v < w := by decide +kernel
  exact this up ⟨v, hv⟩ ⟨w, hw⟩

private theorem digit_inj (up : Bool) {v w : Nat} (hv : v < 16) (hw : w < 16) : digit up v = digit up w ↔ v = w := by
  have h1 := digit_lt up hv hw
  have h2 := digit_lt up hw hv
  omega

private theorem fixed_inj (up : Bool) (k v w : Nat) (hv : v < 16 ^ k) (hw : w < 16 ^ k) : fixed up k v = fixed up k w ↔ v = w := by
  constructor
  · intro h
    rw [← hexNumber_fixed up k v hv, h, hexNumber_fixed up k w hw]
  · rintro rfl; rfl

private theorem fixed_lt (up : Bool) (k v w : Nat) (hv : v < 16 ^ k) (hw : w < 16 ^ k) : fixed up k v < fixed up k w ↔ v < w := by
  induction k generalizing v w with
  | zero => simp [fixed]; omega
  | succ k ih =>
    rw [Nat.pow_succ] at hv hw
    have h1 : v / 16 < 16 ^ k := Nat.div_lt_of_lt_mul (by omega)
    have h2 : w / 16 < 16 ^ k := Nat.div_lt_of_lt_mul (by omega)
    simp only [fixed]
    rw [lt_append_iff (by simp [fixed_length]), ih _ _ h1 h2, fixed_inj _ _ _ _ h1 h2]
    simp only [List.cons_lt_cons_iff, digit_lt up (Nat.mod_lt v (by decide : 16 > 0)) (Nat.mod_lt w (by decide : 16 > 0)), List.lt_irrefl, and_false, or_false]
    omega

private theorem pairs_lt (up : Bool) : ∀ (bs cs : List Nat), bs.length = cs.length → (∀ b ∈ bs, b < 256) → (∀ c ∈ cs, c < 256) →
    (pairs up bs < pairs up cs ↔ Uuid.compare bs cs = .lt) ∧ (pairs up bs = pairs up cs ↔ bs = cs)
  | [], [], _, _, _ => by simp [pairs, Uuid.compare]
  | b :: bs, c :: cs, hl, hb, hc => by
    have ih := pairs_lt up bs cs (by simpa using hl) (fun x hx => hb x (by simp [hx])) (fun x hx => hc x (by simp [hx]))
    have h1 : b < 16 ^ 2 := hb b (by simp)
    have h2 : c < 16 ^ 2 := hc c (by simp)
    have e : ∀ (x : Nat) (xs : List Nat), pairs up (x :: xs) = fixed up 2 x ++ pairs up xs := fun _ _ => rfl
    constructor
    · rw [e, e, lt_append_iff (by simp [fixed_length]), fixed_lt _ _ _ _ h1 h2, fixed_inj _ _ _ _ h1 h2, ih.1]
      simp only [Uuid.compare]
      split
      · simp_all
      · split
        · rename_i h3 h4
          have : b ≠ c := by omega
          simp [this]
          omega
        · rename_i h3 h4
          have : b = c := by omega
          simp [this]
    · rw [e, e]
      constructor
      · intro h
        obtain ⟨g1, g2⟩ := List.append_inj h (by simp [fixed_length])
        rw [(fixed_inj up 2 b c h1 h2).mp g1, ih.2.mp g2]
      · intro h
        cases h
        rfl

private theorem compare_append {a a' b b' : List Nat} (h : a.length = a'.length) :
    Uuid.compare (a ++ b) (a' ++ b') = .lt ↔ Uuid.compare a a' = .lt ∨ a = a' ∧ Uuid.compare b b' = .lt := by
  induction a generalizing a' with
  | nil =>
    cases a' with
    | nil => simp [Uuid.compare]
    | cons _ _ => simp at h
  | cons x xs ih =>
    cases a' with
    | nil => simp at h
    | cons y ys =>
      simp only [List.length_cons, Nat.add_right_cancel_iff] at h
      simp only [List.cons_append, Uuid.compare, List.cons.injEq]
      split
      · simp
      · split
        · rename_i h3 h4
          have : x ≠ y := by omega
          simp [this]
        · rename_i h3 h4
          have : x = y := by omega
          simp [this, ih h]

/-- The fields of a UUID compared one after another: three numbers, then the bytes of the fourth. -/
def fieldsLess (u v : List Nat) : Prop :=
  data1 u < data1 v ∨ data1 u = data1 v ∧ (data2 u < data2 v ∨ data2 u = data2 v ∧ (data3 u < data3 v ∨ data3 u = data3 v ∧
    Uuid.compare (data4 u) (data4 v) = .lt))

private theorem tail_lt {a a' b : List Nat} (h : a.length = a'.length) : a ++ b < a' ++ b ↔ a < a' := by
  rw [lt_append_iff h]
  simp [List.lt_irrefl]

private theorem field_lt (u : List Nat) (i n : Nat) (hu : IsUuid u) : leValue ((u.drop i).take n) < 16 ^ (2 * n) := by
  have h := Wite.Hex.leValue_lt ((u.drop i).take n) (fun b hb => hu.2 b (List.mem_of_mem_drop (List.mem_of_mem_take hb)))
  refine Nat.lt_of_lt_of_le h ?_
  rw [Nat.pow_mul]
  exact Nat.pow_le_pow_right (by decide) (by simp)

private def prefixed (up : Bool) (bs : List Nat) : List Nat := List.intercalate [44] (bs.map (fun b => [48, 120] ++ fixed up 2 b))

private theorem prefixed_cons (up : Bool) (b c : Nat) (bs : List Nat) :
    prefixed up (b :: c :: bs) = [48, 120] ++ (fixed up 2 b ++ ([44] ++ prefixed up (c :: bs))) := by
  simp [prefixed, List.intercalate]

private theorem prefixed_length (up : Bool) : ∀ bs cs : List Nat, bs.length = cs.length → (prefixed up bs).length = (prefixed up cs).length
  | [], [], _ => rfl
  | [_], [_], _ => by simp [prefixed, List.intercalate, fixed_length]
  | b :: b' :: bs, c :: c' :: cs, h => by
    have ih := prefixed_length up (b' :: bs) (c' :: cs) (by simpa using h)
    simp [prefixed_cons, fixed_length, ih]

private theorem prefixed_lt (up : Bool) : ∀ bs cs : List Nat, bs.length = cs.length → (∀ b ∈ bs, b < 256) → (∀ c ∈ cs, c < 256) →
    (prefixed up bs < prefixed up cs ↔ Uuid.compare bs cs = .lt)
  | [], [], _, _, _ => by simp [prefixed, List.intercalate, Uuid.compare]
  | [b], [c], _, hb, hc => by
    have h1 : b < 16 ^ 2 := hb b (by simp)
    have h2 : c < 16 ^ 2 := hc c (by simp)
    have e : ∀ x, prefixed up [x] = [48, 120] ++ fixed up 2 x := fun x => by simp [prefixed, List.intercalate]
    rw [e, e, lt_append_iff rfl, fixed_lt _ _ _ _ h1 h2]
    simp only [Uuid.compare, List.lt_irrefl, false_or, true_and]
    split
    · simp_all
    · split <;> simp <;> omega
  | b :: b' :: bs, c :: c' :: cs, hl, hb, hc => by
    have ih := prefixed_lt up (b' :: bs) (c' :: cs) (by simpa using hl) (fun x hx => hb x (List.mem_cons_of_mem _ hx))
      (fun x hx => hc x (List.mem_cons_of_mem _ hx))
    have h1 : b < 16 ^ 2 := hb b (by simp)
    have h2 : c < 16 ^ 2 := hc c (by simp)
    rw [prefixed_cons, prefixed_cons, lt_append_iff rfl, lt_append_iff (by simp [fixed_length]), lt_append_iff rfl, ih,
      fixed_lt _ _ _ _ h1 h2, fixed_inj _ _ _ _ h1 h2]
    rw [show Uuid.compare (b :: b' :: bs) (c :: c' :: cs) =
      if b < c then .lt else if c < b then .gt else Uuid.compare (b' :: bs) (c' :: cs) from rfl]
    simp only [List.lt_irrefl, false_or, true_and]
    split
    · simp_all
    · split
      · have : b ≠ c := by omega
        simp [this]
        omega
      · have : b = c := by omega
        simp [this]

private theorem text_lt (l : Layout) (up : Bool) (u v : List Nat) (hu : IsUuid u) (hv : IsUuid v) :
    text l up u < text l up v ↔ fieldsLess u v := by
  have u1 : data1 u < 16 ^ 8 := field_lt u 0 4 hu
  have v1 : data1 v < 16 ^ 8 := field_lt v 0 4 hv
  have u2 : data2 u < 16 ^ 4 := field_lt u 4 2 hu
  have v2 : data2 v < 16 ^ 4 := field_lt v 4 2 hv
  have u3 : data3 u < 16 ^ 4 := field_lt u 6 2 hu
  have v3 : data3 v < 16 ^ 4 := field_lt v 6 2 hv
  have ul : (data4 u).length = 8 := by simp [data4, hu.1]
  have vl : (data4 v).length = 8 := by simp [data4, hv.1]
  have ub : ∀ b ∈ data4 u, b < 256 := fun b hb => hu.2 b (List.mem_of_mem_drop hb)
  have vb : ∀ b ∈ data4 v, b < 256 := fun b hb => hv.2 b (List.mem_of_mem_drop hb)
  unfold text fieldsLess
  generalize data1 u = a1 at *; generalize data2 u = a2 at *; generalize data3 u = a3 at *; generalize data4 u = a4 at *
  generalize data1 v = b1 at *; generalize data2 v = b2 at *; generalize data3 v = b3 at *; generalize data4 v = b4 at *
  have hd : dashed up a1 a2 a3 a4 < dashed up b1 b2 b3 b4 ↔ a1 < b1 ∨ a1 = b1 ∧ (a2 < b2 ∨ a2 = b2 ∧ (a3 < b3 ∨ a3 = b3 ∧
      Uuid.compare a4 b4 = .lt)) := by
    have t1 := pairs_lt up (a4.take 2) (b4.take 2) (by simp [ul, vl]) (fun b hb => ub b (List.mem_of_mem_take hb))
      (fun b hb => vb b (List.mem_of_mem_take hb))
    have t2 := pairs_lt up (a4.drop 2) (b4.drop 2) (by simp [ul, vl]) (fun b hb => ub b (List.mem_of_mem_drop hb))
      (fun b hb => vb b (List.mem_of_mem_drop hb))
    have h4 : Uuid.compare a4 b4 = .lt ↔
        Uuid.compare (a4.take 2) (b4.take 2) = .lt ∨ a4.take 2 = b4.take 2 ∧ Uuid.compare (a4.drop 2) (b4.drop 2) = .lt := by
      conv_lhs => rw [← List.take_append_drop 2 a4, ← List.take_append_drop 2 b4]
      exact compare_append (by simp [ul, vl])
    simp only [dashed, List.append_assoc]
    rw [lt_append_iff (by simp [fixed_length]), lt_append_iff rfl, lt_append_iff (by simp [fixed_length]), lt_append_iff rfl,
      lt_append_iff (by simp [fixed_length]), lt_append_iff rfl, lt_append_iff (by simp [pairs_length, ul, vl]), lt_append_iff rfl,
      fixed_lt _ _ _ _ u1 v1, fixed_inj _ _ _ _ u1 v1, fixed_lt _ _ _ _ u2 v2, fixed_inj _ _ _ _ u2 v2,
      fixed_lt _ _ _ _ u3 v3, fixed_inj _ _ _ _ u3 v3, t1.1, t1.2, t2.1, h4]
    simp [List.lt_irrefl]
  have hdl : (dashed up a1 a2 a3 a4).length = (dashed up b1 b2 b3 b4).length := by
    simp [dashed, fixed_length, pairs_length, ul, vl]
  cases l
  · simp only [fieldText, List.append_assoc]
    rw [lt_append_iff (by simp [fixed_length]), lt_append_iff (by simp [fixed_length]),
      lt_append_iff (by simp [fixed_length]), fixed_lt _ _ _ _ u1 v1, fixed_inj _ _ _ _ u1 v1, fixed_lt _ _ _ _ u2 v2,
      fixed_inj _ _ _ _ u2 v2, fixed_lt _ _ _ _ u3 v3, fixed_inj _ _ _ _ u3 v3, (pairs_lt up a4 b4 (by simp [ul, vl]) ub vb).1]
  · exact hd
  · simp only [fieldText]
    rw [tail_lt (by simp [hdl]), lt_append_iff rfl, hd]
    simp [List.lt_irrefl]
  · simp only [fieldText]
    rw [tail_lt (by simp [hdl]), lt_append_iff rfl, hd]
    simp [List.lt_irrefl]
  · have e : ∀ d1 d2 d3 d4, fieldText .X up d1 d2 d3 d4 = ([123, 48, 120] ++ (fixed up 8 d1 ++ ([44, 48, 120] ++ (fixed up 4 d2 ++
        ([44, 48, 120] ++ (fixed up 4 d3 ++ ([44, 123] ++ prefixed up d4))))))) ++ [125, 125] := by
      intro d1 d2 d3 d4
      simp [fieldText, prefixed]
    rw [e, e, tail_lt (by simp [fixed_length, prefixed_length up a4 b4 (by simp [ul, vl])]), lt_append_iff rfl,
      lt_append_iff (by simp [fixed_length]), lt_append_iff rfl, lt_append_iff (by simp [fixed_length]), lt_append_iff rfl,
      lt_append_iff (by simp [fixed_length]), lt_append_iff rfl,
      fixed_lt _ _ _ _ u1 v1, fixed_inj _ _ _ _ u1 v1, fixed_lt _ _ _ _ u2 v2, fixed_inj _ _ _ _ u2 v2,
      fixed_lt _ _ _ _ u3 v3, fixed_inj _ _ _ _ u3 v3, prefixed_lt up a4 b4 (by simp [ul, vl]) ub vb]
    simp [List.lt_irrefl]

/-- C196, the order of the texts: whatever the format, UUIDs are ordered by their text as by their fields. -/
theorem c196_text_order_partial (host : Io.Endian) (l : Layout) (up : Bool) (u v : List Nat) (hu : IsUuid u) (hv : IsUuid v) :
    ∃ s t, str host u (letter l up) = .ok s ∧ str host v (letter l up) = .ok t ∧ (s < t ↔ fieldsLess u v) :=
  ⟨_, _, c17_text host l up u hu, c17_text host l up v hv, text_lt l up u v hu hv⟩

/-- C196, what holds: UUIDs with the same first three fields are ordered like their texts, in every format. -/
theorem c196_same_fields_partial (host : Io.Endian) (l : Layout) (up : Bool) (u v : List Nat) (hu : IsUuid u) (hv : IsUuid v)
    (h : u.take 8 = v.take 8) :
    ∃ s t, str host u (letter l up) = .ok s ∧ str host v (letter l up) = .ok t ∧ (s < t ↔ Uuid.compare u v = .lt) := by
  refine ⟨_, _, c17_text host l up u hu, c17_text host l up v hv, ?_⟩
  rw [text_lt l up u v hu hv]
  have e1 : data1 u = data1 v := by
    have : u.take 4 = v.take 4 := by simpa [List.take_take] using congrArg (List.take 4) h
    simp [data1, this]
  have e2 : data2 u = data2 v := by
    have := congrArg (fun l => (l.drop 4).take 2) h
    simp only [List.drop_take, List.take_take] at this
    simpa [data2] using congrArg leValue this
  have e3 : data3 u = data3 v := by
    have := congrArg (fun l => (l.drop 6).take 2) h
    simp only [List.drop_take, List.take_take] at this
    simpa [data3] using congrArg leValue this
  have e4 : Uuid.compare u v = .lt ↔ Uuid.compare (u.take 8) (v.take 8) = .lt ∨
      u.take 8 = v.take 8 ∧ Uuid.compare (u.drop 8) (v.drop 8) = .lt := by
    conv_lhs => rw [← List.take_append_drop 8 u, ← List.take_append_drop 8 v]
    exact compare_append (by simp [hu.1, hv.1])
  rw [e4, h]
  simp [fieldsLess, e1, e2, e3, data4, (c26_total_order (v.take 8) [] []).1]

/-- C196 is false: a UUID that is less than another in its first byte and greater in its fourth comes before it, and its text comes after
the other's text, in every format and on every machine. -/
theorem c196_refuted (host : Io.Endian) (l : Layout) (up : Bool) (u v : List Nat) (hu : IsUuid u) (hv : IsUuid v) (a a' d d' : Nat)
    (ha : u[0]? = some a) (ha' : v[0]? = some a') (hd : u[3]? = some d) (hd' : v[3]? = some d') (h0 : a < a') (h3 : d' < d) :
    Uuid.compare u v = .lt ∧ ∃ s t, str host u (letter l up) = .ok s ∧ str host v (letter l up) = .ok t ∧ t < s := by
  obtain ⟨ul, ub⟩ := id hu
  obtain ⟨vl, vb⟩ := id hv
  match u, ul, v, vl with
  | u0 :: u1 :: u2 :: u3 :: us, _, v0 :: v1 :: v2 :: v3 :: vs, _ =>
    simp only [List.getElem?_cons_zero, Option.some.injEq] at ha ha'
    simp at hd hd'
    subst ha ha' hd hd'
    refine ⟨by simp [Uuid.compare, h0], _, _, c17_text host l up _ hu, c17_text host l up _ hv, ?_⟩
    rw [text_lt l up _ _ hv hu]
    left
    have b0 := ub u0 (by simp); have b1 := ub u1 (by simp); have b2 := ub u2 (by simp)
    have c0 := vb v0 (by simp); have c1 := vb v1 (by simp); have c2 := vb v2 (by simp)
    simp only [data1, List.take_succ_cons, List.take_zero, leValue]
    omega

/- The bytes 1 0 0 0 are the field 00000001, the bytes 0 0 0 1 the field 01000000. -/
example : Uuid.compare (0 :: 0 :: 0 :: 1 :: List.replicate 12 0) (1 :: 0 :: 0 :: 0 :: List.replicate 12 0) = .lt ∧
    text .N true (1 :: 0 :: 0 :: 0 :: List.replicate 12 0) < text .N true (0 :: 0 :: 0 :: 1 :: List.replicate 12 0) := by decide

end Wite.Props
