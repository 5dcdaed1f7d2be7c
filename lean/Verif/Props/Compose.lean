import Verif.Lemmas.UuidRound
import Verif.Lemmas.Strings
import Verif.Props.IoFile
import Verif.Props.Uuid
import Verif.Props.Hex
import Verif.Props.Strings
import Mathlib.Tactic.Tauto

/-!
# C167 to C169: several parts of the library used together

The programs here are what users write: `std::transform` over a vector with a function of the library, then `join`,
`split` and files.
-/

namespace Wite.Props
open Wite Wite.Uuid Wite.Io Wite.Spec Wite.Spec.Uuid Wite.Hex Wite.Split Wite.Join

/-- `std::transform` of a vector with a function that may fail. -/
def transformed {α β : Type} (f : α → Outcome β) : List α → Outcome (List β)
  | [] => .ok []
  | x :: xs => do
    let y ← f x
    let ys ← transformed f xs
    pure (y :: ys)

private theorem transformed_ok {α β : Type} {f : α → Outcome β} {g : α → β} {xs : List α}
    (h : ∀ x ∈ xs, f x = .ok (g x)) : transformed f xs = .ok (xs.map g) := by
  induction xs with
  | nil => rfl
  | cons x xs ih =>
    rw [transformed, h x (by simp), ih (fun y hy => h y (by simp [hy]))]
    rfl

/-- A list of UUIDs as one line: each printed with the format letter, joined with `d`. -/
def uuidLine (host : Endian) (f : Char) (d : Nat) (us : List (List Nat)) : Outcome (List Nat) := do
  let texts ← transformed (fun u => str host u f) us
  join 0 texts d

/-- A line split at `d`, each piece parsed with the format letter; `behind` is the memory behind the parser's buffer in
each of the calls. -/
def uuidsOfLine (f : Char) (d : Nat) (b : Behaviour) (behind : List Nat → List Nat) (line : List Nat) :
    Outcome (List (List Nat)) :=
  transformed (fun s => ofString s f (behind s)) (split line d b)

private theorem uuidLine_eq (host : Endian) (l : Layout) (up : Bool) (d : Nat) (us : List (List Nat))
    (hu : ∀ u ∈ us, IsUuid u) :
    uuidLine host (letter l up) d us = .ok (List.intercalate [d] (us.map (text l up))) := by
  rw [uuidLine, transformed_ok (g := text l up) (fun u h => str_eq host l up (hu u h)), Outcome.bind_ok, join_spec]

private theorem parse_text (l : Layout) (up : Bool) {u : List Nat} (hu : IsUuid u) (behind : List Nat)
    (hz : 0 ∈ behind) : ofString (text l up u) (letter l up) behind = .ok u := by
  have := c16_round_trip .little l up u hu behind hz
  rwa [str_eq .little l up hu, Outcome.bind_ok] at this

private theorem parse_short (l : Layout) (up : Bool) (s behind : List Nat) (h : s.length ≠ textLength l) :
    ofString s (letter l up) behind = .throw (.invalidArgument "Invalid UUID format") := by
  have key : ∀ fmt : Format, fmt.size = textLength l →
      initFromFmt s fmt behind = .throw (.invalidArgument "Invalid UUID format") := by
    intro fmt hf
    rw [initFromFmt, isAValidUuidString, if_pos (by rw [hf]; exact h)]
    rfl
  cases l <;> cases up <;> exact key _ rfl

/-- The pieces of a line, text by text. -/
private theorem fields_intercalate (d : Nat) : ∀ ts : List (List Nat), ts ≠ [] →
    fields d (List.intercalate [d] ts) = ts.flatMap (fields d)
  | [], h => absurd rfl h
  | [t], _ => by simp [List.intercalate]
  | t :: t' :: ts, _ => by
    have happ : ∀ (s r : List Nat), fields d (s ++ d :: r) = fields d s ++ fields d r := by
      intro s r
      induction s with
      | nil => simp [fields]
      | cons x xs ih =>
        simp only [List.cons_append, fields]
        split
        · rw [ih]; rfl
        · rw [ih]
          cases hf : fields d xs with
          | nil => exact absurd hf (fields_ne_nil d xs)
          | cons p ps => rfl
    rw [intercalate_cons_ne_nil d t _ (by simp), happ, fields_intercalate d (t' :: ts) (by simp)]
    rfl

private theorem fields_short (d : Nat) (t : List Nat) (h : d ∈ t) : ∀ p ∈ fields d t, p.length < t.length := by
  induction t with
  | nil => cases h
  | cons x xs ih =>
    intro p hp
    simp only [fields] at hp
    have len : ∀ s, ∀ p ∈ fields d s, p.length ≤ s.length := by
      intro s
      induction s with
      | nil => simp [fields]
      | cons y ys ihy =>
        intro p hp
        simp only [fields] at hp
        split at hp
        · simp only [List.mem_cons] at hp
          rcases hp with rfl | hp
          · simp
          · have := ihy p hp; simp; omega
        · cases hf : fields d ys with
          | nil => exact absurd hf (fields_ne_nil d ys)
          | cons q qs =>
            rw [hf] at hp ihy
            simp only [List.mem_cons] at hp
            rcases hp with rfl | hp
            · have := ihy q (by simp); simp; omega
            · have := ihy p (by simp [hp]); simp; omega
    split at hp
    · simp only [List.mem_cons] at hp
      rcases hp with rfl | hp
      · simp
      · have := len xs p hp; simp; omega
    · next hne =>
      have hx : d ∈ xs := by simpa [Ne.symm hne] using h
      cases hf : fields d xs with
      | nil => exact absurd hf (fields_ne_nil d xs)
      | cons q qs =>
        have ih' := ih hx
        rw [hf] at hp ih'
        simp only [List.mem_cons] at hp
        rcases hp with rfl | hp
        · have := ih' q (by simp); simp; omega
        · have := ih' p (by simp [hp]); simp; omega

private theorem transformed_append {α β : Type} (f : α → Outcome β) (xs ys : List α) :
    transformed f (xs ++ ys) = (transformed f xs >>= fun a => transformed f ys >>= fun b => pure (a ++ b)) := by
  induction xs with
  | nil => 
    rw [List.nil_append, transformed, Outcome.bind_ok]
    cases transformed f ys <;> rfl
  | cons x xs ih =>
    rw [List.cons_append, transformed, transformed, ih]
    cases f x <;> try rfl
    simp only [Outcome.bind_ok]
    cases transformed f xs <;> try rfl
    simp only [Outcome.bind_ok]
    cases transformed f ys <;> rfl

/-- All pieces are of the wrong length, so the first stops the parser. -/
private theorem transformed_bad (l : Layout) (up : Bool) (behind : List Nat → List Nat) (ps : List (List Nat))
    (hne : ps ≠ []) (h : ∀ p ∈ ps, p.length ≠ textLength l) :
    transformed (fun s => ofString s (letter l up) (behind s)) ps =
      .throw (.invalidArgument "Invalid UUID format") := by
  cases ps with
  | nil => exact absurd rfl hne
  | cons p ps => rw [transformed, parse_short l up p (behind p) (h p (by simp))]; rfl

/-- C167 with `keep_empty`, exactly: a list of at least one UUID written as a line comes back unchanged if the delimiter
does not occur in the printed UUIDs, and if it does reading fails with the exception for wrong texts.  The list is never
changed. -/
theorem c167_keep (host : Endian) (l : Layout) (up : Bool) (d : Nat) (us : List (List Nat)) (hne : us ≠ [])
    (hu : ∀ u ∈ us, IsUuid u) (behind : List Nat → List Nat) (hz : ∀ s, 0 ∈ behind s) :
    (uuidLine host (letter l up) d us >>= uuidsOfLine (letter l up) d .keepEmpty behind) =
      if ∀ u ∈ us, d ∉ text l up u then .ok us else .throw (.invalidArgument "Invalid UUID format") := by
  rw [uuidLine_eq host l up d us hu, Outcome.bind_ok, uuidsOfLine, split, splitTo_keep,
    fields_intercalate d _ (by simpa using hne), List.flatMap_map]
  clear hne
  induction us with
  | nil => simp [transformed]
  | cons u us ih =>
    have ih := ih (fun v hv => hu v (by simp [hv]))
    have hu1 := hu u (by simp)
    rw [List.flatMap_cons, transformed_append, ih]
    by_cases hd : d ∈ text l up u
    · have hno : ¬∀ v ∈ u :: us, d ∉ text l up v := fun h => h u (by simp) hd
      rw [transformed_bad l up behind _ (fields_ne_nil d _), if_neg hno]
      · rfl
      · intro p hp
        have := fields_short d _ hd p hp
        rw [text_length l up hu1] at this
        omega
    · rw [fields_free d _ hd, transformed, parse_text l up hu1 _ (hz _), transformed]
      simp only [Outcome.bind_ok, Outcome.pure_eq]
      by_cases hall : ∀ v ∈ us, d ∉ text l up v
      · rw [if_pos hall, if_pos (by simpa [hd] using hall)]
        rfl
      · rw [if_neg hall, if_neg (fun h => hall (fun v hv => h v (by simp [hv])))]
        rfl

private theorem hasShape_mem {ps : List (Option Nat)} {s : List Nat} (h : HasShape ps s) (d : Nat)
    (hd : ¬IsHexDigit d) : d ∈ s ↔ some d ∈ ps := by
  induction ps generalizing s with
  | nil => cases s with
    | nil => simp
    | cons => cases h
  | cons p ps ih =>
    cases s with
    | nil => cases p <;> cases h
    | cons c cs =>
      cases p with
      | none =>
        have : d ≠ c := fun e => hd (e ▸ h.1)
        simp [ih h.2, this]
      | some q =>
        have := h.1
        subst this
        simp [ih h.2]

private theorem hasShape_digit {ps : List (Option Nat)} {s : List Nat} (h : HasShape ps s) (hn : none ∈ ps) :
    ∃ c ∈ s, IsHexDigit c := by
  induction ps generalizing s with
  | nil => cases hn
  | cons p ps ih =>
    cases s with
    | nil => cases p <;> cases h
    | cons c cs =>
      cases p with
      | none => exact ⟨c, by simp, h.1⟩
      | some q =>
        obtain ⟨c', hc, hh⟩ := ih h.2 (by simpa using hn)
        exact ⟨c', by simp [hc], hh⟩

private theorem mem_some_field (d c : Nat) (t : List Nat) (hc : c ∈ t) (hne : c ≠ d) : ∃ p ∈ fields d t, c ∈ p := by
  have h := hc
  rw [← intercalate_fields d t] at h
  have key : ∀ ts : List (List Nat), c ∈ List.intercalate [d] ts → ∃ p ∈ ts, c ∈ p := by
    intro ts
    induction ts with
    | nil => simp [List.intercalate]
    | cons t ts ih =>
      by_cases hts : ts = []
      · subst hts; simp [List.intercalate]
      · rw [intercalate_cons_ne_nil d t ts hts]
        simp only [List.mem_append, List.mem_cons]
        rintro (h | h | h)
        · exact ⟨t, Or.inl rfl, h⟩
        · exact absurd h hne
        · obtain ⟨p, hp, hcp⟩ := ih h
          exact ⟨p, Or.inr hp, hcp⟩
  exact key _ h

/-- C167 with `drop_empty`, exactly: every list of UUIDs, the empty one included, comes back unchanged if the delimiter
is neither a hexadecimal digit nor a character of the format; if it is a character of the format, reading a list of at
least one UUID fails. -/
theorem c167_drop (host : Endian) (l : Layout) (up : Bool) (d : Nat) (hd : ¬IsHexDigit d) (us : List (List Nat))
    (hu : ∀ u ∈ us, IsUuid u) (behind : List Nat → List Nat) (hz : ∀ s, 0 ∈ behind s) :
    (uuidLine host (letter l up) d us >>= uuidsOfLine (letter l up) d .dropEmpty behind) =
      if some d ∈ shape l ∧ us ≠ [] then .throw (.invalidArgument "Invalid UUID format") else .ok us := by
  cases us with
  | nil => 
    rw [uuidLine_eq host l up d [] (by simp), Outcome.bind_ok, uuidsOfLine, split, splitTo_drop]
    simp [nonEmpty, fields, List.intercalate, transformed]
  | cons u us =>
    have hmem : ∀ v ∈ u :: us, (d ∈ text l up v ↔ some d ∈ shape l) := fun v hv =>
      hasShape_mem (ofDigits_text l up (hu v hv)).1 d hd
    rw [uuidLine_eq host l up d _ hu, Outcome.bind_ok, uuidsOfLine, split, splitTo_drop,
      fields_intercalate d _ (by simp), List.flatMap_map]
    by_cases hs : some d ∈ shape l
    · rw [if_pos ⟨hs, by simp⟩]
      apply transformed_bad
      · obtain ⟨c, hc, hx⟩ := hasShape_digit (ofDigits_text l up (hu u (by simp))).1 (by cases l <;> decide)
        obtain ⟨p, hp, hcp⟩ := mem_some_field d c _ hc (fun e => hd (e ▸ hx))
        have : p ∈ nonEmpty ((u :: us).flatMap (fun v => fields d (text l up v))) := by
          rw [nonEmpty, List.mem_filter]
          refine ⟨by rw [List.flatMap_cons, List.mem_append]; exact Or.inl hp, ?_⟩
          simp only [ne_eq, decide_eq_true_eq]
          exact List.ne_nil_of_mem hcp
        exact List.ne_nil_of_mem this
      · intro p hp
        simp only [nonEmpty, List.mem_filter, List.mem_flatMap] at hp
        obtain ⟨⟨v, hv, hp⟩, _⟩ := hp
        have := fields_short d _ ((hmem v hv).2 hs) p hp
        rw [text_length l up (hu v hv)] at this
        omega
    · rw [if_neg (fun h => hs h.1)]
      have hff : (u :: us).flatMap (fun v => fields d (text l up v)) = (u :: us).map (text l up) := by
        rw [← List.flatMap_singleton' ((u :: us).map (text l up)), List.flatMap_map]
        generalize u :: us = vs at hmem
        induction vs with
        | nil => rfl
        | cons v vs ih =>
          rw [List.flatMap_cons, List.flatMap_cons, ih (fun w hw => hmem w (by simp [hw])),
            fields_free d _ (fun h => hs ((hmem v (by simp)).1 h))]
      have hnn : nonEmpty ((u :: us).map (text l up)) = (u :: us).map (text l up) := by
        rw [nonEmpty, List.filter_eq_self]
        intro p hp
        obtain ⟨v, hv, rfl⟩ := List.mem_map.1 hp
        have := text_length l up (hu v hv)
        simp only [ne_eq, decide_eq_true_eq]
        intro e
        rw [e] at this
        cases l <;> cases this
      have hparse : ∀ vs : List (List Nat), (∀ v ∈ vs, IsUuid v) →
          transformed (fun s => ofString s (letter l up) (behind s)) (vs.map (text l up)) = .ok vs := by
        intro vs hvs
        induction vs with
        | nil => rfl
        | cons v vs ih =>
          rw [List.map_cons, transformed, parse_text l up (hvs v (by simp)) _ (hz _),
            ih (fun w hw => hvs w (by simp [hw]))]
          rfl
      rw [hff, hnn, hparse _ hu]

/-- C167: what the two exceptions of the claim do.  The empty list is an empty line, which `keep_empty` takes for one piece:
reading it fails. -/
theorem c167_keep_nothing (host : Endian) (l : Layout) (up : Bool) (d : Nat) (behind : List Nat → List Nat) :
    (uuidLine host (letter l up) d [] >>= uuidsOfLine (letter l up) d .keepEmpty behind) =
      .throw (.invalidArgument "Invalid UUID format") := by
  rw [uuidLine_eq host l up d [] (by simp), Outcome.bind_ok, uuidsOfLine, split, splitTo_keep]
  apply transformed_bad
  · exact fields_ne_nil _ _
  · intro p hp
    simp only [List.map_nil, List.intercalate, List.intersperse, List.flatten_nil, fields, List.mem_singleton] at hp
    subst hp
    cases l <;> decide

/-- C167: with a hexadecimal digit for delimiter and `drop_empty`, UUIDs may be lost without notice: those that consist of
this digit disappear in format N. -/
theorem c167_drop_digit (host : Endian) (up : Bool) (v n : Nat) (hv : v < 16) (behind : List Nat → List Nat) :
    (uuidLine host (letter .N up) (digit up v) (List.replicate n (List.replicate 16 (17 * v))) >>=
      uuidsOfLine (letter .N up) (digit up v) .dropEmpty behind) = .ok [] := by
  have ht : ∀ up, ∀ v < 16, text .N up (List.replicate 16 (17 * v)) = List.replicate 32 (digit up v) := by
    decide +kernel
  have hu : ∀ u ∈ List.replicate n (List.replicate 16 (17 * v)), IsUuid u := by
    intro u h
    rw [List.eq_of_mem_replicate h]
    refine ⟨by simp, fun b hb => ?_⟩
    rw [List.eq_of_mem_replicate hb]
    omega
  rw [uuidLine_eq host .N up _ _ hu, Outcome.bind_ok, uuidsOfLine, split, splitTo_drop]
  have hf : nonEmpty (fields (digit up v) (List.intercalate [digit up v]
      ((List.replicate n (List.replicate 16 (17 * v))).map (text .N up)))) = [] := by
    rw [nonEmpty, List.filter_eq_nil_iff]
    intro p hp
    simp only [ne_eq, decide_eq_true_eq, not_not]
    by_cases hn : n = 0
    · subst hn
      simpa [List.intercalate, fields] using hp
    · rw [fields_intercalate _ _ (by simp [hn]), List.mem_flatMap] at hp
      obtain ⟨t, ht', hp⟩ := hp
      rw [List.map_replicate] at ht'
      rw [List.eq_of_mem_replicate ht', ht up v hv] at hp
      have hall : ∀ k, ∀ p ∈ fields (digit up v) (List.replicate k (digit up v)), p = [] := by
        intro k
        induction k with
        | zero => simp [fields]
        | succ k ih => simpa [List.replicate_succ, fields] using ih
      exact hall 32 p hp
  rw [hf]
  rfl

example : (uuidLine .little 'B' 44 [List.replicate 16 1, List.range 16] >>= uuidsOfLine 'B' 44 .dropEmpty (fun _ => [0])) =
      .ok [List.replicate 16 1, List.range 16] ∧
    (uuidLine .little 'X' 44 [List.replicate 16 1, List.range 16] >>= uuidsOfLine 'X' 44 .dropEmpty (fun _ => [0])) =
      .throw (.invalidArgument "Invalid UUID format") := by
  have h : ∀ u ∈ [List.replicate 16 1, List.range 16], IsUuid u := by
    intro u hu
    simp only [List.mem_cons, List.not_mem_nil, or_false] at hu
    rcases hu with rfl | rfl <;> exact ⟨by decide, by decide⟩
  exact ⟨(c167_drop .little .B true 44 (by decide) _ h _ (by simp)).trans (by decide),
    (c167_drop .little .X true 44 (by decide) _ h _ (by simp)).trans (by decide)⟩

/-! ## C168 -/

/-- The bytes of a UUID with those of each of the first three fields in reverse order. -/
def fieldsReversed (u : List Nat) : List Nat :=
  (u.take 4).reverse ++ ((u.drop 4).take 2).reverse ++ ((u.drop 6).take 2).reverse ++ u.drop 8

private theorem fieldsReversed_uuid {u : List Nat} (hu : IsUuid u) : IsUuid (fieldsReversed u) := by
  obtain ⟨b0, b1, b2, b3, b4, b5, b6, b7, b8, b9, b10, b11, b12, b13, b14, b15, rfl⟩ := explode hu.1
  refine ⟨rfl, ?_⟩
  have := hu.2
  simp [fieldsReversed] at this ⊢
  tauto

private theorem fieldsReversed_twice {u : List Nat} (hu : IsUuid u) : fieldsReversed (fieldsReversed u) = u := by
  obtain ⟨b0, b1, b2, b3, b4, b5, b6, b7, b8, b9, b10, b11, b12, b13, b14, b15, rfl⟩ := explode hu.1
  rfl

private theorem fixed_hexText (bs : List Nat) (hb : ∀ b ∈ bs, b < 256) :
    fixed true (2 * bs.length) (leValue bs) = hexText bs.reverse := by
  induction bs with
  | nil => rfl
  | cons b bs ih =>
    have h1 := hb b (by simp)
    have hl : 2 * (b :: bs).length = 2 * bs.length + 1 + 1 := by simp; omega
    rw [leValue, hl, fixed, fixed, List.reverse_cons, hexText, List.flatMap_append, ← hexText,
      show (b + 256 * leValue bs) / 16 / 16 = leValue bs by omega,
      show (b + 256 * leValue bs) / 16 % 16 = b / 16 by omega,
      show (b + 256 * leValue bs) % 16 = b % 16 by omega, ih (fun c hc => hb c (by simp [hc]))]
    simp [digit]

private theorem fixed_two_byte (b : Nat) (hb : b < 256) : fixed true 2 b = [upperDigit (b / 16), upperDigit (b % 16)] := by
  have := fixed_hexText [b] (by simpa using hb)
  simpa [leValue, hexText] using this

private theorem hexText_append (a b : List Nat) : hexText (a ++ b) = hexText a ++ hexText b := by
  simp [hexText]

private theorem pairs_hexText (bs : List Nat) (hb : ∀ b ∈ bs, b < 256) : pairs true bs = hexText bs := by
  induction bs with
  | nil => rfl
  | cons b bs ih =>
    rw [pairs, List.flatMap_cons, fixed_two_byte b (hb b (by simp)), ← pairs, ih (fun c hc => hb c (by simp [hc]))]
    simp [hexText]

private theorem text_N (a b c d : List Nat) (ha : a.length = 4) (hb : b.length = 2) (hc : c.length = 2)
    (hd : ∀ x ∈ a ++ b ++ c ++ d, x < 256) :
    text .N true (a ++ b ++ c ++ d) = hexText (a.reverse ++ b.reverse ++ c.reverse ++ d) := by
  have k1 := fixed_hexText a (fun x h => hd x (by simp [h]))
  have k2 := fixed_hexText b (fun x h => hd x (by simp [h]))
  have k3 := fixed_hexText c (fun x h => hd x (by simp [h]))
  have k4 := pairs_hexText d (fun x h => hd x (by simp [h]))
  rw [ha] at k1
  rw [hb] at k2
  rw [hc] at k3
  have e1 : (a ++ b ++ c ++ d).take 4 = a := by rw [List.append_assoc, List.append_assoc, List.take_left' ha]
  have e2 : ((a ++ b ++ c ++ d).drop 4).take 2 = b := by
    rw [List.append_assoc, List.append_assoc, List.drop_left' ha, List.take_left' hb]
  have e3 : ((a ++ b ++ c ++ d).drop 6).take 2 = c := by
    rw [List.append_assoc, List.drop_left' (by simp [ha, hb]), List.take_left' hc]
  have e4 : (a ++ b ++ c ++ d).drop 8 = d := List.drop_left' (by simp [ha, hb, hc])
  rw [text, fieldText, data1, data2, data3, data4, e1, e2, e3, e4, k1, k2, k3, k4, hexText_append, hexText_append,
    hexText_append]

/-- C168: the digits of the bytes of a UUID are the text in format N of the UUID with its first three fields reversed. -/
theorem c168_digits_partial (host : Endian) (u : List Nat) (hu : IsUuid u) :
    hexlify u = str host (fieldsReversed u) 'N' := by
  have hs := str_eq host .N true (fieldsReversed_uuid hu)
  have hl := hu.1
  rw [hexlify_spec u hu.2]
  refine Eq.trans ?_ hs.symm
  rw [fieldsReversed, text_N _ _ _ _ (by simp [hl]) (by simp [hl]) (by simp [hl]) (fieldsReversed_uuid hu).2]
  simp only [List.reverse_reverse]
  rw [show List.take 4 u ++ List.take 2 (List.drop 4 u) ++ List.take 2 (List.drop 6 u) ++ List.drop 8 u = u from ?_]
  have h1 : List.drop 6 u = List.drop 2 (List.drop 4 u) := by rw [List.drop_drop]
  have h2 : List.drop 8 u = List.drop 2 (List.drop 2 (List.drop 4 u)) := by rw [List.drop_drop, List.drop_drop]
  rw [h2, h1, List.append_assoc, List.append_assoc, List.take_append_drop, List.take_append_drop, List.take_append_drop]

private theorem str_inj (host : Endian) {u v : List Nat} (hu : IsUuid u) (hv : IsUuid v)
    (h : str host u 'N' = str host v 'N') : u = v := by
  have h1 := c16_round_trip host .N true u hu [0] (by simp)
  have h2 := c16_round_trip host .N true v hv [0] (by simp)
  have h' : str host u (letter .N true) = str host v (letter .N true) := h
  rw [h', h2] at h1
  exact (Outcome.ok.inj h1).symm

/-- C168 is false for every UUID of which one of the first three fields reads differently backwards. -/
theorem c168_refuted (host : Endian) (u : List Nat) (hu : IsUuid u) (h : fieldsReversed u ≠ u) :
    hexlify u ≠ str host u 'N' := by
  intro e
  rw [c168_digits_partial host u hu] at e
  exact h (str_inj host (fieldsReversed_uuid hu) hu e)

/-- C168 is true exactly for the others. -/
theorem c168_exact_partial (host : Endian) (u : List Nat) (hu : IsUuid u) :
    hexlify u = str host u 'N' ↔ fieldsReversed u = u := by
  constructor
  · intro e
    exact Decidable.of_not_not (fun h => c168_refuted host u hu h e)
  · intro e
    rw [c168_digits_partial host u hu, e]

/-- C168: reading these digits as a UUID gives the UUID with the fields reversed, and the bytes of format N's digits are
those of the UUID with the fields reversed. -/
theorem c168_there_and_back_partial (host : Endian) (u : List Nat) (hu : IsUuid u) (behind : List Nat) (hz : 0 ∈ behind) :
    (hexlify u >>= fun s => ofString s 'N' behind) = .ok (fieldsReversed u) ∧
    (str host u 'N' >>= unhexlify) = .ok (fieldsReversed u) := by
  have hr := fieldsReversed_uuid hu
  constructor
  · rw [c168_digits_partial host u hu]
    exact c16_round_trip host .N true _ hr behind hz
  · have := c168_digits_partial host _ hr
    rw [fieldsReversed_twice hu] at this
    rw [← this]
    exact c09_unhexlify_hexlify _ hr.2

example : hexlify (List.range 16) ≠ str .little (List.range 16) 'N' ∧
    fieldsReversed (List.range 16) = [3, 2, 1, 0, 5, 4, 7, 6, 8, 9, 10, 11, 12, 13, 14, 15] ∧
    hexlify (List.replicate 16 7) = str .little (List.replicate 16 7) 'N' :=
  ⟨c168_refuted .little _ ⟨by decide, by decide⟩ (by decide), by decide,
    (c168_exact_partial .little _ ⟨by decide, by decide⟩).2 (by decide)⟩

/-! ## C169 -/

/-- Byte strings saved as a line of hexadecimal digits, separated by `d`.  The line is a `std::string`; its characters are
written as they are. -/
def saveRecords (os : File.Os) (path d : Nat) (records : List (List Nat)) : St File.Fs PUnit := do
  let texts ← St.lift (transformed hexlify records)
  let line ← St.lift (join 0 texts d)
  File.write os path line

/-- Byte strings read from a line of hexadecimal digits: the bytes read are taken for characters. -/
def loadRecords (os : File.Os) (path d : Nat) (b : Behaviour) (fs : File.Fs) : Outcome (List (List Nat)) := do
  let line ← File.read os path none fs
  transformed unhexlify (split line d b)

private theorem save_eq (os : File.Os) (path d : Nat) (records : List (List Nat)) (fs : File.Fs)
    (hb : ∀ r ∈ records, ∀ b ∈ r, b < 256) :
    (saveRecords os path d records).run fs =
      (File.write os path (List.intercalate [d] (records.map hexText))).run fs := by
  rw [saveRecords, transformed_ok (g := hexText) (fun r h => hexlify_spec r (hb r h)),
    St.run_bind_ok (s' := fs) (a := records.map hexText) (by simp), join_spec,
    St.run_bind_ok (s' := fs) (a := List.intercalate [d] (records.map hexText)) (by simp)]

private theorem load_texts (records : List (List Nat)) (hb : ∀ r ∈ records, ∀ b ∈ r, b < 256) :
    transformed unhexlify (records.map hexText) = .ok records := by
  induction records with
  | nil => rfl
  | cons r rs ih =>
    have h := c09_unhexlify_hexlify r (hb r (by simp))
    rw [hexlify_spec r (hb r (by simp)), Outcome.bind_ok] at h
    rw [List.map_cons, transformed, h, ih (fun q hq => hb q (by simp [hq]))]
    rfl

private theorem hexText_free (d : Nat) (hd : ∀ v < 16, d ≠ upperDigit v) (r : List Nat) (hb : ∀ b ∈ r, b < 256) :
    d ∉ hexText r := by
  rw [hexText, List.mem_flatMap]
  rintro ⟨b, hbr, h⟩
  have := hb b hbr
  simp only [List.mem_cons, List.not_mem_nil, or_false] at h
  rcases h with h | h
  · exact hd (b / 16) (by omega) h
  · exact hd (b % 16) (by omega) h

private theorem line_length (d : Nat) (records : List (List Nat)) :
    (List.intercalate [d] (records.map hexText)).length =
      (records.map (fun r => 2 * r.length)).sum + (records.length - 1) := by
  obtain ⟨r, h1, h2⟩ := c04_join_length 0 d (records.map hexText)
  rw [join_spec] at h1
  rw [Outcome.ok.inj h1, h2, List.map_map, List.length_map]
  congr 2
  apply List.map_congr_left
  intro r _
  exact hexText_length r

/-- C169 with `keep_empty`: every list of at least one byte string comes back from the file, if the operating system
transfers everything and the delimiter is none of the digits `hexlify` prints. -/
theorem c169_keep (os : File.Os) (path d : Nat) (hd : ∀ v < 16, d ≠ upperDigit v) (records : List (List Nat))
    (hne : records ≠ []) (hb : ∀ r ∈ records, ∀ b ∈ r, b < 256) (fs : File.Fs)
    (hos : CompleteOs os ((records.map (fun r => 2 * r.length)).sum + (records.length - 1))) :
    ∃ fs', (saveRecords os path d records).run fs = (.ok ⟨⟩, fs') ∧
      loadRecords os path d .keepEmpty fs' = .ok records ∧ ∀ p, p ≠ path → fs' p = fs p := by
  obtain ⟨fs', h1, h2, _, h4⟩ := c46_write_then_read os path (List.intercalate [d] (records.map hexText)) fs
    (by rw [line_length]; exact hos)
  refine ⟨fs', by rw [save_eq os path d records fs hb, h1], ?_, h4⟩
  rw [loadRecords, h2, Outcome.bind_ok, split, splitTo_keep, decomposition_unique d _ (by simpa using hne),
    load_texts records hb]
  intro p hp
  obtain ⟨r, hr, rfl⟩ := List.mem_map.1 hp
  exact hexText_free d hd r (hb r hr)

/-- C169: the list without byte strings is the exception, for it cannot be told from that with one empty byte string. -/
theorem c169_keep_nothing (os : File.Os) (path d : Nat) (fs : File.Fs) (hos : CompleteOs os 0) :
    ∃ fs', (saveRecords os path d []).run fs = (.ok ⟨⟩, fs') ∧ (saveRecords os path d [[]]).run fs = (.ok ⟨⟩, fs') ∧
      loadRecords os path d .keepEmpty fs' = .ok [[]] := by
  obtain ⟨fs', h1, h2, _, h4⟩ := c46_write_then_read os path [] fs hos
  refine ⟨fs', by rw [save_eq os path d [] fs (by simp)]; exact h1,
    by rw [save_eq os path d [[]] fs (by simp)]; exact h1, ?_⟩
  rw [loadRecords, h2, Outcome.bind_ok, split, splitTo_keep]
  rfl

/-- C169 with `drop_empty`: exactly the byte strings that are not empty come back, in order. -/
theorem c169_drop (os : File.Os) (path d : Nat) (hd : ∀ v < 16, d ≠ upperDigit v) (records : List (List Nat))
    (hb : ∀ r ∈ records, ∀ b ∈ r, b < 256) (fs : File.Fs)
    (hos : CompleteOs os ((records.map (fun r => 2 * r.length)).sum + (records.length - 1))) :
    ∃ fs', (saveRecords os path d records).run fs = (.ok ⟨⟩, fs') ∧
      loadRecords os path d .dropEmpty fs' = .ok (records.filter (fun r => r ≠ [])) ∧ ∀ p, p ≠ path → fs' p = fs p := by
  obtain ⟨fs', h1, h2, _, h4⟩ := c46_write_then_read os path (List.intercalate [d] (records.map hexText)) fs
    (by rw [line_length]; exact hos)
  refine ⟨fs', by rw [save_eq os path d records fs hb, h1], ?_, h4⟩
  rw [loadRecords, h2, Outcome.bind_ok, split, splitTo_drop]
  have hne : nonEmpty (fields d (List.intercalate [d] (records.map hexText))) =
      (records.filter (fun r => r ≠ [])).map hexText := by
    by_cases he : records = []
    · subst he; simp [nonEmpty, fields, List.intercalate]
    · rw [decomposition_unique d _ (by simpa using he), nonEmpty, List.filter_map]
      · congr 1
        apply List.filter_congr
        intro r _
        have : hexText r = [] ↔ r = [] := by
          rw [← List.length_eq_zero_iff, hexText_length, ← List.length_eq_zero_iff]
          omega
        simp [this]
      · intro p hp
        obtain ⟨r, hr, rfl⟩ := List.mem_map.1 hp
        exact hexText_free d hd r (hb r hr)
  rw [hne, load_texts _ (fun r hr => hb r (List.mem_filter.1 hr).1)]

example : ∃ fs', (saveRecords ⟨true, true, 100, 100⟩ 5 10 [[1, 2], [], [255]]).run (fun _ => none) = (.ok ⟨⟩, fs') ∧
    loadRecords ⟨true, true, 100, 100⟩ 5 10 .keepEmpty fs' = .ok [[1, 2], [], [255]] ∧ ∀ p, p ≠ 5 → fs' p = none :=
  c169_keep ⟨true, true, 100, 100⟩ 5 10 (by decide) _ (by decide) (by decide) _ ⟨rfl, rfl, by decide, by decide⟩

end Wite.Props
