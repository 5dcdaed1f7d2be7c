import Verif.Model.Archive
import Verif.Spec.Archive
import Verif.Lemmas.UuidRound
import Verif.Lemmas.Strings
import Verif.Lemmas.Hex
import Verif.Props.IoLayout
import Verif.Props.IoFile
import Verif.Props.Uuid
import Verif.Props.Hex
import Mathlib.Data.List.Forall2

/-!
# Lemmas about files of nested data under UUIDs
-/

namespace Wite.Lemmas.Archive

open Wite Wite.Io Wite.Layouts Wite.Archive Wite.Spec Wite.Spec.IoLayout Wite.Spec.Archive

theorem each_ok {α β : Type} {f : α → Outcome β} {g : α → β} {xs : List α} (h : ∀ x ∈ xs, f x = .ok (g x)) :
    each f xs = .ok (xs.map g) := by
  induction xs with
  | nil => rfl
  | cons x xs ih =>
    rw [each, h x (by simp), ih (fun y hy => h y (by simp [hy]))]
    rfl

/-- The loop returns exactly if every step does. -/
theorem each_iff {α β : Type} {f : α → Outcome β} {P : α → β → Prop} {xs : List α} (h : ∀ x ∈ xs, ∀ y, f x = .ok y ↔ P x y)
    (ys : List β) : each f xs = .ok ys ↔ List.Forall₂ P xs ys := by
  induction xs generalizing ys with
  | nil =>
    rw [each]
    constructor
    · intro e; cases e; exact .nil
    · intro e; cases e; rfl
  | cons x xs ih =>
    have ih := ih (fun z hz => h z (by simp [hz]))
    rw [each]
    constructor
    · intro e
      cases hx : f x with
      | ok y =>
        rw [hx, Outcome.bind_ok] at e
        cases hxs : each f xs with
        | ok zs =>
          rw [hxs, Outcome.bind_ok] at e
          cases e
          exact .cons ((h x (by simp) y).1 hx) ((ih zs).1 hxs)
        | _ => rw [hxs] at e; cases e
      | _ => rw [hx] at e; cases e
    · intro e
      cases e with
      | cons h1 h2 =>
        rw [(h x (by simp) _).2 h1, Outcome.bind_ok, (ih _).2 h2]
        rfl

/-- The loop returns or throws if every step does. -/
theorem each_defined {α β : Type} {f : α → Outcome β} {xs : List α} (h : ∀ x ∈ xs, (∃ y, f x = .ok y) ∨ ∃ e, f x = .throw e) :
    (∃ ys, each f xs = .ok ys) ∨ ∃ e, each f xs = .throw e := by
  induction xs with
  | nil => exact Or.inl ⟨[], rfl⟩
  | cons x xs ih =>
    rw [each]
    rcases h x (by simp) with ⟨y, hy⟩ | ⟨e, he⟩
    · rcases ih (fun z hz => h z (by simp [hz])) with ⟨ys, hys⟩ | ⟨e, he⟩
      · exact Or.inl ⟨y :: ys, by rw [hy, Outcome.bind_ok, hys]; rfl⟩
      · exact Or.inr ⟨e, by rw [hy, Outcome.bind_ok, he]; rfl⟩
    · exact Or.inr ⟨e, by rw [he]; rfl⟩

theorem packed_eq {host : Endian} {cap : Nat} {l : Layout} (hl : Sensible l) {d : l.Data} (hd : Fits l d) :
    packed host cap l d = if (bytes host l d).length ≤ cap then .ok (bytes host l d)
      else .throw (.outOfRange "Insufficient buffer space for write") := by
  have h := Props.c211_write host l hl d hd ⟨List.replicate cap 0, 0⟩ (by simp)
  by_cases hc : (bytes host l d).length ≤ cap
  · have h1 := h.1 (by simpa using hc)
    rw [if_pos hc, packed, h1]
    simp [overwrite]
  · obtain ⟨k, _, _, h1⟩ := h.2 (by simpa using hc)
    rw [if_neg hc, packed, h1]
    rfl

theorem digit_hex {v : Nat} (hv : v < 16) : IsHexDigit (upperDigit v) := by
  unfold IsHexDigit upperDigit
  split <;> omega

theorem hexText_digits {bs : List Nat} (hb : ∀ b ∈ bs, IsByte b) : ∀ c ∈ hexText bs, IsHexDigit c := by
  intro c hc
  rw [hexText, List.mem_flatMap] at hc
  obtain ⟨b, hbm, h⟩ := hc
  have hlt : b < 256 := hb b hbm
  simp only [List.mem_cons, List.not_mem_nil, or_false] at h
  rcases h with rfl | rfl
  · exact digit_hex (by omega)
  · exact digit_hex (by omega)

theorem line_eq {host : Endian} {F : Uuid.Layout} {up : Bool} {sep cap : Nat} {l : Layout} (hl : Sensible l) {r : List Nat × l.Data}
    (hu : Uuid.IsUuid r.1) (hd : Fits l r.2) :
    line host (Uuid.letter F up) sep cap l r = if (bytes host l r.2).length ≤ cap then .ok (lineText host F up sep l r)
      else .throw (.outOfRange "Insufficient buffer space for write") := by
  have hs : Wite.Uuid.str host r.1 (Uuid.letter F up) = .ok (Uuid.text F up r.1) := Wite.Uuid.str_eq host F up hu
  rw [line, hs, Outcome.bind_ok, packed_eq hl hd]
  split
  · rw [Outcome.bind_ok, Hex.hexlify_spec _ (bytes_byte host l r.2), Outcome.bind_ok, Join.join_spec]
    simp [lineText, List.intercalate]
  · rfl

theorem shape_free {ps : List (Option Nat)} {s : List Nat} (h : Uuid.HasShape ps s) {c : Nat} (hc : ¬IsHexDigit c) (hs : some c ∉ ps) :
    c ∉ s := by
  induction ps generalizing s with
  | nil => cases s with
    | nil => simp
    | cons => cases h
  | cons p ps ih =>
    cases s with
    | nil => simp
    | cons x xs =>
      have hs' : some c ∉ ps := fun h => hs (List.mem_cons_of_mem _ h)
      cases p with
      | none =>
        intro hm
        rcases List.mem_cons.1 hm with rfl | hm
        · exact hc h.1
        · exact ih h.2 hs' hm
      | some q =>
        intro hm
        rcases List.mem_cons.1 hm with rfl | hm
        · exact hs (by rw [h.1]; exact List.mem_cons_self)
        · exact ih h.2 hs' hm

/-- What `unpacked` returns. -/
theorem unpacked_iff {host : Endian} {l : Layout} (hl : Sensible l) {bs : List Nat} (hb : ∀ b ∈ bs, IsByte b) (d : l.Data) :
    unpacked host l bs = .ok d ↔ Fits l d ∧ bytes host l d = bs := by
  constructor
  · intro h
    cases hg : (get host l).run ⟨bs, 0⟩ with
    | mk o v =>
      rw [unpacked, hg] at h
      cases o with
      | ok d' =>
        have hr := (Props.c211_read host l hl ⟨bs, 0⟩ hb (by simp) d' v).1 hg
        obtain ⟨h1, h2, rfl⟩ := hr
        simp only [Outcome.bind_ok, List.drop_zero, Nat.zero_add] at h h2
        split at h
        · rename_i he
          cases h
          exact ⟨h1, h2.eq_of_length he⟩
        · cases h
      | _ => cases h
  · rintro ⟨h1, h2⟩
    have hr := (Props.c211_read host l hl ⟨bs, 0⟩ hb (by simp) d ⟨bs, 0 + (bytes host l d).length⟩).2 ⟨h1, by simp [h2], rfl⟩
    rw [unpacked, hr]
    simp [h2]

theorem unpacked_defined {host : Endian} {l : Layout} (hl : Sensible l) {bs : List Nat} (hb : ∀ b ∈ bs, IsByte b) :
    (∃ d, unpacked host l bs = .ok d) ∨ ∃ e, unpacked host l bs = .throw e := by
  by_cases h : ∃ d, Fits l d ∧ bytes host l d <+: bs
  · obtain ⟨d, h1, h2⟩ := h
    have hr := (Props.c211_read host l hl ⟨bs, 0⟩ hb (by simp) d ⟨bs, 0 + (bytes host l d).length⟩).2 ⟨h1, by simpa using h2, rfl⟩
    rw [unpacked, hr]
    simp only [Outcome.bind_ok]
    split
    · exact Or.inl ⟨d, rfl⟩
    · exact Or.inr ⟨_, rfl⟩
  · obtain ⟨e, p, hr, _⟩ := Props.c211_read_throws host l hl ⟨bs, 0⟩ hb (by simp) (by
      intro d hd hp
      exact h ⟨d, hd, by simpa using hp⟩)
    exact Or.inr ⟨e, by rw [unpacked, hr]; rfl⟩

/-- The text of two parts. -/
theorem fields_two {c : Nat} {a b : List Nat} (ha : c ∉ a) (hb : c ∉ b) : Split.fields c (a ++ c :: b) = [a, b] := by
  have := Split.decomposition_unique c [a, b] (by simp) (by simp [ha, hb])
  simpa [List.intercalate] using this

theorem fields_two_iff {c : Nat} {s a b : List Nat} : Split.fields c s = [a, b] ↔ s = a ++ c :: b ∧ c ∉ a ∧ c ∉ b := by
  constructor
  · intro h
    have h1 := Split.intercalate_fields c s
    have h2 := Split.fields_mem_free c s
    rw [h] at h1 h2
    exact ⟨by rw [← h1]; simp [List.intercalate], h2 a (by simp), h2 b (by simp)⟩
  · rintro ⟨rfl, h1, h2⟩
    exact fields_two h1 h2

/-- A line is taken apart exactly if it means something. -/
theorem recordOf_iff {host : Endian} {F : Uuid.Layout} (hX : F ≠ .X) {up : Bool} {sep : Nat} {l : Layout} (hl : Sensible l)
    {behind : List Nat → List Nat} (hz : ∀ s, 0 ∈ behind s) {s : List Nat} (hb : ∀ c ∈ s, c < 256) (r : List Nat × l.Data) :
    recordOf host (Uuid.letter F up) sep l behind s = .ok r ↔ Says host F sep l s r := by
  have hsub : ∀ {key digits : List Nat}, s = key ++ sep :: digits → ∀ c ∈ key, c < 256 := by
    intro key digits e c hc
    exact hb c (by rw [e]; simp [hc])
  constructor
  · intro h
    rw [recordOf, Split.split, Split.splitTo_keep] at h
    split at h
    · rename_i key digits hf
      obtain ⟨e, hk, hd⟩ := fields_two_iff.1 hf
      rcases Props.c19_parse F hX up key (hsub e) (behind key) (hz key) with ⟨h1, h2⟩ | ⟨h1, h2⟩
      · rw [h2, Outcome.bind_ok] at h
        rcases Props.c11_unhexlify_exact_partial digits with ⟨h3, _⟩ | ⟨h3, bs, h4, h5⟩
        · rw [h3] at h; cases h
        · rw [h5, Outcome.bind_ok] at h
          cases hu : unpacked host l bs with
          | ok d =>
            rw [hu] at h
            cases h
            obtain ⟨h6, h7⟩ := (unpacked_iff hl (Hex.denote_lt h4) d).1 hu
            exact ⟨key, digits, e, hk, hd, h1, rfl, by rw [h4, h7], h6⟩
          | _ => rw [hu] at h; cases h
      · rw [h2] at h; cases h
    · cases h
  · rintro ⟨key, digits, e, hk, hd, h1, h2, h3, h4⟩
    have hf := fields_two_iff.2 ⟨e, hk, hd⟩
    rw [recordOf, Split.split, Split.splitTo_keep, hf]
    rcases Props.c19_parse F hX up key (hsub e) (behind key) (hz key) with ⟨_, h5⟩ | ⟨h5, _⟩
    · simp only [h5, Outcome.bind_ok]
      rcases Props.c11_unhexlify_exact_partial digits with ⟨_, c, hc, hn⟩ | ⟨_, bs, h6, h7⟩
      · exact absurd ((Hex.denote_isSome_iff _).1 ⟨_, h3⟩).2 (fun h => hn (h c hc))
      · rw [h6] at h3
        cases h3
        rw [h7, Outcome.bind_ok, (unpacked_iff hl (bytes_byte host l r.2) r.2).2 ⟨h4, rfl⟩, ← h2]
        rfl
    · exact absurd h1 h5

theorem recordOf_defined {host : Endian} {F : Uuid.Layout} (hX : F ≠ .X) {up : Bool} {sep : Nat} {l : Layout} (hl : Sensible l)
    {behind : List Nat → List Nat} (hz : ∀ s, 0 ∈ behind s) {s : List Nat} (hb : ∀ c ∈ s, c < 256) :
    (∃ r, recordOf host (Uuid.letter F up) sep l behind s = .ok r) ∨
      ∃ e, recordOf host (Uuid.letter F up) sep l behind s = .throw e := by
  rw [recordOf, Split.split, Split.splitTo_keep]
  split
  · rename_i key digits hf
    obtain ⟨e, _, _⟩ := fields_two_iff.1 hf
    rcases Props.c19_parse F hX up key (fun c hc => hb c (by rw [e]; simp [hc])) (behind key) (hz key) with ⟨_, h⟩ | ⟨_, h⟩
    · rw [h, Outcome.bind_ok]
      rcases Props.c11_unhexlify_exact_partial digits with ⟨h3, _⟩ | ⟨_, bs, h4, h5⟩
      · exact Or.inr ⟨_, by rw [h3]; rfl⟩
      · rw [h5, Outcome.bind_ok]
        rcases unpacked_defined (host := host) hl (Hex.denote_lt h4) with ⟨d, h⟩ | ⟨e, h⟩
        · exact Or.inl ⟨_, by rw [h]; rfl⟩
        · exact Or.inr ⟨e, by rw [h]; rfl⟩
    · exact Or.inr ⟨_, by rw [h]; rfl⟩
  · exact Or.inr ⟨_, rfl⟩

/-- The digits of the first bytes. -/
theorem denote_take {bs : List Nat} (hb : ∀ b ∈ bs, IsByte b) (m : Nat) : denote ((hexText bs).take (2 * m)) = some (bs.take m) := by
  have h : (hexText bs).take (2 * m) = hexText (bs.take m) := by
    clear hb
    induction bs generalizing m with
    | nil => simp [hexText]
    | cons b bs ih =>
      cases m with
      | zero => simp [hexText]
      | succ m =>
        have := ih m
        simp only [hexText] at this
        simp [hexText, Nat.mul_succ, this]
  rw [h]
  exact Hex.denote_hexText _ (fun b hb' => hb b (List.mem_of_mem_take hb'))

theorem even_take {s : List Nat} (h : s.length % 2 = 0) : s.take (s.length - s.length % 2) = s := by
  rw [h, Nat.sub_zero, List.take_length]

/-- A line of the file means what was written. -/
theorem says_line {host : Endian} {F : Uuid.Layout} {up : Bool} {sep nl : Nat} (hm : Marks F sep nl) {l : Layout} {r : List Nat × l.Data}
    (hu : Uuid.IsUuid r.1) (hd : Fits l r.2) : Says host F sep l (lineText host F up sep l r) r := by
  obtain ⟨h1, h2⟩ := Uuid.ofDigits_text F up hu
  have hx := hexText_digits (bytes_byte host l r.2)
  refine ⟨_, _, rfl, shape_free h1 hm.sep_digit hm.sep_shape, fun h => hm.sep_digit (hx _ h), h1, h2.symm, ?_, hd⟩
  rw [even_take (by rw [Hex.hexText_length]; omega), Hex.denote_hexText _ (bytes_byte host l r.2)]

theorem line_length_pos (host : Endian) (F : Uuid.Layout) (up : Bool) (sep : Nat) (l : Layout) (r : List Nat × l.Data) :
    lineText host F up sep l r ≠ [] := by simp [lineText]

theorem line_free {host : Endian} {F : Uuid.Layout} {up : Bool} {sep nl : Nat} (hm : Marks F sep nl) {l : Layout} {r : List Nat × l.Data}
    (hu : Uuid.IsUuid r.1) : nl ∉ lineText host F up sep l r := by
  have h1 := shape_free (Uuid.ofDigits_text F up hu).1 hm.nl_digit hm.nl_shape
  have hx := hexText_digits (bytes_byte host l r.2)
  simp only [lineText, List.mem_append, List.mem_cons, not_or]
  exact ⟨h1, fun h => hm.different h.symm, fun h => hm.nl_digit (hx _ h)⟩

theorem shape_length {ps : List (Option Nat)} {s : List Nat} (h : Uuid.HasShape ps s) : s.length = ps.length := by
  induction ps generalizing s with
  | nil => cases s with
    | nil => rfl
    | cons => cases h
  | cons p ps ih =>
    cases s with
    | nil => cases p <;> cases h
    | cons x xs => cases p <;> simp [ih h.2]

/-- A line cut short means nothing. -/
theorem not_says_cut {host : Endian} {F : Uuid.Layout} {up : Bool} {sep : Nat} {l : Layout} (hl : Sensible l)
    {r : List Nat × l.Data} (hu : Uuid.IsUuid r.1) (hd : Fits l r.2) {k : Nat} (hk : k < (lineText host F up sep l r).length)
    (r' : List Nat × l.Data) : ¬ Says host F sep l ((lineText host F up sep l r).take k) r' := by
  rintro ⟨key, digits, e, _, _, h1, _, h3, h4⟩
  have hlen : key.length = (Uuid.text F up r.1).length := by
    rw [shape_length h1, shape_length (Uuid.ofDigits_text F up hu).1]
  have hp : key ++ sep :: digits <+: Uuid.text F up r.1 ++ sep :: hexText (bytes host l r.2) := by
    rw [← e]; exact List.take_prefix _ _
  have hkey : key = Uuid.text F up r.1 := by
    have : key <+: Uuid.text F up r.1 ++ sep :: hexText (bytes host l r.2) := (List.prefix_append _ _).trans hp
    exact (List.prefix_of_prefix_length_le this (List.prefix_append _ _) (by omega)).eq_of_length hlen
  subst hkey
  rw [List.prefix_append_right_inj, List.cons_prefix_cons] at hp
  obtain ⟨_, hp⟩ := hp
  have hkl := congrArg List.length e
  simp only [lineText, List.length_take, List.length_append, List.length_cons] at hkl hk
  have hlt : digits.length < (hexText (bytes host l r.2)).length := by omega
  rw [Hex.hexText_length] at hlt
  obtain ⟨m, hm⟩ : ∃ m, digits.length - digits.length % 2 = 2 * m := ⟨digits.length / 2, by omega⟩
  have hdig : digits.take (digits.length - digits.length % 2) = (hexText (bytes host l r.2)).take (2 * m) := by
    rw [hm]
    have h5 : digits = (hexText (bytes host l r.2)).take digits.length := List.prefix_iff_eq_take.1 hp
    conv_lhs => rw [h5]
    rw [List.take_take, Nat.min_eq_left (by omega)]
  rw [hdig, denote_take (bytes_byte host l r.2)] at h3
  have h6 : (bytes host l r.2).take m = bytes host l r'.2 := Option.some.inj h3
  have h7 := Props.c211_unique host l hl r'.2 r.2 h4 hd [] (by rw [List.append_nil, ← h6]; exact List.take_prefix _ _)
  rw [h7] at h6
  have := congrArg List.length h6
  rw [List.length_take] at this
  omega

/-- A line of the file is taken apart to what was written, in any format. -/
theorem recordOf_line {host : Endian} {F : Uuid.Layout} {up : Bool} {sep nl : Nat} (hm : Marks F sep nl) {l : Layout} (hl : Sensible l)
    {behind : List Nat → List Nat} (hz : ∀ s, 0 ∈ behind s) {r : List Nat × l.Data} (hu : Uuid.IsUuid r.1) (hd : Fits l r.2) :
    recordOf host (Uuid.letter F up) sep l behind (lineText host F up sep l r) = .ok r := by
  have hx := hexText_digits (bytes_byte host l r.2)
  have h1 := shape_free (Uuid.ofDigits_text F up hu).1 hm.sep_digit hm.sep_shape
  rw [recordOf, Split.split, Split.splitTo_keep, lineText, fields_two h1 (fun h => hm.sep_digit (hx _ h))]
  have h2 := Props.c16_round_trip host F up r.1 hu (behind (Uuid.text F up r.1)) (hz _)
  rw [Wite.Uuid.str_eq host F up hu, Outcome.bind_ok] at h2
  simp only
  rw [h2, Outcome.bind_ok]
  have he : (hexText (bytes host l r.2)).take ((hexText (bytes host l r.2)).length - (hexText (bytes host l r.2)).length % 2) =
      hexText (bytes host l r.2) := even_take (by rw [Hex.hexText_length]; omega)
  rcases Props.c11_unhexlify_exact_partial (hexText (bytes host l r.2)) with ⟨_, c, hc, hn⟩ | ⟨_, bs, h6, h7⟩
  · rw [he] at hc
    exact absurd (hx c hc) hn
  · rw [he, Hex.denote_hexText _ (bytes_byte host l r.2)] at h6
    cases h6
    rw [h7, Outcome.bind_ok, (unpacked_iff hl (bytes_byte host l r.2) r.2).2 ⟨hd, rfl⟩]
    rfl

theorem hexNumber_lt (s : List Nat) : Uuid.hexNumber s < 16 ^ s.length := by
  have key : ∀ (s : List Nat) (a n : Nat), a < 16 ^ n →
      s.foldl (fun acc c => 16 * acc + (hexVal c).getD 0) a < 16 ^ (n + s.length) := by
    intro s
    induction s with
    | nil => intro a n h; simpa using h
    | cons c s ih =>
      intro a n h
      have hv : (hexVal c).getD 0 < 16 := by
        cases hc : hexVal c with
        | none => simp
        | some v => simpa using Hex.hexVal_lt hc
      have := ih (16 * a + (hexVal c).getD 0) (n + 1) (by rw [Nat.pow_succ]; omega)
      rw [List.foldl_cons, List.length_cons, show n + (s.length + 1) = n + 1 + s.length by omega]
      exact this
  simpa [Uuid.hexNumber] using key s 0 0 (by simp)

theorem ofDigits_uuid (ds : List Nat) : Uuid.IsUuid (Uuid.ofDigits ds) := by
  constructor
  · simp [Uuid.ofDigits, Hex.leBytes_length]
  · intro b hb
    simp only [Uuid.ofDigits, List.mem_append, List.mem_map] at hb
    rcases hb with ((hb | hb) | hb) | ⟨i, _, rfl⟩
    · exact Hex.leBytes_lt _ _ b hb
    · exact Hex.leBytes_lt _ _ b hb
    · exact Hex.leBytes_lt _ _ b hb
    · have h := hexNumber_lt ((ds.drop (16 + 2 * i)).take 2)
      have hl : ((ds.drop (16 + 2 * i)).take 2).length ≤ 2 := by simp
      have := Nat.pow_le_pow_right (n := 16) (by omega) hl
      omega

/-- What a line says is a UUID and data. -/
theorem says_uuid {host : Endian} {F : Uuid.Layout} {sep : Nat} {l : Layout} {s : List Nat} {r : List Nat × l.Data}
    (h : Says host F sep l s r) : Uuid.IsUuid r.1 ∧ Fits l r.2 := by
  obtain ⟨key, digits, _, _, _, _, h1, _, h2⟩ := h
  exact ⟨by rw [h1]; exact ofDigits_uuid _, h2⟩

theorem fields_both (c : Nat) (a b : List Nat) : Split.fields c (a ++ c :: b) = Split.fields c a ++ Split.fields c b := by
  have h := Split.intercalate_fields c a
  have hf := Split.fields_mem_free c a
  have hn := Split.fields_ne_nil c a
  generalize Split.fields c a = fs at h hf hn
  subst h
  induction fs with
  | nil => exact absurd rfl hn
  | cons f fs ih =>
    by_cases he : fs = []
    · subst he
      simpa [List.intercalate] using Split.fields_append c f b (hf f (by simp))
    · rw [Split.intercalate_cons_ne_nil c f fs he, List.append_assoc, List.cons_append,
        Split.fields_append c f _ (hf f (by simp)), ih (fun p hp => hf p (by simp [hp])) he]
      rfl

/-- The last field ends as the text does. -/
theorem last_field (c : Nat) (p z : List Nat) (hz : c ∉ z) : ∃ q, q ++ z ∈ Split.fields c (p ++ z) := by
  by_cases hp : c ∈ p
  · obtain ⟨a, b, rfl⟩ : ∃ a b, p = a ++ c :: b := List.append_of_mem hp
    clear hp
    induction hn : b.length using Nat.strongRecOn generalizing a b with
    | _ n ih =>
      by_cases hb : c ∈ b
      · obtain ⟨a', b', rfl⟩ : ∃ a b', b = a ++ c :: b' := List.append_of_mem hb
        have := ih b'.length (by rw [← hn]; simp; omega) (a ++ c :: a') b' rfl
        simpa using this
      · refine ⟨b, ?_⟩
        rw [List.append_assoc, List.cons_append, fields_both, Split.fields_free c (b ++ z) (by simp [hb, hz])]
        simp
  · exact ⟨p, by rw [Split.fields_free c (p ++ z) (by simp [hp, hz])]; simp⟩

theorem fileText_cons {host : Endian} {F : Uuid.Layout} {up : Bool} {sep nl : Nat} {l : Layout} (r : List Nat × l.Data)
    {rs : List (List Nat × l.Data)} (h : rs ≠ []) :
    fileText host F up sep nl l (r :: rs) = lineText host F up sep l r ++ nl :: fileText host F up sep nl l rs := by
  rw [fileText, List.map_cons, Split.intercalate_cons_ne_nil nl _ _ (by simpa using h)]
  rfl

theorem fileText_one {host : Endian} {F : Uuid.Layout} {up : Bool} {sep nl : Nat} {l : Layout} (r : List Nat × l.Data) :
    fileText host F up sep nl l [r] = lineText host F up sep l r := by
  simp [fileText, List.intercalate]

theorem nonEmpty_cons {p : List Nat} (h : p ≠ []) (ps : List (List Nat)) : Split.nonEmpty (p :: ps) = p :: Split.nonEmpty ps := by
  simp [Split.nonEmpty, h]

/-- The lines of a file. -/
theorem lines_fileText {host : Endian} {F : Uuid.Layout} {up : Bool} {sep nl : Nat} (hm : Marks F sep nl) {l : Layout}
    {rs : List (List Nat × l.Data)} (hr : ∀ r ∈ rs, Uuid.IsUuid r.1) :
    Split.nonEmpty (Split.fields nl (fileText host F up sep nl l rs)) = rs.map (lineText host F up sep l) := by
  by_cases he : rs = []
  · subst he; simp [fileText, List.intercalate, Split.fields, Split.nonEmpty]
  · rw [fileText, Split.decomposition_unique nl _ (by simpa using he), Split.nonEmpty, List.filter_eq_self]
    · intro p hp
      obtain ⟨r, _, rfl⟩ := List.mem_map.1 hp
      simpa using line_length_pos host F up sep l r
    · intro p hp
      obtain ⟨r, hrm, rfl⟩ := List.mem_map.1 hp
      exact line_free hm (hr r hrm)

/-- The lines of a file cut short. -/
theorem lines_cut {host : Endian} {F : Uuid.Layout} {up : Bool} {sep nl : Nat} (hm : Marks F sep nl) {l : Layout}
    {rs : List (List Nat × l.Data)} (hr : ∀ r ∈ rs, Uuid.IsUuid r.1) (k : Nat) :
    (∃ j ≤ rs.length, Split.nonEmpty (Split.fields nl ((fileText host F up sep nl l rs).take k)) =
        (rs.take j).map (lineText host F up sep l) ∧
      ((fileText host F up sep nl l rs).take k = fileText host F up sep nl l (rs.take j) ∨
        j ≠ 0 ∧ (fileText host F up sep nl l rs).take k = fileText host F up sep nl l (rs.take j) ++ [nl])) ∨
    ∃ r ∈ rs, ∃ m < (lineText host F up sep l r).length,
      (lineText host F up sep l r).take m ∈ Split.nonEmpty (Split.fields nl ((fileText host F up sep nl l rs).take k)) := by
  have h0 : ∀ {k} {rs : List (List Nat × l.Data)}, k = 0 → (∃ j ≤ rs.length,
        Split.nonEmpty (Split.fields nl ((fileText host F up sep nl l rs).take k)) = (rs.take j).map (lineText host F up sep l) ∧
      ((fileText host F up sep nl l rs).take k = fileText host F up sep nl l (rs.take j) ∨
        j ≠ 0 ∧ (fileText host F up sep nl l rs).take k = fileText host F up sep nl l (rs.take j) ++ [nl])) := by
    rintro k rs rfl
    exact ⟨0, by omega, by simp [Split.fields, Split.nonEmpty], Or.inl (by simp [fileText, List.intercalate])⟩
  have h1 : ∀ {r : List Nat × l.Data}, Uuid.IsUuid r.1 → ∀ {k}, 0 < k → k < (lineText host F up sep l r).length →
      (lineText host F up sep l r).take k ∈ Split.nonEmpty (Split.fields nl ((lineText host F up sep l r).take k)) := by
    intro r hu k hk hlt
    rw [Split.fields_free nl _ (fun h => line_free hm hu (List.mem_of_mem_take h)), nonEmpty_cons]
    · simp
    · intro h
      have := congrArg List.length h
      rw [List.length_take, List.length_nil] at this
      omega
  induction rs generalizing k with
  | nil => exact Or.inl ⟨0, by simp, by simp [fileText, List.intercalate, Split.fields, Split.nonEmpty], Or.inl (by simp [fileText, List.intercalate])⟩
  | cons r rs ih =>
    have hu := hr r (by simp)
    by_cases hk0 : k = 0
    · exact Or.inl (h0 hk0)
    by_cases he : rs = []
    · subst he
      by_cases hk : k < (lineText host F up sep l r).length
      · rw [fileText_one]
        exact Or.inr ⟨r, by simp, k, hk, h1 hu (by omega) hk⟩
      · refine Or.inl ⟨1, by simp, ?_, Or.inl ?_⟩
        · rw [List.take_of_length_le (by rw [fileText_one]; omega), lines_fileText hm hr]; simp
        · rw [List.take_of_length_le (by rw [fileText_one]; omega)]; simp
    · rw [fileText_cons r he]
      rcases Nat.lt_trichotomy k (lineText host F up sep l r).length with hk | hk | hk
      · rw [List.take_append_of_le_length (by omega)]
        exact Or.inr ⟨r, by simp, k, hk, h1 hu (by omega) hk⟩
      · rw [List.take_append_of_le_length (by omega), List.take_of_length_le (by omega)]
        refine Or.inl ⟨1, by simp, ?_, Or.inl ?_⟩
        · rw [Split.fields_free nl _ (line_free hm hu), nonEmpty_cons (line_length_pos host F up sep l r)]
          simp [Split.nonEmpty]
        · simp [fileText_one]
      · obtain ⟨m, rfl⟩ : ∃ m, k = (lineText host F up sep l r).length + (m + 1) := ⟨k - (lineText host F up sep l r).length - 1, by omega⟩
        rw [List.take_length_add_append, List.take_succ_cons, Split.fields_append nl _ _ (line_free hm hu),
          nonEmpty_cons (line_length_pos host F up sep l r)]
        rcases ih (fun r hr' => hr r (by simp [hr'])) m with ⟨j, hj, h2, h3⟩ | ⟨r', hr', m', hm', h2⟩
        · refine Or.inl ⟨j + 1, by simpa using hj, by rw [h2]; simp, ?_⟩
          by_cases hj0 : j = 0
          · subst hj0
            rcases h3 with h3 | ⟨h3, _⟩
            · refine Or.inr ⟨by omega, ?_⟩
              rw [h3]
              simp [fileText, List.intercalate]
            · exact absurd rfl h3
          · have hne : rs.take j ≠ [] := by simp [he, hj0]
            rcases h3 with h3 | ⟨_, h3⟩
            · left
              rw [h3, List.take_succ_cons, fileText_cons r hne]
            · right
              refine ⟨by omega, ?_⟩
              rw [h3, List.take_succ_cons, fileText_cons r hne]
              simp
        · exact Or.inr ⟨r', by simp [hr'], m', hm', List.mem_cons_of_mem _ h2⟩

theorem zero_digit : ¬IsHexDigit 0 := by decide

theorem zero_shape (F : Uuid.Layout) : some 0 ∉ Uuid.shape F := by cases F <;> decide

/-- In a line that means something, a NUL can only be the left-over character. -/
theorem says_zero {host : Endian} {F : Uuid.Layout} {sep : Nat} (hs : sep ≠ 0) {l : Layout} {p z : List Nat} {r : List Nat × l.Data}
    (h : Says host F sep l (p ++ 0 :: z) r) : z = [] ∧ (p ++ [0]).length % 2 = ((Uuid.shape F).length) % 2 := by
  obtain ⟨key, digits, e, _, _, h1, _, h3, _⟩ := h
  have hk : 0 ∉ key := shape_free h1 zero_digit (zero_shape F)
  have hd : 0 ∉ digits.take (digits.length - digits.length % 2) := fun h =>
    zero_digit (((Hex.denote_isSome_iff _).1 ⟨_, h3⟩).2 0 h)
  have hlen := congrArg List.length e
  have hkl := shape_length h1
  simp only [List.length_append, List.length_cons] at hlen
  -- the position of the NUL
  have hget : (key ++ sep :: digits)[p.length]? = some 0 := by rw [← e]; simp
  by_cases hp : p.length < key.length
  · rw [List.getElem?_append_left hp] at hget
    exact absurd (List.mem_of_getElem? hget) hk
  · by_cases hp' : p.length = key.length
    · rw [List.getElem?_append_right (by omega), hp', Nat.sub_self] at hget
      exact absurd (by simpa using hget) hs
    · obtain ⟨i, hi⟩ : ∃ i, p.length = key.length + 1 + i := ⟨p.length - key.length - 1, by omega⟩
      rw [List.getElem?_append_right (by omega), show p.length - key.length = i + 1 by omega, List.getElem?_cons_succ] at hget
      have hi' : ¬ i < digits.length - digits.length % 2 := by
        intro hlt
        exact hd (List.mem_of_getElem? (i := i) (by rw [List.getElem?_take, if_pos hlt]; exact hget))
      have hlt : i < digits.length := by
        rw [List.getElem?_eq_some_iff] at hget
        exact hget.1
      have hz : z.length = 0 := by omega
      refine ⟨List.length_eq_zero_iff.1 hz, ?_⟩
      simp only [List.length_append, List.length_cons, List.length_nil]
      omega

theorem mem_intercalate {c x : Nat} {s : List Nat} {ss : List (List Nat)} (hs : s ∈ ss) (hx : x ∈ s) : x ∈ List.intercalate [c] ss := by
  induction ss with
  | nil => cases hs
  | cons t ss ih =>
    by_cases he : ss = []
    · subst he
      rw [List.mem_singleton.1 hs] at hx
      simpa [List.intercalate] using hx
    · rw [Split.intercalate_cons_ne_nil c t ss he, List.mem_append]
      rcases List.mem_cons.1 hs with rfl | hs
      · exact Or.inl hx
      · exact Or.inr (List.mem_cons_of_mem _ (ih hs))

theorem of_mem_intercalate {c x : Nat} {ss : List (List Nat)} (hc : x ≠ c) (h : x ∈ List.intercalate [c] ss) : ∃ s ∈ ss, x ∈ s := by
  induction ss with
  | nil => simp [List.intercalate] at h
  | cons t ss ih =>
    by_cases he : ss = []
    · subst he
      exact ⟨t, by simp, by simpa [List.intercalate] using h⟩
    · rw [Split.intercalate_cons_ne_nil c t ss he, List.mem_append, List.mem_cons] at h
      rcases h with h | h | h
      · exact ⟨t, by simp, h⟩
      · exact absurd h hc
      · obtain ⟨s, hs, hx⟩ := ih h
        exact ⟨s, by simp [hs], hx⟩

theorem digit_byte {c : Nat} (h : IsHexDigit c) : c < 256 := by
  rcases h with h | h | h <;> omega

theorem shape_byte {ps : List (Option Nat)} {s : List Nat} (h : Uuid.HasShape ps s) (hp : ∀ p ∈ ps, ∀ c, p = some c → c < 256) :
    ∀ c ∈ s, c < 256 := by
  induction ps generalizing s with
  | nil => cases s with
    | nil => simp
    | cons => cases h
  | cons p ps ih =>
    cases s with
    | nil => simp
    | cons x xs =>
      have hp' : ∀ q ∈ ps, ∀ c, q = some c → c < 256 := fun q hq => hp q (by simp [hq])
      cases p with
      | none =>
        intro c hm
        rcases List.mem_cons.1 hm with rfl | hm
        · exact digit_byte h.1
        · exact ih h.2 hp' c hm
      | some q =>
        intro c hm
        rcases List.mem_cons.1 hm with rfl | hm
        · exact hp (some q) (by simp) _ (by rw [h.1])
        · exact ih h.2 hp' c hm

/-- A file whose last character is replaced by a NUL. -/
theorem last_char {host : Endian} {F : Uuid.Layout} {up : Bool} {sep nl : Nat} (hm : Marks F sep nl) {l : Layout}
    {rs : List (List Nat × l.Data)} (hr : ∀ r ∈ rs, Uuid.IsUuid r.1) (hne : rs ≠ []) :
    ∃ r ∈ rs, ∃ m, m + 1 = (lineText host F up sep l r).length ∧ (lineText host F up sep l r).take m ++ [0] ∈
      Split.fields nl ((fileText host F up sep nl l rs).take ((fileText host F up sep nl l rs).length - 1) ++ [0]) := by
  induction rs with
  | nil => exact absurd rfl hne
  | cons r rs ih =>
    have hu := hr r (by simp)
    have hpos := List.length_pos_iff.2 (line_length_pos host F up sep l r)
    by_cases he : rs = []
    · subst he
      refine ⟨r, by simp, (lineText host F up sep l r).length - 1, by omega, ?_⟩
      rw [fileText_one, Split.fields_free]
      · simp
      · intro h
        rcases List.mem_append.1 h with h | h
        · exact line_free hm hu (List.mem_of_mem_take h)
        · exact hm.nl_zero (List.mem_singleton.1 h)
    · obtain ⟨r', hr', m, h1, h2⟩ := ih (fun r h => hr r (by simp [h])) he
      have hp : 0 < (fileText host F up sep nl l rs).length := by
        cases rs with
        | nil => exact absurd rfl he
        | cons a as =>
          have ha := List.length_pos_iff.2 (line_length_pos host F up sep l a)
          by_cases hs : as = []
          · subst hs; rw [fileText_one]; exact ha
          · rw [fileText_cons a hs]; simp
      refine ⟨r', by simp [hr'], m, h1, ?_⟩
      rw [fileText_cons r he]
      obtain ⟨k, hk⟩ : ∃ k, (fileText host F up sep nl l rs).length = k + 1 := ⟨_, (Nat.succ_pred_eq_of_pos hp).symm⟩
      rw [show (lineText host F up sep l r ++ nl :: fileText host F up sep nl l rs).length - 1 =
          (lineText host F up sep l r).length + (k + 1) by simp [hk],
        List.take_length_add_append, List.take_succ_cons, List.append_assoc, List.cons_append, Split.fields_append nl _ _ (line_free hm hu)]
      rw [hk, Nat.add_sub_cancel] at h2
      exact List.mem_cons_of_mem _ h2

end Wite.Lemmas.Archive
