import Verif.Lemmas.UuidPrint
import Verif.Lemmas.Hex
import Verif.Lemmas.Strings
import Mathlib.Tactic.Ring
import Mathlib.Tactic.Conv

/-!
# Lemmas about UUID text: parsing
-/

namespace Wite.Uuid

open Wite.Io Wite.Spec Wite.Spec.Uuid Wite.Hex Wite.Join

/-! ## Collecting the hexadecimal characters -/

/-- The hexadecimal digits of a string. -/
def hexOnly (s : List Nat) : List Nat := s.filter (fun c => decide (IsHexDigit c))

/-- The digits the X-format scan keeps: "0x" pairs are skipped, then non-digits. -/
def keepX : List Nat → List Nat
  | [] => []
  | [c] => if IsHexDigit c then [c] else []
  | c :: c' :: rest =>
    if c = 48 ∧ c' = 120 then keepX rest
    else if IsHexDigit c then c :: keepX (c' :: rest) else keepX (c' :: rest)

theorem isxdigit_eq {c : Nat} (h : c < 256) : isxdigit c = .ok (decide (IsHexDigit c)) := by
  rw [isxdigit, if_pos (by omega)]; rfl

theorem copyInto_cons (st : List Nat × Nat) (c : Nat) (cs : List Nat) :
    copyInto st (c :: cs) = (writeOne st c).bind (fun st' => copyInto st' cs) := rfl

theorem copyHex_eq (s : List Nat) (hs : ∀ c ∈ s, c < 256) (st : List Nat × Nat) :
    copyHex s st = copyInto st (hexOnly s) := by
  induction s generalizing st with
  | nil => rfl
  | cons c s ih =>
    have ih' := fun st => ih (fun d hd => hs d (by simp [hd])) st
    rw [copyHex, isxdigit_eq (hs c (by simp))]
    by_cases h : IsHexDigit c
    · have : hexOnly (c :: s) = c :: hexOnly s := by simp [hexOnly, h]
      rw [this]
      simp only [Outcome.bind_ok, h, decide_true, if_true]
      rw [copyInto]
      simp only [ih']
    · have : hexOnly (c :: s) = hexOnly s := by simp [hexOnly, h]
      rw [this]
      simp [h, ih']

theorem remove0x_eq (s : List Nat) (hs : ∀ c ∈ s, c < 256) (hl : s.getLast? ≠ some 48) (st : List Nat × Nat) :
    remove0x s st = copyInto st (keepX s) := by
  induction s using keepX.induct generalizing st with
  | case1 => rfl
  | case2 c =>
    rename_i hc
    have : c ≠ 48 := by simpa using hl
    rw [remove0x, if_neg this, isxdigit_eq (hs c (by simp)), keepX, if_pos hc]
    simp only [Outcome.bind_ok, hc, decide_true, Bool.not_true]
    rw [copyInto]
    cases h : writeOne st c <;> simp [copyInto, h]
  | case3 c =>
    rename_i hc
    have : c ≠ 48 := by simpa using hl
    rw [remove0x, if_neg this, isxdigit_eq (hs c (by simp)), keepX, if_neg hc]
    simp [hc, copyInto]
  | case4 c c' rest h ih =>
    rw [remove0x, if_pos h, keepX, if_pos h]
    exact ih (fun d hd => hs d (by simp [hd]))
      (by cases rest with
          | nil => simp
          | cons a r => simpa [List.getLast?_cons_cons] using hl) st
  | case5 c c' rest h hc ih =>
    rw [remove0x, if_neg h, keepX, if_neg h, if_pos hc, isxdigit_eq (hs c (by simp)), copyInto]
    simp only [Outcome.bind_ok, hc, decide_true, Bool.not_true]
    have := fun st => ih (fun d hd => hs d (by simp at hd ⊢; tauto)) (by simpa [List.getLast?_cons_cons] using hl) st
    simp only [this]
    simp
  | case6 c c' rest h hc ih =>
    rw [remove0x, if_neg h, keepX, if_neg h, if_neg hc, isxdigit_eq (hs c (by simp))]
    simp only [Outcome.bind_ok, hc, decide_false, Bool.not_false, if_true]
    exact ih (fun d hd => hs d (by simp at hd ⊢; tauto)) (by simpa [List.getLast?_cons_cons] using hl) st

theorem writeOne_cases (st : List Nat × Nat) (c : Nat) : (∃ st', writeOne st c = .ok st') ∨ writeOne st c = .ub := by
  rw [writeOne]; split
  · exact .inl ⟨_, rfl⟩
  · exact .inr rfl

theorem remove0x_ub (s : List Nat) (hl : s.getLast? = some 48) (st : List Nat × Nat) :
    remove0x s st = .ub := by
  induction s using keepX.induct generalizing st with
  | case1 => simp at hl
  | case2 c =>
    have : c = 48 := by simpa using hl
    rw [remove0x, if_pos this]
  | case3 c =>
    have : c = 48 := by simpa using hl
    rw [remove0x, if_pos this]
  | case4 c c' rest h ih =>
    rw [remove0x, if_pos h]
    refine ih ?_ st
    cases rest with
    | nil => simp [h.2] at hl
    | cons a r => simpa [List.getLast?_cons_cons] using hl
  | case5 c c' rest h hc ih =>
    rw [remove0x, if_neg h]
    have ih' := fun st => ih (by simpa [List.getLast?_cons_cons] using hl) st
    rw [isxdigit]; split
    · simp only [Outcome.bind_ok, ih']
      split
      · rfl
      · rcases writeOne_cases st c with ⟨st', h⟩ | h <;> simp [h]
    · rfl
  | case6 c c' rest h hc ih =>
    rw [remove0x, if_neg h]
    have ih' := fun st => ih (by simpa [List.getLast?_cons_cons] using hl) st
    rw [isxdigit]; split
    · simp only [Outcome.bind_ok, ih']
      split
      · rfl
      · rcases writeOne_cases st c with ⟨st', h⟩ | h <;> simp [h]
    · rfl

theorem keepX_hex (s : List Nat) : ∀ c ∈ keepX s, IsHexDigit c := by
  induction s using keepX.induct with
  | case5 c c' rest h hc ih => rw [keepX, if_neg h, if_pos hc]; simpa [hc] using ih
  | case6 c c' rest h hc ih => rw [keepX, if_neg h, if_neg hc]; exact ih
  | _ => simp_all [keepX]

theorem keepX_sublist (s : List Nat) : (keepX s).Sublist (hexOnly s) := by
  induction s using keepX.induct with
  | case1 => exact List.Sublist.refl _
  | case2 c h => simp [keepX, hexOnly, h]
  | case3 c h => simp [keepX, hexOnly, h]
  | case4 c c' rest h ih =>
    rw [keepX, if_pos h]
    obtain ⟨h1, h2⟩ := h
    subst h1; subst h2
    have : hexOnly (48 :: 120 :: rest) = 48 :: hexOnly rest := by
      simp [hexOnly, IsHexDigit]
    rw [this]
    exact ih.cons _
  | case5 c c' rest h hc ih =>
    rw [keepX, if_neg h, if_pos hc]
    have : hexOnly (c :: c' :: rest) = c :: hexOnly (c' :: rest) := by simp [hexOnly, hc]
    rw [this]
    exact ih.cons_cons _
  | case6 c c' rest h hc ih =>
    rw [keepX, if_neg h, if_neg hc]
    have : hexOnly (c :: c' :: rest) = hexOnly (c' :: rest) := by simp [hexOnly, hc]
    rw [this]
    exact ih

theorem copyInto_fits (ds : List Nat) (h : ds.length ≤ 32) :
    copyInto (List.replicate 32 0, 0) ds = .ok (ds ++ List.replicate (32 - ds.length) 0, ds.length) := by
  have := copyInto_spec ([] : List Nat) (List.replicate 32 0) ds (by simpa using h)
  rw [List.nil_append, List.nil_append, List.drop_replicate, List.length_nil, Nat.zero_add] at this
  exact this

theorem copyInto_overrun (ds : List Nat) : ∀ st : List Nat × Nat, st.2 ≤ st.1.length →
    st.1.length < st.2 + ds.length → copyInto st ds = .ub := by
  induction ds with
  | nil => intro st h1 h2; simp at h2; omega
  | cons d ds ih =>
    intro st h1 h2
    rw [copyInto, writeOne]
    split
    · simp only [Outcome.bind_ok]
      apply ih
      · simp; omega
      · simp at h2 ⊢; omega
    · rfl

theorem usedLength_eq (ds : List Nat) (k : Nat) (h : ∀ c ∈ ds, IsHexDigit c) :
    usedLength (ds ++ List.replicate k 0) = ds.length := by
  rw [usedLength, List.reverse_append, List.reverse_replicate]
  rw [List.dropWhile_append_of_pos (by simp)]
  have : ds.reverse.dropWhile (fun x => decide (x = 0)) = ds.reverse := by
    cases hd : ds.reverse with
    | nil => rfl
    | cons a r =>
      have ha : a ∈ ds := by rw [← List.mem_reverse, hd]; simp
      rw [List.dropWhile_cons_of_neg]
      simpa using isHex_ne_zero (h a ha)
  rw [this, List.length_reverse]

/-! ## Digits to UUID -/

theorem unsafeUnhexlifyN_denote_append {s bs : List Nat} (h : denote s = some bs) (rest : List Nat) :
    unsafeUnhexlifyN bs.length (s ++ rest) = .ok bs := by
  induction s using denote.induct generalizing bs with
  | case1 => simp [denote] at h; subst h; rfl
  | case2 => simp [denote] at h
  | case3 c1 c2 r x l t e3 e2 e1 ih =>
    rw [denote, e1, e2, e3] at h
    simp at h
    subst h
    have := unsafeUnhexlifyN_denote (s := [c1, c2]) (bs := [16 * x + l]) (by simp [denote, e1, e2])
    have h1 : unsafeFromHexChars 1 [c1, c2] = .ok [16 * x + l] :=
      unsafeFromHexChars_denote (s := [c1, c2]) (bs := [16 * x + l]) (by simp [denote, e1, e2])
    rw [List.length_cons, List.cons_append, List.cons_append, unsafeUnhexlifyN, h1]
    simp [ih e3]
  | case4 c1 c2 r hn ih =>
    exfalso
    rw [denote] at h
    split at h
    · rename_i a b c ha hb hc; exact hn a b c ha hb hc
    · simp at h

theorem foldl_hex (s : List Nat) (acc : Nat) :
    s.foldl (fun acc c => 16 * acc + (hexVal c).getD 0) acc = 16 ^ s.length * acc + hexNumber s := by
  induction s generalizing acc with
  | nil => simp [hexNumber]
  | cons c s ih =>
    rw [hexNumber, List.foldl_cons, List.foldl_cons, ih, ih (16 * 0 + _), List.length_cons, pow_succ]
    ring

theorem hexNumber_append (s t : List Nat) : hexNumber (s ++ t) = 16 ^ t.length * hexNumber s + hexNumber t := by
  rw [hexNumber, List.foldl_append, foldl_hex]; rfl

theorem leValue_append (a b : List Nat) : leValue (a ++ b) = leValue a + 256 ^ a.length * leValue b := by
  induction a with
  | nil => simp [leValue]
  | cons x a ih => simp [leValue, ih, pow_succ]; ring

theorem hexNumber_denote {s bs : List Nat} (h : denote s = some bs) : hexNumber s = beValue bs := by
  induction s using denote.induct generalizing bs with
  | case1 => simp [denote] at h; subst h; rfl
  | case2 => simp [denote] at h
  | case3 c1 c2 r x l t e3 e2 e1 ih =>
    have hl := denote_length e3
    rw [denote, e1, e2, e3] at h
    simp at h
    subst h
    have : hexNumber (c1 :: c2 :: r) = 16 ^ r.length * hexNumber [c1, c2] + hexNumber r :=
      hexNumber_append [c1, c2] r
    rw [this, ih e3, beValue, beValue, List.reverse_cons, leValue_append, hl, List.length_reverse]
    simp [hexNumber, e1, e2, leValue, pow_mul]
    ring
  | case4 c1 c2 r hn ih =>
    exfalso
    rw [denote] at h
    split at h
    · rename_i a b c ha hb hc; exact hn a b c ha hb hc
    · simp at h

theorem denote_take_drop {s bs : List Nat} (h : denote s = some bs) (k : Nat) :
    denote (s.take (2 * k)) = some (bs.take k) ∧ denote (s.drop (2 * k)) = some (bs.drop k) := by
  induction k generalizing s bs with
  | zero => simpa [denote] using h
  | succ k ih =>
    match s, h with
    | [], h => simp [denote] at h; subst h; simp [denote]
    | [_], h => simp [denote] at h
    | c1 :: c2 :: r, h =>
      rw [denote] at h
      split at h
      · rename_i x l t e1 e2 e3
        simp at h
        subst h
        obtain ⟨h1, h2⟩ := ih e3
        have : 2 * (k + 1) = 2 * k + 1 + 1 := by omega
        rw [this]
        refine ⟨?_, by simpa using h2⟩
        simp only [List.take_succ_cons, denote, e1, e2, h1]
      · simp at h

theorem formatAsUuidData_eq {ds bs : List Nat} (h : denote ds = some bs) (hl : bs.length = 16) :
    formatAsUuidData bs = ofDigits ds := by
  have hb := denote_lt h
  have key : ∀ a k, ((bs.drop a).take k).reverse.length = k →
      leBytes k (hexNumber ((ds.drop (2 * a)).take (2 * k))) = ((bs.drop a).take k).reverse := by
    intro a k hk
    have h1 := (denote_take_drop (denote_take_drop h a).2 k).1
    rw [hexNumber_denote h1, beValue]
    have h2 := leBytes_leValue ((bs.drop a).take k).reverse (fun b hbm =>
      hb b (List.mem_of_mem_drop (List.mem_of_mem_take (List.mem_reverse.1 hbm))))
    rw [hk] at h2
    exact h2
  have k1 := key 0 4 (by simp [hl])
  have k2 := key 4 2 (by simp [hl])
  have k3 := key 6 2 (by simp [hl])
  simp only [Nat.mul_zero, List.drop_zero, Nat.reduceMul] at k1 k2 k3
  rw [formatAsUuidData, ofDigits, k1, k2, k3]
  congr 1
  apply List.ext_getElem
  · simp [hl]
  · intro i h1 h2
    have hi : i < 8 := by simpa using h2
    rw [List.getElem_map, List.getElem_range, List.getElem_drop]
    have h3 := (denote_take_drop (denote_take_drop h (8 + i)).2 1).1
    have h4 := hexNumber_denote h3
    have e : 2 * (8 + i) = 16 + 2 * i := by omega
    rw [e] at h4
    have h5 : (bs.drop (8 + i)).take 1 = [bs[8 + i]] := by
      rw [List.drop_eq_getElem_cons (by omega)]; rfl
    rw [h5] at h4
    rw [h4]
    simp [beValue, leValue]

theorem usedChars_ofCStr (ds behind : List Nat) (h : ∀ c ∈ ds, IsHexDigit c) (hz : 0 ∈ behind) :
    ofCStr (ds ++ behind) = .ok (ds ++ behind.takeWhile (· ≠ 0)) := by
  rw [ofCStr, if_pos (by simp [hz])]
  congr 1
  rw [List.takeWhile_append_of_pos]
  intro c hc
  simpa using isHex_ne_zero (h c hc)

theorem unsafeFromString_eq (ds behind : List Nat) (h : ∀ c ∈ ds, IsHexDigit c) (hl : ds.length = 32)
    (hz : 0 ∈ behind) : unsafeFromString ds behind = .ok (ofDigits ds) := by
  obtain ⟨bs, hbs⟩ := (denote_isSome_iff ds).2 ⟨by omega, h⟩
  have hbl : bs.length = 16 := by have := denote_length hbs; omega
  have hun := unsafeUnhexlifyN_denote_append hbs (behind.takeWhile (· ≠ 0))
  rw [hbl] at hun
  rw [unsafeFromString, usedChars_ofCStr ds behind h hz]
  simp only [Outcome.bind_ok]
  rw [hun]
  simp [formatAsUuidData_eq hbs hbl]

theorem unsafeFromString_ub (ds behind : List Nat) (h : ∀ c ∈ ds, IsHexDigit c) (hz : 0 ∉ behind) :
    unsafeFromString ds behind = .ub := by
  have : 0 ∉ ds ++ behind := by
    rw [List.mem_append]; rintro (h0 | h0)
    · exact isHex_ne_zero (h 0 h0) rfl
    · exact hz h0
  rw [unsafeFromString, ofCStr, if_neg this]; rfl

end Wite.Uuid
