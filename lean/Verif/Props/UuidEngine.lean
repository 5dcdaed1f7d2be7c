import Verif.Model.UuidEngine
import Verif.Props.UuidMore
import Verif.Lemmas.IoLayout
import Mathlib.SetTheory.Cardinal.Finite
import Mathlib.Algebra.BigOperators.Fin
import Mathlib.Logic.Equiv.Fin.Basic
import Mathlib.Data.Fintype.Pigeonhole
import Mathlib.Data.Set.Card

/-!
# Property C214: UUIDs made with a random engine
-/

namespace Wite.Props

open Wite.Io Wite.Spec Wite.Spec.Uuid Wite.Uuid Wite.Hex Wite.Layouts

/-- `k` results of an engine of `w` bits. -/
abbrev Draws (w k : Nat) : Type := Fin k → Fin (2 ^ w)

/-- The number whose digits to the base `2 ^ w` they are, the first the most significant. -/
def numberOfDraws {w k : Nat} (d : Draws w k) : Nat := ∑ j, (d j : Nat) * (2 ^ w) ^ (k - 1 - (j : Nat))

/-- The UUID of two such numbers. -/
def uuidOfDraws (host : Endian) {w k : Nat} (d : Draws w k × Draws w k) : List Nat :=
  ofRandom host (numberOfDraws d.1) (numberOfDraws d.2)

private theorem number_eq {w k : Nat} (d : Draws w k) :
    numberOfDraws d = (finFunctionFinEquiv (fun j => d (Fin.rev j)) : Fin ((2 ^ w) ^ k)).1 := by
  rw [finFunctionFinEquiv_apply, numberOfDraws, ← Equiv.sum_comp Fin.revPerm]
  refine Finset.sum_congr rfl (fun j _ => ?_)
  simp only [Fin.revPerm_apply]
  congr 2
  rw [Fin.val_rev]
  omega

private def drawsEquiv (w k : Nat) : Draws w k ≃ Fin ((2 ^ w) ^ k) :=
  (Equiv.arrowCongr Fin.revPerm (Equiv.refl _)).trans finFunctionFinEquiv

private theorem drawsEquiv_apply {w k : Nat} (d : Draws w k) : (drawsEquiv w k d).1 = numberOfDraws d := by
  rw [number_eq]
  rfl

private theorem modify_set {l : List Nat} {i : Nat} (hi : i < l.length) (f : Nat → Nat) : (l.modify i f).set i l[i] = l := by
  apply List.ext_getElem
  · simp
  · intro j h1 h2
    rw [List.getElem_set]
    split
    · rename_i h; subst h; rfl
    · rename_i h; simp [h]

private theorem set_modify {l : List Nat} {i : Nat} (hi : i < l.length) (v : Nat) (f : Nat → Nat) (h : f v = l[i]) :
    (l.set i v).modify i f = l := by
  apply List.ext_getElem
  · simp
  · intro j h1 h2
    rw [List.getElem_modify]
    split
    · rename_i e; subst e; simp [h]
    · rename_i e; simp [e]

private theorem card_half (host : Endian) (M : Nat) (hM : M = 256 ^ 8) (i : Nat) (hi : i < 8) (f : Nat → Nat) (bs : List Nat) (hl : bs.length = 8)
    (hb : ∀ b ∈ bs, IsByte b) :
    Nat.card {r : Fin M // (intObject host 8 r).modify i f = bs} = Nat.card {v : Fin 256 // f v = bs[i]} := by
  have len : ∀ r, i < (intObject host 8 r).length := fun r => by rw [intObject_length]; exact hi
  have hset : ∀ v : Fin 256, ∀ b ∈ bs.set i v, IsByte b := by
    intro v b h
    rcases List.mem_or_eq_of_mem_set h with h | h
    · exact hb b h
    · rw [h]; exact v.2
  have hval : ∀ v : Fin 256, intObject host 8 (intValue host (bs.set i v)) = bs.set i v := by
    intro v
    have := intObject_intValue (host := host) (hset v)
    rwa [List.length_set, hl] at this
  apply Nat.card_congr
  refine ⟨fun r => ⟨⟨(intObject host 8 r.1)[i]'(len _), intObject_byte host 8 r.1 _ (List.getElem_mem _)⟩, ?_⟩,
    fun v => ⟨⟨intValue host (bs.set i v.1), ?_⟩, ?_⟩, ?_, ?_⟩
  · have h := r.2
    have : ((intObject host 8 r.1).modify i f)[i]'(by simpa using len _) = bs[i] := by simp only [h]
    simpa [List.getElem_modify] using this
  · have := intValue_lt (host := host) (hset v.1)
    rw [List.length_set] at this
    exact lt_of_lt_of_eq this (by rw [hM, hl])
  · simp only [hval]
    exact set_modify (by omega) _ _ v.2
  · rintro ⟨r, hr⟩
    apply Subtype.ext
    apply Fin.ext
    simp only
    have : bs.set i ((intObject host 8 r)[i]'(len _)) = intObject host 8 r := by
      rw [← hr]; exact modify_set (len _) f
    rw [this, intValue_intObject]
    have := r.2
    omega
  · rintro ⟨v, hv⟩
    apply Subtype.ext
    apply Fin.ext
    simp [hval]

private theorem card_version (x : Nat) (h : x / 16 = 4) : Nat.card {v : Fin 256 // ((v.1 &&& 0x0F) ||| 0x40) = x} = 16 := by
  have hx : x < 256 := by omega
  have key : ∀ x : Fin 256, x.1 / 16 = 4 → Fintype.card {v : Fin 256 // ((v.1 &&& 0x0F) ||| 0x40) = x.1} = 16 := by decide +kernel
  rw [Nat.card_eq_fintype_card]
  exact key ⟨x, hx⟩ h

private theorem card_variant (x : Nat) (h : x / 64 = 2) : Nat.card {v : Fin 256 // ((v.1 &&& 0x3F) ||| 0x80) = x} = 4 := by
  have hx : x < 256 := by omega
  have key : ∀ x : Fin 256, x.1 / 64 = 2 → Fintype.card {v : Fin 256 // ((v.1 &&& 0x3F) ||| 0x80) = x.1} = 4 := by decide +kernel
  rw [Nat.card_eq_fintype_card]
  exact key ⟨x, hx⟩ h

private theorem card_numbers (host : Endian) (M : Nat) (hM : M = 256 ^ 8) (u : List Nat) (hu : IsV4 u) :
    Nat.card {p : Fin M × Fin M // ofRandom host p.1 p.2 = u} = 64 := by
  obtain ⟨⟨hl, hb⟩, h6, h8⟩ := hu
  have e : ∀ p : Fin M × Fin M, ofRandom host p.1 p.2 = u ↔
      (intObject host 8 p.1).modify 6 (fun v => (v &&& 0x0F) ||| 0x40) = u.take 8 ∧
      (intObject host 8 p.2).modify 0 (fun v => (v &&& 0x3F) ||| 0x80) = u.drop 8 := by
    intro p
    rw [ofRandom]
    simp only [objectOf_eq]
    constructor
    · intro h
      rw [← h]
      rw [List.take_left' (by simp [intObject_length]), List.drop_left' (by simp [intObject_length])]
      exact ⟨rfl, rfl⟩
    · rintro ⟨h1, h2⟩
      rw [h1, h2, List.take_append_drop]
  rw [Nat.card_congr (Equiv.subtypeEquivRight e), Nat.card_congr (Equiv.subtypeProdEquivProd
      (p := fun r : Fin M => (intObject host 8 r).modify 6 (fun v => (v &&& 0x0F) ||| 0x40) = u.take 8)
      (q := fun r : Fin M => (intObject host 8 r).modify 0 (fun v => (v &&& 0x3F) ||| 0x80) = u.drop 8)), Nat.card_prod,
    card_half host M hM 6 (by decide) _ (u.take 8) (by simp [hl]) (fun b h => hb b (List.mem_of_mem_take h)),
    card_half host M hM 0 (by decide) _ (u.drop 8) (by simp [hl]) (fun b h => hb b (List.mem_of_mem_drop h))]
  have e6 : (u.take 8)[6]'(by simp [hl]) = u[6]'(by omega) := by simp
  have e8 : (u.drop 8)[0]'(by simp [hl]) = u[8]'(by omega) := by simp
  rw [e6, e8, card_version _ (h6 _ (List.getElem?_eq_getElem _)), card_variant _ (h8 _ (List.getElem?_eq_getElem _))]

/-- C214: with an engine of `w` bits, every version-4 UUID is made by equally many of all possible results of the engine: by 64 of the
`2 ^ 128`. -/
theorem c214_uniform (host : Endian) (w k : Nat) (h : w * k = 64) (u : List Nat) (hu : IsV4 u) :
    Nat.card {d : Draws w k × Draws w k // uuidOfDraws host d = u} = 64 ∧ Nat.card (Draws w k × Draws w k) = 2 ^ 128 := by
  have hM : (2 ^ w) ^ k = 256 ^ 8 := by rw [← Nat.pow_mul, h]; norm_num
  constructor
  · rw [← card_numbers host _ hM u hu]
    refine Nat.card_congr (Equiv.subtypeEquiv (Equiv.prodCongr (drawsEquiv w k) (drawsEquiv w k)) (fun d => ?_))
    rw [uuidOfDraws, ← drawsEquiv_apply, ← drawsEquiv_apply]
    rfl
  · rw [Nat.card_prod, Nat.card_congr (drawsEquiv w k), Nat.card_fin, hM]
    norm_num

example : numberOfDraws (w := 32) (k := 2) ![⟨1, by decide⟩, ⟨7, by decide⟩] = 2 ^ 32 + 7 := by
  simp [numberOfDraws, Fin.sum_univ_two]

example : Nat.card {d : Draws 32 2 × Draws 32 2 // uuidOfDraws .little d = [1, 2, 3, 4, 5, 6, 0x47, 8, 0x89, 10, 11, 12, 13, 14, 15, 16]} = 64 :=
  (c214_uniform .little 32 2 rfl _ ⟨⟨rfl, by decide⟩, by simp, by simp⟩).1

/-- C214: and so with every sequence of UUIDs: that one of them is known says nothing about the others. -/
theorem c214_sequences (host : Endian) (w k : Nat) (h : w * k = 64) (n : Nat) (us : Fin n → List Nat) (hu : ∀ i, IsV4 (us i)) :
    Nat.card {d : Fin n → Draws w k × Draws w k // ∀ i, uuidOfDraws host (d i) = us i} = 64 ^ n ∧
    Nat.card (Fin n → Draws w k × Draws w k) = 2 ^ (128 * n) := by
  have hM : (2 ^ w) ^ k = 256 ^ 8 := by rw [← Nat.pow_mul, h]; norm_num
  constructor
  · rw [Nat.card_congr (Equiv.subtypePiEquivPi (p := fun i (d : Draws w k × Draws w k) => uuidOfDraws host d = us i)), Nat.card_pi]
    simp only [fun i => (c214_uniform host w k h (us i) (hu i)).1, Finset.prod_const, Finset.card_univ, Fintype.card_fin]
  · rw [Nat.card_pi]
    simp only [Nat.card_prod, Nat.card_congr (drawsEquiv w k), Nat.card_fin, hM, Finset.prod_const, Finset.card_univ, Fintype.card_fin]
    rw [Nat.pow_mul]
    norm_num

private theorem isV4_ofRandom (host : Endian) (r1 r2 : Nat) : IsV4 (ofRandom host r1 r2) := by
  obtain ⟨h1, h2⟩ := c24_version_variant host r1 r2
  refine ⟨h1, fun x hx => ?_, fun x hx => ?_⟩
  · obtain ⟨y, _, e, _, h, _⟩ := h2 6 (by omega)
    rw [hx] at e; cases e; exact (h rfl).1
  · obtain ⟨y, _, e, _, _, h, _⟩ := h2 8 (by omega)
    rw [hx] at e; cases e; exact (h rfl).1

/-- C214: two UUIDs are the same for one in `2 ^ 122` of all possible results of the engine. -/
theorem c214_same (host : Endian) (w k : Nat) (h : w * k = 64) :
    Nat.card {d : (Draws w k × Draws w k) × (Draws w k × Draws w k) // uuidOfDraws host d.2 = uuidOfDraws host d.1} * 2 ^ 122 =
      Nat.card ((Draws w k × Draws w k) × (Draws w k × Draws w k)) := by
  have hM : (2 ^ w) ^ k = 256 ^ 8 := by rw [← Nat.pow_mul, h]; norm_num
  have hc : Nat.card (Draws w k × Draws w k) = 2 ^ 128 := by
    rw [Nat.card_prod, Nat.card_congr (drawsEquiv w k), Nat.card_fin, hM]
    norm_num
  rw [Nat.card_prod, hc, Nat.card_congr (Equiv.subtypeProdEquivSigmaSubtype
    (fun a b : Draws w k × Draws w k => uuidOfDraws host b = uuidOfDraws host a)), Nat.card_sigma]
  simp only [fun a => (c214_uniform host w k h (uuidOfDraws host a) (isV4_ofRandom host _ _)).1, Finset.sum_const, Finset.card_univ,
    smul_eq_mul, ← Nat.card_eq_fintype_card]
  rw [hc]
  norm_num

example : Nat.card {d : (Draws 16 4 × Draws 16 4) × (Draws 16 4 × Draws 16 4) // uuidOfDraws .big d.2 = uuidOfDraws .big d.1} * 2 ^ 122 =
    Nat.card ((Draws 16 4 × Draws 16 4) × (Draws 16 4 × Draws 16 4)) := c214_same .big 16 4 rfl

private theorem draws_add {σ : Type} (E : Engine σ) (w : Nat) (k : Nat) (s : σ) (j : Nat) :
    draws E (wideDraw E w k s).2 j = draws E s (k + j) := by
  induction k generalizing j with
  | zero => simp [wideDraw]
  | succ k ih =>
    have : draws E (wideDraw E w (k + 1) s).2 j = draws E (wideDraw E w k s).2 (j + 1) := rfl
    rw [this, ih]
    congr 1
    omega

private theorem wideDraw_number {σ : Type} (E : Engine σ) (w : Nat) (k : Nat) (s : σ) :
    (wideDraw E w k s).1 = ∑ j : Fin k, draws E s j * (2 ^ w) ^ (k - 1 - (j : Nat)) := by
  induction k with
  | zero => simp [wideDraw]
  | succ k ih =>
    have e : (wideDraw E w (k + 1) s).1 = 2 ^ w * (wideDraw E w k s).1 + draws E (wideDraw E w k s).2 0 := rfl
    rw [e, draws_add, Fin.sum_univ_castSucc, ih, Finset.mul_sum]
    congr 1
    · refine Finset.sum_congr rfl (fun j _ => ?_)
      have hj := j.2
      have : k + 1 - 1 - (j.castSucc : Nat) = (k - 1 - (j : Nat)) + 1 := by simp; omega
      rw [this, Nat.pow_succ, Fin.val_castSucc]
      ac_rfl
    · simp

/-- C214: UUIDs made one after the other with an engine of `w` bits use its results from the first on, each once: UUID `i` is made of the
results from `2 k i` on. -/
theorem c214_draws {σ : Type} (host : Endian) (E : Engine σ) (w k : Nat) (h : w * k = 64) (hE : ∀ s, (E.draw s).1 < 2 ^ w) (n : Nat) (s : σ) :
    ∃ hd : ∀ i, draws E s i < 2 ^ w, manyOfEngine host E w n s = (List.range n).map (fun i =>
      uuidOfDraws host (fun j : Fin k => ⟨draws E s (2 * k * i + j), hd _⟩, fun j : Fin k => ⟨draws E s (2 * k * i + k + j), hd _⟩)) := by
  have hlt : ∀ i s, draws E s i < 2 ^ w := by
    intro i
    induction i with
    | zero => exact hE
    | succ i ih => exact fun s => ih _
  have hw : 0 < w := by rcases Nat.eq_zero_or_pos w with rfl | h' <;> omega
  have hk : 64 / w = k := by rw [← h, Nat.mul_div_cancel_left _ hw]
  have one : ∀ s, (ofUserEngine host E w s).1 =
      uuidOfDraws host (fun j : Fin k => ⟨draws E s j, hlt _ _⟩, fun j : Fin k => ⟨draws E s (k + j), hlt _ _⟩) := by
    intro s
    have e : (ofUserEngine host E w s).1 = ofRandom host (wideDraw E w k s).1 (wideDraw E w k (wideDraw E w k s).2).1 := by
      rw [ofUserEngine, hk]
    rw [e, uuidOfDraws, wideDraw_number, wideDraw_number]
    simp only [numberOfDraws, draws_add]
  have two : ∀ s j, draws E (ofUserEngine host E w s).2 j = draws E s (2 * k + j) := by
    intro s j
    have e : (ofUserEngine host E w s).2 = (wideDraw E w k (wideDraw E w k s).2).2 := by
      rw [ofUserEngine, hk]
    rw [e, draws_add, draws_add]
    congr 1
    omega
  refine ⟨fun i => hlt i s, ?_⟩
  induction n generalizing s with
  | zero => rfl
  | succ n ih =>
    rw [manyOfEngine, List.range_succ_eq_map, List.map_cons, List.map_map, one s, ih]
    congr 1
    · simp
    · refine List.map_congr_left (fun i _ => ?_)
      simp only [Function.comp, two]
      congr 2
      · funext j
        congr 2
        rw [Nat.mul_succ]; omega
      · funext j
        congr 2
        rw [Nat.mul_succ]; omega

/-- An engine that counts. -/
private def countingEngine : Engine Nat := ⟨fun s => s, fun s => (s % 2 ^ 32, s + 1)⟩

example : manyOfEngine .little countingEngine 32 2 5 =
    [[6, 0, 0, 0, 5, 0, 0x40, 0, 0x88, 0, 0, 0, 7, 0, 0, 0], [10, 0, 0, 0, 9, 0, 0x40, 0, 0x8C, 0, 0, 0, 11, 0, 0, 0]] := by decide +kernel

/-- C214 is false of `make_uuid`: whatever the engine, of any `2 ^ 32 + 1` threads two get the same UUIDs for ever, because the engines are seeded
with 32 bits. -/
theorem c214_refuted_threads {σ : Type} (host : Endian) (E : Engine σ) (device : Fin (2 ^ 32 + 1) → Nat → Nat) :
    ∃ i j, i ≠ j ∧ ∀ n, makeMany host E (device i) n none = makeMany host E (device j) n none := by
  obtain ⟨i, j, hij, h⟩ := Fintype.exists_ne_map_eq_of_card_lt
    (fun i => (⟨device i 0 % 2 ^ 32, Nat.mod_lt _ (by decide)⟩ : Fin (2 ^ 32))) (by simp)
  exact ⟨i, j, hij, fun n => c118_refuted_threads host E _ _ (by simpa using h) n⟩

/-- C214 is false of `make_uuid`: the UUIDs that can come first in a thread are at most `2 ^ 32`, of the `2 ^ 122` there are. -/
theorem c214_refuted_first {σ : Type} (host : Endian) (E : Engine σ) :
    Set.ncard {u | ∃ device, (makeUuid host E device none).1 = .ok u} ≤ 2 ^ 32 ∧ Set.ncard {u | IsV4 u} = 2 ^ 122 := by
  constructor
  · have hsub : {u | ∃ device, (makeUuid host E device none).1 = .ok u} ⊆
        ↑(Finset.univ.image (fun d : Fin (2 ^ 32) => (ofEngine host E (E.seed d)).1)) := by
      rintro u ⟨d, hd⟩
      simp only [makeUuid, Outcome.ok.injEq] at hd
      simp only [Finset.coe_image, Finset.coe_univ, Set.image_univ, Set.mem_range]
      exact ⟨⟨d % 2 ^ 32, Nat.mod_lt _ (by decide)⟩, hd⟩
    refine (Set.ncard_le_ncard hsub (Finset.finite_toSet _)).trans ?_
    rw [Set.ncard_coe_finset]
    refine Finset.card_image_le.trans ?_
    simp
  · let f : Fin (256 ^ 8) × Fin (256 ^ 8) → {u // IsV4 u} := fun p => ⟨ofRandom host p.1 p.2, isV4_ofRandom host _ _⟩
    have hf : ∀ u, Nat.card {p // f p = u} = 64 := by
      rintro ⟨u, hu⟩
      rw [← card_numbers host (256 ^ 8) rfl u hu]
      exact Nat.card_congr (Equiv.subtypeEquivRight (fun p => Subtype.ext_iff))
    have hs : Function.Surjective f := by
      intro u
      by_contra hn
      have : IsEmpty {p // f p = u} := ⟨fun p => hn ⟨p.1, p.2⟩⟩
      have h0 := hf u
      rw [Nat.card_of_isEmpty] at h0
      omega
    have := Finite.of_surjective f hs
    have := Fintype.ofFinite {u // IsV4 u}
    have h1 := Nat.card_congr (Equiv.sigmaFiberEquiv f)
    rw [Nat.card_sigma] at h1
    simp only [hf, Finset.sum_const, Finset.card_univ, smul_eq_mul, Nat.card_prod, Nat.card_fin, ← Nat.card_eq_fintype_card] at h1
    have h2 : Set.ncard {u | IsV4 u} = Nat.card {u // IsV4 u} := rfl
    rw [h2]
    have h3 : (256 ^ 8 * 256 ^ 8 : Nat) = 2 ^ 122 * 64 := by norm_num
    rw [h3] at h1
    exact Nat.eq_of_mul_eq_mul_right (by decide) h1

end Wite.Props
