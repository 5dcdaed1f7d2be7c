import Verif.Props.Uuid
import Verif.Model.UuidMore
import Mathlib.Data.Fintype.Card

/-!
# C118 - C120: make_uuid, UUIDs at an address, GUID structures
-/

namespace Wite.Props

open Wite.Io Wite.Spec Wite.Spec.Uuid Wite.Uuid Wite.Hex

/-! ## C118: make_uuid -/

/-- A version-4 UUID by the bits the library sets: 4 in the upper half of byte 6 of the object, 2 in the upper two bits
of byte 8 (in the text the 4 is not where RFC 4122 wants it, see C25). -/
def IsV4 (u : List Nat) : Prop :=
  IsUuid u ∧ (∀ x, u[6]? = some x → x / 16 = 4) ∧ (∀ x, u[8]? = some x → x / 64 = 2)

/-- C118 is false: whatever the engine, there is a version-4 UUID that no thread can get from its first call, because
the engine is seeded with 32 bits. -/
theorem c118_refuted_reachable {σ : Type} (host : Endian) (E : Engine σ) :
    ∃ u, IsV4 u ∧ ∀ device, (makeUuid host E device none).1 ≠ .ok u := by
  by_contra hc
  push Not at hc
  let u : Nat → List Nat := fun k => leBytes 6 k ++ [0x40, 0, 0x80, 0, 0, 0, 0, 0, 0, 0]
  have hu : ∀ k, IsV4 (u k) := by
    intro k
    have hl := leBytes_length 6 k
    refine ⟨⟨by simp [u, hl], fun b hb => ?_⟩, fun x hx => ?_, fun x hx => ?_⟩
    · rcases List.mem_append.1 hb with hb | hb
      · exact leBytes_lt _ _ b hb
      · simp only [List.mem_cons, List.not_mem_nil, or_false] at hb; omega
    · rw [List.getElem?_append_right (by omega), hl] at hx
      simp at hx; omega
    · rw [List.getElem?_append_right (by omega), hl] at hx
      simp at hx; omega
  choose! f hf using hc
  have inj : Function.Injective (fun k : Fin (2 ^ 32 + 1) => (⟨f (u k) % 2 ^ 32, Nat.mod_lt _ (by decide)⟩ : Fin (2 ^ 32))) := by
    intro a b hab
    have hab : f (u a) % 2 ^ 32 = f (u b) % 2 ^ 32 := by simpa using hab
    have ha := hf (u a) (hu a)
    have hb := hf (u b) (hu b)
    simp only [makeUuid] at ha hb
    rw [hab, hb] at ha
    have e : u b = u a := by injection ha
    have e : leBytes 6 b = leBytes 6 a := List.append_cancel_right e
    have := congrArg leValue e
    rw [leValue_leBytes _ _ (by omega), leValue_leBytes _ _ (by omega)] at this
    exact Fin.ext this.symm
  have := Fintype.card_le_of_injective _ inj
  rw [Fintype.card_fin, Fintype.card_fin] at this
  omega

/-- C118 is false of threads: two threads whose random devices return the same 32 bits once get the same UUIDs for
ever, whatever their devices would return later. -/
theorem c118_refuted_threads {σ : Type} (host : Endian) (E : Engine σ) (device device' : Nat → Nat)
    (h : device 0 % 2 ^ 32 = device' 0 % 2 ^ 32) (n : Nat) :
    makeMany host E device n none = makeMany host E device' n none := by
  have later : ∀ n (s : σ) (d d' : Nat → Nat), makeMany host E d n (some s) = makeMany host E d' n (some s) := by
    intro n
    induction n with
    | zero => intros; rfl
    | succ n ih => intro s d d'; simp only [makeMany, makeUuid]; rw [ih]
  cases n with
  | zero => rfl
  | succ n => simp only [makeMany, makeUuid, h]; rw [later]

/-- The draws of an engine from a state on. -/
def draws {σ : Type} (E : Engine σ) (s : σ) : Nat → Nat
  | 0 => (E.draw s).1
  | n + 1 => draws E (E.draw s).2 n

/-- C118, what holds: call `i` of a thread returns the UUID made of draws `2 i` and `2 i + 1` of its engine, so no draw
is used twice, and every result is a version-4 UUID. -/
theorem c118_partial {σ : Type} (host : Endian) (E : Engine σ) (device : Nat → Nat) (n : Nat) :
    (makeMany host E device n none).length = n ∧
    ∀ i < n, ∃ u, (makeMany host E device n none)[i]? = some u ∧ IsV4 u ∧
      u = ofRandom host (draws E (E.seed (device 0 % 2 ^ 32)) (2 * i)) (draws E (E.seed (device 0 % 2 ^ 32)) (2 * i + 1)) := by
  have v4 : ∀ r1 r2, IsV4 (ofRandom host r1 r2) := by
    intro r1 r2
    obtain ⟨h1, h2⟩ := c24_version_variant host r1 r2
    refine ⟨h1, fun x hx => ?_, fun x hx => ?_⟩
    · obtain ⟨y, _, e, _, h, _⟩ := h2 6 (by omega)
      rw [hx] at e; cases e; exact (h rfl).1
    · obtain ⟨y, _, e, _, _, h, _⟩ := h2 8 (by omega)
      rw [hx] at e; cases e; exact (h rfl).1
  have run : ∀ n (s : σ) (d : Nat → Nat), (makeMany host E d n (some s)).length = n ∧
      ∀ i < n, (makeMany host E d n (some s))[i]? = some (ofRandom host (draws E s (2 * i)) (draws E s (2 * i + 1))) := by
    intro n
    induction n with
    | zero => intro s d; simp [makeMany]
    | succ n ih =>
      intro s d
      obtain ⟨h1, h2⟩ := ih (E.draw (E.draw s).2).2 (fun k => d (k + 1))
      simp only [makeMany, makeUuid, ofEngine]
      refine ⟨by simp [h1], fun i hi => ?_⟩
      cases i with
      | zero => simp [draws]
      | succ i =>
        rw [List.getElem?_cons_succ, h2 i (by omega), show 2 * (i + 1) = 2 * i + 1 + 1 by omega]
        simp only [draws]
  have first : makeMany host E device n none = makeMany host E device n (some (E.seed (device 0 % 2 ^ 32))) := by
    cases n <;> rfl
  obtain ⟨h1, h2⟩ := run n (E.seed (device 0 % 2 ^ 32)) device
  rw [first]
  exact ⟨h1, fun i hi => ⟨_, h2 i hi, v4 _ _, rfl⟩⟩

/-- A small engine for examples. -/
def counter : Engine Nat := ⟨fun s => s, fun s => (s * 6364136223846793005 % 2 ^ 64, s + 1)⟩

example : makeMany .little counter (fun k => 5 + k) 2 none =
    [ofRandom .little (5 * 6364136223846793005 % 2 ^ 64) (6 * 6364136223846793005 % 2 ^ 64),
     ofRandom .little (7 * 6364136223846793005 % 2 ^ 64) (8 * 6364136223846793005 % 2 ^ 64)] := by decide +kernel

/-! ## C119: where a UUID may lie -/

/-- C119 is false: UUIDs have alignment 1, but hashing one, or making a random one, at an address that is not a multiple
of 8 is undefined. -/
theorem c119_refuted (host : Endian) (h : Nat → Nat) (addr : Nat) (ha : addr % 8 ≠ 0) (u : List Nat) (r1 r2 : Nat) :
    hashAt host h addr u = .ub ∧ ofRandomAt host addr r1 r2 = .ub := by
  constructor
  · rw [hashAt, atWord, if_neg ha]; rfl
  · rw [ofRandomAt, atWord, if_neg ha]; rfl

/-- C119, what holds: at multiples of 8 the results do not depend on the address. -/
theorem c119_partial (host : Endian) (h : Nat → Nat) (addr : Nat) (ha : addr % 8 = 0) (u : List Nat) (r1 r2 : Nat) :
    hashAt host h addr u = .ok (h (intValue host (u.take 8)) ^^^ h (intValue host (u.drop 8))) ∧
    ofRandomAt host addr r1 r2 = .ok (ofRandom host r1 r2) := by
  have hb : (addr + 8) % 8 = 0 := by omega
  constructor
  · rw [hashAt, atWord, atWord, if_pos ha, if_pos hb, numberOf_eq, numberOf_eq]; rfl
  · rw [ofRandomAt, atWord, atWord, if_pos ha, if_pos hb]; rfl

example : hashAt .little id 17 (List.replicate 16 1) = .ub ∧
    hashAt .little id 16 (1 :: List.replicate 15 0) = .ok 1 := by decide

/-! ## C120: GUID structures -/

/-- The members have values of their types. -/
def IsGuid (g : Guid) : Prop :=
  g.data1 < 2 ^ 32 ∧ g.data2 < 2 ^ 16 ∧ g.data3 < 2 ^ 16 ∧ g.data4.length = 8 ∧ ∀ b ∈ g.data4, b < 256

/-- C120 on every host: the numbers printed are those whose little-endian digits are the bytes of the members in
memory. -/
theorem c120_text (host : Endian) (g : Guid) (hg : IsGuid g) (l : Layout) (up : Bool) :
    g.str host (letter l up) = .ok (fieldText l up (leValue (intObject host 4 g.data1)) (leValue (intObject host 2 g.data2))
      (leValue (intObject host 2 g.data3)) g.data4) := by
  obtain ⟨h1, h2, h3, h4, h5⟩ := hg
  have len : ∀ k v, (intObject host k v).length = k := by
    intro k v; cases host <;> simp [intObject, beBytes, leBytes_length]
  have lt : ∀ k v, ∀ b ∈ intObject host k v, b < 256 := by
    intro k v b hb
    cases host with
    | little => exact leBytes_lt k v b hb
    | big => exact leBytes_lt k v b (by simpa [intObject, beBytes] using hb)
  have e : g.bytes host = intObject host 4 g.data1 ++ intObject host 2 g.data2 ++ intObject host 2 g.data3 ++ g.data4 := by
    simp [Guid.bytes, objectOf_eq]
  have l1 := len 4 g.data1
  have l2 := len 2 g.data2
  have l3 := len 2 g.data3
  have hu : IsUuid (g.bytes host) := by
    rw [e]
    refine ⟨by simp [l1, l2, l3, h4], fun b hb => ?_⟩
    simp only [List.mem_append] at hb
    rcases hb with ((hb | hb) | hb) | hb
    · exact lt _ _ b hb
    · exact lt _ _ b hb
    · exact lt _ _ b hb
    · exact h5 b hb
  have d1 : data1 (g.bytes host) = leValue (intObject host 4 g.data1) := by
    rw [e, data1, List.append_assoc, List.append_assoc, List.take_left' l1]
  have d2 : data2 (g.bytes host) = leValue (intObject host 2 g.data2) := by
    rw [e, data2, List.append_assoc, List.append_assoc, List.drop_left' l1, List.take_left' l2]
  have d3 : data3 (g.bytes host) = leValue (intObject host 2 g.data3) := by
    rw [e, data3, List.append_assoc, List.drop_left' (by simp [l1, l2]), List.take_left' l3]
  have d4 : data4 (g.bytes host) = g.data4 := by
    rw [e, data4, List.drop_left' (by simp [l1, l2, l3])]
  rw [Guid.str, str_eq host l up hu, text, d1, d2, d3, d4]

/-- C120, what holds: on a little-endian host a GUID structure is printed, in every format, as its members. -/
theorem c120_partial (g : Guid) (hg : IsGuid g) (l : Layout) (up : Bool) :
    g.str .little (letter l up) = .ok (fieldText l up g.data1 g.data2 g.data3 g.data4) := by
  rw [c120_text .little g hg l up]
  obtain ⟨h1, h2, h3, -, -⟩ := hg
  simp only [intObject]
  rw [leValue_leBytes _ _ (by omega), leValue_leBytes _ _ (by omega), leValue_leBytes _ _ (by omega)]

/-- C120 is false on a big-endian host: in every format the text is that of the members only if each of the three numbers
is the same with its bytes in the opposite order. -/
theorem c120_refuted (g : Guid) (hg : IsGuid g) (l : Layout) (up : Bool) :
    g.str .big (letter l up) = .ok (fieldText l up g.data1 g.data2 g.data3 g.data4) ↔
      beBytes 4 g.data1 = leBytes 4 g.data1 ∧ beBytes 2 g.data2 = leBytes 2 g.data2 ∧
      beBytes 2 g.data3 = leBytes 2 g.data3 := by
  have e : ∀ host, g.bytes host =
      intObject host 4 g.data1 ++ intObject host 2 g.data2 ++ intObject host 2 g.data3 ++ g.data4 := fun host => by
    simp [Guid.bytes, objectOf_eq]
  have len : ∀ host k v, (intObject host k v).length = k := by
    intro host k v; cases host <;> simp [intObject, beBytes, leBytes_length]
  have lt : ∀ host k v, ∀ b ∈ intObject host k v, b < 256 := by
    intro host k v b hb
    cases host with
    | little => exact leBytes_lt k v b hb
    | big => exact leBytes_lt k v b (by simpa [intObject, beBytes] using hb)
  have hu : ∀ host, IsUuid (g.bytes host) := fun host => by
    rw [e]
    refine ⟨by simp [len, hg.2.2.2.1], fun b hb => ?_⟩
    simp only [List.mem_append] at hb
    rcases hb with ((hb | hb) | hb) | hb
    · exact lt _ _ _ b hb
    · exact lt _ _ _ b hb
    · exact lt _ _ _ b hb
    · exact hg.2.2.2.2 b hb
  rw [← c120_partial g hg l up]
  have same : g.str .big (letter l up) = g.str .little (letter l up) ↔ g.bytes .big = g.bytes .little := by
    rw [Guid.str, Guid.str, str_eq .big l up (hu _), str_eq .little l up (hu _)]
    constructor
    · intro h
      apply c28_injective .big l up up _ _ (hu _) (hu _)
      rw [str_eq .big l up (hu _), str_eq .big l up (hu _)]
      exact h
    · intro h; rw [h]
  rw [same, e, e, List.append_left_inj]
  constructor
  · intro h
    obtain ⟨h, h3⟩ := List.append_inj h (by simp [len])
    obtain ⟨h1, h2⟩ := List.append_inj h (by simp [len])
    exact ⟨h1, h2, h3⟩
  · rintro ⟨h1, h2, h3⟩
    simp only [intObject]
    rw [h1, h2, h3]

example : (⟨0x11223344, 0x5566, 0x7788, [1, 2, 3, 4, 5, 6, 7, 8]⟩ : Guid).str .big 'D' =
      .ok (fieldText .D true 0x44332211 0x6655 0x8877 [1, 2, 3, 4, 5, 6, 7, 8]) ∧
    beBytes 4 0x11223344 ≠ leBytes 4 0x11223344 := by decide +kernel

example : IsGuid ⟨0x11223344, 0x5566, 0x7788, [1, 2, 3, 4, 5, 6, 7, 8]⟩ := by
  refine ⟨by decide, by decide, by decide, by decide, by decide⟩

end Wite.Props
