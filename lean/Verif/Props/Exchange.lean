import Verif.Props.Io
import Verif.Props.IoFile
import Verif.Props.Uuid

/-!
# C170: files exchanged between machines of different byte order
-/

namespace Wite.Props
open Wite Wite.Io Wite.Spec Wite.Spec.Uuid Wite.Hex

/-- What a user stores in a file: an unsigned integer of `n` bytes as it is, or wrapped in `io::little_endian` or
`io::big_endian`; or a UUID. -/
inductive Stored where
  | int (enc : Enc) (n v : Nat)
  | uuid (u : List Nat)

/-- The object in the memory of a machine. -/
def Stored.obj (host : Endian) : Stored → Obj
  | .int _ n v => intObject host n v
  | .uuid u => u

/-- How it is passed to `write`. -/
def Stored.enc : Stored → Enc
  | .int e _ _ => e
  | .uuid _ => .native

/-- Its size. -/
def Stored.size : Stored → Nat
  | .int _ n _ => n
  | .uuid _ => 16

/-- It is one. -/
def Stored.Valid : Stored → Prop
  | .int _ n v => v < 256 ^ n
  | .uuid u => IsUuid u

/-- Writing the items into a buffer of the right size and this buffer into a file. -/
def saveStored (host : Endian) (os : File.Os) (path : Nat) (items : List Stored) : St File.Fs PUnit := do
  let r := (write host (items.map fun i => .single i.enc (i.obj host))).run (List.replicate (items.map Stored.size).sum 0)
  let _ ← St.lift r.1
  File.write os path r.2

/-- Reading the file and from its bytes values of the types of the items. -/
def loadStored (host : Endian) (os : File.Os) (path : Nat) (items : List Stored) (fs : File.Fs) : Outcome (List Obj) := do
  let bytes ← File.read os path none fs
  read host (items.map fun i => ⟨i.size, i.enc⟩) bytes

/-- What the reading machine gets for an item. -/
def Stored.arrives (writer reader : Endian) : Stored → Obj
  | .int .native n v => intObject writer n v
  | .int _ n v => intObject reader n v
  | .uuid u => u

private theorem intObject_good (host : Endian) (n v : Nat) :
    (intObject host n v).length = n ∧ ∀ b ∈ intObject host n v, IsByte b := by
  have hl : ∀ n v, (leBytes n v).length = n := by
    intro n
    induction n with
    | zero => intro v; rfl
    | succ n ih => intro v; simp [leBytes, ih]
  have hb : ∀ n v, ∀ b ∈ leBytes n v, IsByte b := by
    intro n
    induction n with
    | zero => intro v b h; cases h
    | succ n ih =>
      intro v b h
      rw [leBytes, List.mem_cons] at h
      rcases h with rfl | h
      · exact Nat.mod_lt _ (by decide)
      · exact ih _ b h
  cases host with
  | little => exact ⟨hl n v, hb n v⟩
  | big => exact ⟨by simp [intObject, beBytes, hl], fun b h => hb n v b (by simpa [intObject, beBytes] using h)⟩

private theorem obj_good (host : Endian) (i : Stored) (hi : i.Valid) :
    (i.obj host).length = i.size ∧ ∀ b ∈ i.obj host, IsByte b := by
  cases i with
  | int e n v => exact intObject_good host n v
  | uuid u => exact ⟨hi.1, hi.2⟩

private theorem arrives_eq (h1 h2 : Endian) (i : Stored) (hi : i.Valid) :
    decode h2 i.enc (encode h1 i.enc (i.obj h1)) = i.arrives h1 h2 := by
  cases i with
  | uuid u => rfl
  | int e n v =>
    have hv : v < 256 ^ n := hi
    have hle := leValue_leBytes n v hv
    have hl : (leBytes n v).length = n := (intObject_good .little n v).1
    cases e <;> cases h1 <;>
      simp [Stored.enc, Stored.obj, Stored.arrives, encode, decode, intValue, intObject, beBytes, beValue, hle, hl]

/-- C170, exactly: whatever the two machines, a file written on one is read on the other without failure; numbers that
are wrapped arrive as the same numbers, UUIDs as the same bytes, and other numbers as the bytes they had in the memory
of the writer. -/
theorem c170_exact (writer reader : Endian) (os : File.Os) (path : Nat) (items : List Stored)
    (hv : ∀ i ∈ items, i.Valid) (fs : File.Fs) (hsz : (items.map Stored.size).sum < 2 ^ 64)
    (hos : CompleteOs os (items.map Stored.size).sum) :
    ∃ fs', (saveStored writer os path items).run fs = (.ok ⟨⟩, fs') ∧
      loadStored reader os path items fs' = .ok (items.map (Stored.arrives writer reader)) := by
  have hgood : ∀ v ∈ items.map (fun i => WVal.single i.enc (i.obj writer)), GoodVal v := by
    intro v h
    obtain ⟨i, hi, rfl⟩ := List.mem_map.1 h
    exact (obj_good writer i (hv i hi)).2
  have hsize : totalSize (items.map (fun i => WVal.single i.enc (i.obj writer))) = (items.map Stored.size).sum := by
    rw [totalSize, List.map_map]
    congr 1
    apply List.map_congr_left
    intro i hi
    exact (obj_good writer i (hv i hi)).1
  have htys : totalTySize (items.map fun i => (⟨i.size, i.enc⟩ : Ty)) = (items.map Stored.size).sum := by
    rw [totalTySize, List.map_map]
    rfl
  have hel := encodeAll_length (host := writer) hgood
  rw [hsize] at hel
  have hw := write_eq (host := writer) (buf := List.replicate (items.map Stored.size).sum 0) hgood (by omega)
  rw [if_neg (by simp [hsize])] at hw
  have hover : overwrite (List.replicate (items.map Stored.size).sum 0) 0
      (encodeAll writer (items.map fun i => WVal.single i.enc (i.obj writer))) =
      encodeAll writer (items.map fun i => WVal.single i.enc (i.obj writer)) := by
    rw [overwrite, hel]
    simp
  rw [hover] at hw
  obtain ⟨fs', w1, w2, w3, w4⟩ := c46_write_then_read os path
    (encodeAll writer (items.map fun i => WVal.single i.enc (i.obj writer))) fs (by rw [hel]; exact hos)
  refine ⟨fs', ?_, ?_⟩
  · rw [saveStored]
    simp only [hw]
    rw [St.run_bind_ok (s' := fs) (St.run_lift _ _)]
    exact w1
  · rw [loadStored, w2, Outcome.bind_ok,
      read_eq (fun b hb => encodeAll_isByte hgood b hb) (by omega), if_neg (by omega)]
    congr 1
    clear hw hover w1 w2 w3 w4 hel htys hsize hgood hsz hos
    induction items with
    | nil => rfl
    | cons i items ih =>
      have hg := obj_good writer i (hv i (by simp))
      have hl : (encode writer i.enc (i.obj writer)).length = i.size := by rw [encode_length hg.2, hg.1]
      have he : encodeAll writer ((i :: items).map fun i => WVal.single i.enc (i.obj writer)) =
          encode writer i.enc (i.obj writer) ++ encodeAll writer (items.map fun i => WVal.single i.enc (i.obj writer)) := by
        simp [encodeAll, encodeVal]
      rw [he, List.map_cons, decodeSeq, List.map_cons]
      simp only
      rw [List.take_left' hl, List.drop_left' hl, ih (fun j hj => hv j (by simp [hj])),
        arrives_eq writer reader i (hv i (by simp))]

/-- C170: if all numbers are wrapped, every item arrives as the object it is on the reading machine. -/
theorem c170_wrapped (writer reader : Endian) (os : File.Os) (path : Nat) (items : List Stored)
    (hv : ∀ i ∈ items, i.Valid) (hw : ∀ n v, Stored.int .native n v ∉ items) (fs : File.Fs)
    (hsz : (items.map Stored.size).sum < 2 ^ 64) (hos : CompleteOs os (items.map Stored.size).sum) :
    ∃ fs', (saveStored writer os path items).run fs = (.ok ⟨⟩, fs') ∧
      loadStored reader os path items fs' = .ok (items.map (Stored.obj reader)) := by
  obtain ⟨fs', h1, h2⟩ := c170_exact writer reader os path items hv fs hsz hos
  refine ⟨fs', h1, ?_⟩
  rw [h2]
  congr 1
  apply List.map_congr_left
  intro i hi
  cases i with
  | uuid u => rfl
  | int e n v =>
    cases e with
    | native => exact absurd hi (hw n v)
    | littleEndian => rfl
    | bigEndian => rfl

/-- C170: a number that is not wrapped arrives as another number exactly if the machines differ and its bytes read
differently backwards. -/
theorem c170_unwrapped (writer reader : Endian) (n v : Nat) (hv : v < 256 ^ n) :
    intValue reader ((Stored.int .native n v).arrives writer reader) = v ↔
      writer = reader ∨ (leBytes n v).reverse = leBytes n v := by
  have hle := leValue_leBytes n v hv
  have hl : (leBytes n v).length = n := (intObject_good .little n v).1
  have hinj : leValue (leBytes n v).reverse = v ↔ (leBytes n v).reverse = leBytes n v := by
    constructor
    · intro h
      have h2 := leBytes_leValue (leBytes n v).reverse
        (fun b hb => (intObject_good .little n v).2 b (List.mem_reverse.1 hb))
      rw [h, List.length_reverse, hl] at h2
      exact h2.symm
    · intro h
      rw [h, hle]
  cases writer <;> cases reader <;>
    simp [Stored.arrives, intObject, intValue, beBytes, beValue, hle, hinj]

/-- C170: a UUID that arrived is printed the same on both machines, in all ten formats. -/
theorem c170_uuid_text (writer reader : Endian) (u : List Nat) (hu : IsUuid u) (l : Layout) (up : Bool) :
    Uuid.str reader ((Stored.uuid u).arrives writer reader) (letter l up) = Uuid.str writer u (letter l up) := by
  rw [Uuid.str_eq writer l up hu]
  exact Uuid.str_eq reader l up hu

example : ∃ fs', (saveStored .little ⟨true, true, 99, 99⟩ 3 [.int .bigEndian 4 7, .int .native 2 1, .uuid (List.range 16)]).run
      (fun _ => none) = (.ok ⟨⟩, fs') ∧
    loadStored .big ⟨true, true, 99, 99⟩ 3 [.int .bigEndian 4 7, .int .native 2 1, .uuid (List.range 16)] fs' =
      .ok [[0, 0, 0, 7], [1, 0], List.range 16] :=
  c170_exact .little .big ⟨true, true, 99, 99⟩ 3 _
    (by
      intro i hi
      simp only [List.mem_cons, List.not_mem_nil, or_false] at hi
      rcases hi with rfl | rfl | rfl
      · show 7 < 256 ^ 4; decide
      · show 1 < 256 ^ 2; decide
      · exact ⟨by decide, by decide⟩)
    _ (by decide) ⟨rfl, rfl, by decide, by decide⟩

end Wite.Props
