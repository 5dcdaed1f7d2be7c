import Verif.Model.IoNested
import Verif.Lemmas.Io
import Verif.Lemmas.UuidPrint
import Verif.Props.EndianOverride

/-!
# C157: wrapped numbers in structs, arrays and streams
-/

namespace Wite.Props

open Wite.Io Wite.Spec Wite.Hex Wite.Uuid Wite.Override

/-- A number in the order of the machine, whatever it is wrapped in. -/
def unwrappedBytes (machine : Endian) (v : Num) : List Nat := intObject machine v.size v.value

/-- The bytes of a value if the wrappers keep their word wherever they stand. -/
def valAsSaid (machine : Endian) : Nested.Val → List Nat
  | .alone v => asSaid machine v
  | .inside vs => vs.flatMap (asSaid machine)

/-- The bytes of a value if only a number that stands alone is stored as its wrapper says. -/
def valOuter (machine : Endian) : Nested.Val → List Nat
  | .alone v => asSaid machine v
  | .inside vs => vs.flatMap (unwrappedBytes machine)

/-- The bytes of a value if no wrapper is heeded. -/
def valPlain (machine : Endian) : Nested.Val → List Nat
  | .alone v => unwrappedBytes machine v
  | .inside vs => vs.flatMap (unwrappedBytes machine)

/-- The size of a value. -/
def valSize : Nested.Val → Nat
  | .alone v => v.size
  | .inside vs => numsSize vs

/-- The type of a value. -/
def valType : Nested.Val → Nested.NTy
  | .alone v => .alone ⟨v.size, v.enc⟩
  | .inside vs => .inside (vs.map fun v => ⟨v.size, v.enc⟩)

/-- The numbers of a value. -/
def valNumbers : Nested.Val → List Nat
  | .alone v => [v.value]
  | .inside vs => vs.map Num.value

/-- Numbers that their types can hold. -/
def valFits : Nested.Val → Prop
  | .alone v => v.value < 256 ^ v.size
  | .inside vs => ∀ v ∈ vs, v.value < 256 ^ v.size

/-- Whether the bytes of a number are the same in the order of the machine and in that of its wrapper. -/
def Indifferent (machine : Endian) (v : Num) : Prop := asSaid machine v = unwrappedBytes machine v

/-! ## Lemmas -/

private theorem unw_len (m : Endian) (v : Num) : (unwrappedBytes m v).length = v.size := by
  cases m <;> simp [unwrappedBytes, intObject, beBytes, leBytes_length]

private theorem unw_lt (m : Endian) (v : Num) : ∀ b ∈ unwrappedBytes m v, b < 256 := by
  intro b hb
  cases m with
  | little => exact leBytes_lt _ _ b hb
  | big => exact leBytes_lt v.size v.value b (by simpa [unwrappedBytes, intObject, beBytes] using hb)

private theorem said_len (m : Endian) (v : Num) : (asSaid m v).length = v.size := by
  obtain ⟨enc, k, n⟩ := v
  cases enc <;> cases m <;> simp [asSaid, intObject, beBytes, leBytes_length]

private theorem plain_len (m : Endian) (v : Nested.Val) : (valPlain m v).length = valSize v := by
  cases v with
  | alone v => exact unw_len m v
  | inside vs =>
    simp only [valPlain, valSize, numsSize, List.length_flatMap]
    congr 1
    exact List.map_congr_left fun v _ => unw_len m v

private theorem plain_lt (m : Endian) (v : Nested.Val) : ∀ b ∈ valPlain m v, b < 256 := by
  cases v with
  | alone v => exact unw_lt m v
  | inside vs =>
    intro b hb
    obtain ⟨v, _, h⟩ := List.mem_flatMap.1 hb
    exact unw_lt m v b h

private theorem object_eq (m : Endian) (v : Nested.Val) : v.object m = valPlain m v := by
  cases v <;> simp only [Nested.Val.object, valPlain, objectOf_eq] <;> rfl

private theorem outer_len (m : Endian) (v : Nested.Val) : (valOuter m v).length = valSize v := by
  cases v with
  | alone v => exact said_len m v
  | inside vs => exact plain_len m (.inside vs)

private theorem arg_good (m : Endian) (v : Nested.Val) : GoodVal (v.arg m) := by
  cases v <;> exact fun b hb => plain_lt m _ b (by rwa [object_eq] at hb)

private theorem arg_size (m : Endian) (v : Nested.Val) : sizeOfVal (v.arg m) = valSize v := by
  rw [← plain_len m v, ← object_eq]
  cases v <;> rfl

private theorem said_eq (m : Endian) (v : Num) : encode m v.enc (unwrappedBytes m v) = asSaid m v := by
  rw [← bytesOf_eq_encode m v.enc _ (unw_lt m v)]
  obtain ⟨enc, k, n⟩ := v
  cases enc <;> cases m <;>
    simp [bytesOf, littleEndianBytes, bigEndianBytes, asSaid, unwrappedBytes, intObject, beBytes]

private theorem arg_encode (m : Endian) (v : Nested.Val) : encodeVal m (v.arg m) = valOuter m v := by
  cases v with
  | alone v =>
    simp only [Nested.Val.arg, encodeVal, object_eq, valPlain, valOuter]
    exact said_eq m v
  | inside vs =>
    simp only [Nested.Val.arg, encodeVal, object_eq, valPlain, valOuter, encode]

private theorem args_size' (m : Endian) (vs : List Nested.Val) :
    totalSize (vs.map (Nested.Val.arg m)) = (vs.map valSize).sum := by
  rw [totalSize, List.map_map]
  congr 1
  exact List.map_congr_left fun v _ => arg_size m v

private theorem args_encode (m : Endian) (vs : List Nested.Val) :
    encodeAll m (vs.map (Nested.Val.arg m)) = vs.flatMap (valOuter m) := by
  rw [encodeAll, List.flatMap_map]
  congr 1
  funext v
  exact arg_encode m v

private theorem args_good' (m : Endian) (vs : List Nested.Val) : ∀ w ∈ vs.map (Nested.Val.arg m), GoodVal w := by
  intro w hw
  obtain ⟨v, _, rfl⟩ := List.mem_map.1 hw
  exact arg_good m v

private theorem ty_size (v : Nested.Val) : (valType v).ty.size = valSize v := by
  cases v with
  | alone v => rfl
  | inside vs => simp [valType, Nested.NTy.ty, Nested.NTy.size, valSize, numsSize, Function.comp_def]

private theorem flat_inj (f g : Num → List Nat) (h : ∀ v, (f v).length = (g v).length) (vs : List Num) :
    vs.flatMap f = vs.flatMap g ↔ ∀ v ∈ vs, f v = g v := by
  induction vs with
  | nil => simp
  | cons v vs ih =>
    simp only [List.flatMap_cons, List.mem_cons, forall_eq_or_imp]
    constructor
    · intro e
      have := List.append_inj e (h v)
      exact ⟨this.1, ih.1 this.2⟩
    · rintro ⟨e1, e2⟩
      rw [e1, ih.2 e2]

private theorem overwrite_inj {buf a b : List Nat} (h : a.length = b.length) (e : overwrite buf 0 a = overwrite buf 0 b) :
    a = b := by
  simp only [overwrite, List.take_zero, List.nil_append] at e
  exact (List.append_inj e h).1

/-! ## Writing -/

/-- C157 (what holds): `write` stores each number that stands alone as its wrapper says, and everything inside a struct
in the order of the machine. -/
theorem c157_write_partial (machine : Endian) (vs : List Nested.Val) (buf : List Nat)
    (hT : (vs.map valSize).sum < 2 ^ 64) :
    (Nested.write machine vs).run buf =
      if buf.length < (vs.map valSize).sum then
        (.throw (.outOfRange "Insufficient buffer space for write"), buf)
      else (.ok (vs.map valSize).sum, overwrite buf 0 (vs.flatMap (valOuter machine))) := by
  rw [Nested.write, write_eq (args_good' machine vs) (by rw [args_size']; exact hT), args_size', args_encode]

-- a struct of a plain and a `big_endian` 16-bit number, then the same `big_endian` number alone
example : (Nested.write .little [.inside [⟨.native, 2, 258⟩, ⟨.bigEndian, 2, 258⟩], .alone ⟨.bigEndian, 2, 258⟩]).run
    (List.replicate 6 0) = (.ok 6, [2, 1, 2, 1, 1, 2]) := by decide

/-- C157 (refuted): a struct is written as the wrappers of its members say exactly if the order makes no difference for
any of them. -/
theorem c157_refuted_struct (machine : Endian) (ns : List Num) (buf : List Nat) (hT : numsSize ns < 2 ^ 64)
    (hroom : numsSize ns ≤ buf.length) :
    ((Nested.write machine [.inside ns]).run buf).2 = overwrite buf 0 (valAsSaid machine (.inside ns)) ↔
      ∀ v ∈ ns, Indifferent machine v := by
  have e : ([Nested.Val.inside ns].map valSize).sum = numsSize ns := by simp [valSize]
  rw [c157_write_partial machine _ buf (by rw [e]; exact hT), if_neg (by rw [e]; omega)]
  simp only [List.flatMap_cons, List.flatMap_nil, List.append_nil, valOuter, valAsSaid]
  constructor
  · intro h v hv
    have h1 := overwrite_inj (by
      simp only [List.length_flatMap]
      congr 1
      exact List.map_congr_left fun v _ => (unw_len machine v).trans (said_len machine v).symm) h
    exact ((flat_inj _ _ (fun v => (unw_len machine v).trans (said_len machine v).symm) ns).1 h1 v hv).symm
  · intro h
    rw [(flat_inj _ _ (fun v => (unw_len machine v).trans (said_len machine v).symm) ns).2 (fun v hv => (h v hv).symm)]

/-- The wrapper of the other byte order. -/
def otherWrapper : Endian → Enc
  | .little => .bigEndian
  | .big => .littleEndian

/-- When the order makes a difference: for a number in the wrapper of the other order, unless its bytes read the same
backwards; never for other numbers. -/
theorem c157_indifferent_partial (machine : Endian) (v : Num) :
    Indifferent machine v ↔ (v.enc = otherWrapper machine → leBytes v.size v.value = (leBytes v.size v.value).reverse) := by
  obtain ⟨enc, k, n⟩ := v
  cases enc <;> cases machine <;>
    simp [Indifferent, asSaid, unwrappedBytes, intObject, beBytes, otherWrapper, eq_comm]

-- `0x0102` differs, `0x0101` does not
example : ¬ Indifferent .little ⟨.bigEndian, 2, 258⟩ ∧ Indifferent .little ⟨.bigEndian, 2, 257⟩ ∧
    Indifferent .little ⟨.littleEndian, 2, 258⟩ := by
  refine ⟨?_, ?_, ?_⟩ <;> unfold Indifferent <;> decide

/-! ## Streams -/

/-- C157 (refuted): a good stream gets every number in the order of the machine, also a wrapped number that stands
alone; it gets what the wrappers say exactly if the order makes no difference. -/
theorem c157_refuted_stream (machine : Endian) (v : Nested.Val) (s : Ios.OStream) (hg : s.state.good = true)
    (hr : s.room = none) :
    (Nested.streamWrite machine v).run s = (.ok (), { s with out := s.out ++ valPlain machine v }) ∧
    (valPlain machine v = valAsSaid machine v ↔
      match v with
      | .alone n => Indifferent machine n
      | .inside ns => ∀ n ∈ ns, Indifferent machine n) := by
  constructor
  · rw [Nested.streamWrite, object_eq]
    obtain ⟨out, room, state, mask⟩ := s
    simp only at hg hr
    subst hr
    simp [St.run, Ios.write, hg, Ios.OStream.takes]
  · cases v with
    | alone n => exact ⟨fun h => h.symm, fun h => h.symm⟩
    | inside ns =>
      simp only [valPlain, valAsSaid]
      rw [flat_inj _ _ (fun v => (unw_len machine v).trans (said_len machine v).symm) ns]
      exact ⟨fun h v hv => (h v hv).symm, fun h v hv => (h v hv).symm⟩

-- `io::write(stream, io::big_endian{std::uint32_t{0x01020304}})` on a little-endian machine
example : ((Nested.streamWrite .little (.alone ⟨.bigEndian, 4, 16909060⟩)).run
    ⟨[], none, Ios.Bits.none, Ios.Bits.none⟩).2.out = [4, 3, 2, 1] := by decide

/-! ## Reading -/

private theorem fields_plain (m m' : Endian) (ns : List Num) (rest : List Nat) :
    Nested.fields m' (ns.map fun v => v.size) (ns.flatMap (unwrappedBytes m) ++ rest) =
      ns.map fun v => intValue m' (unwrappedBytes m v) := by
  induction ns with
  | nil => rfl
  | cons v ns ih =>
    simp only [List.map_cons, List.flatMap_cons, Nested.fields, List.append_assoc]
    rw [List.take_left' (unw_len m v), List.drop_left' (unw_len m v), ih, numberOf_eq]

private theorem val_unw (m : Endian) (v : Num) (h : v.value < 256 ^ v.size) :
    intValue m (unwrappedBytes m v) = v.value := by
  cases m <;> simp [intValue, unwrappedBytes, intObject, beValue, beBytes, leValue_leBytes _ _ h]

private theorem val_unw_other (m m' : Endian) (v : Num) (hne : m ≠ m') :
    intValue m' (unwrappedBytes m v) = leValue (leBytes v.size v.value).reverse := by
  cases m <;> cases m' <;> simp_all [intValue, unwrappedBytes, intObject, beValue, beBytes]

private theorem dec_num (m m' : Endian) (v : Num) (h : v.value < 256 ^ v.size) (hw : v.enc ≠ .native ∨ m = m') :
    numberOf m' (decode m' v.enc (asSaid m v)) = v.value := by
  rw [numberOf_eq]
  obtain ⟨enc, k, n⟩ := v
  have h1 := leValue_leBytes k n h
  have h2 : ∀ x, (leBytes k x).length = k := leBytes_length k
  cases enc <;> cases m <;> cases m' <;>
    simp_all [decode, asSaid, intObject, intValue, beBytes, beValue]

private theorem numbers_back (m : Endian) (v : Nested.Val) (hv : valFits v) :
    (valType v).numbers m (decode m (valType v).ty.enc (valOuter m v)) = valNumbers v := by
  cases v with
  | alone v =>
    simp only [valType, Nested.NTy.numbers, Nested.NTy.ty, valOuter, valNumbers]
    rw [dec_num m m v hv (.inr rfl)]
  | inside ns =>
    simp only [valType, Nested.NTy.numbers, Nested.NTy.ty, valOuter, valNumbers, decode, List.map_map,
      Function.comp_def]
    have := fields_plain m m ns []
    rw [List.append_nil] at this
    rw [this]
    exact List.map_congr_left fun v h => val_unw m v (hv v h)

private theorem outer_lt (m : Endian) (v : Nested.Val) : ∀ b ∈ valOuter m v, IsByte b := by
  cases v with
  | alone v =>
    intro b hb
    rw [valOuter, ← said_eq] at hb
    exact encode_isByte (unw_lt m v) b hb
  | inside vs => exact plain_lt m (.inside vs)

private theorem outers_len (m : Endian) (vs : List Nested.Val) :
    (vs.flatMap (valOuter m)).length = (vs.map valSize).sum := by
  rw [List.length_flatMap]
  congr 1
  exact List.map_congr_left fun v _ => outer_len m v

private theorem seq_back (m : Endian) (vs : List Nested.Val) (hv : ∀ v ∈ vs, valFits v) (rest : List Nat) :
    List.zipWith (Nested.NTy.numbers m) (vs.map valType)
      (decodeSeq m ((vs.map valType).map Nested.NTy.ty) (vs.flatMap (valOuter m) ++ rest)) = vs.map valNumbers := by
  induction vs with
  | nil => rfl
  | cons v vs ih =>
    have hl : (valOuter m v).length = (valType v).ty.size := by rw [outer_len, ty_size]
    simp only [List.map_cons, List.flatMap_cons, decodeSeq, List.append_assoc, List.zipWith_cons_cons]
    rw [List.take_left' hl, List.drop_left' hl, ih (fun x hx => hv x (by simp [hx])), numbers_back m v (hv v (by simp))]

private theorem tys_size (vs : List Nested.Val) :
    totalTySize ((vs.map valType).map Nested.NTy.ty) = (vs.map valSize).sum := by
  rw [totalTySize, List.map_map, List.map_map]
  congr 1
  exact List.map_congr_left fun v _ => ty_size v

/-- C157 (what holds): on one machine, values written to a buffer are read back, whatever is wrapped and wherever it
stands. -/
theorem c157_round_trip_partial (machine : Endian) (vs : List Nested.Val) (buf : List Nat)
    (hb : ∀ b ∈ buf, IsByte b) (hv : ∀ v ∈ vs, valFits v) (hT : (vs.map valSize).sum < 2 ^ 64)
    (hroom : (vs.map valSize).sum ≤ buf.length) :
    Nested.read machine (vs.map valType) ((Nested.write machine vs).run buf).2 = .ok (vs.map valNumbers) := by
  rw [c157_write_partial machine vs buf hT, if_neg (by omega)]
  have hl := outers_len machine vs
  have hby : ∀ b ∈ overwrite buf 0 (vs.flatMap (valOuter machine)), IsByte b :=
    overwrite_isByte hb (by
      intro b h
      obtain ⟨v, _, h⟩ := List.mem_flatMap.1 h
      exact outer_lt machine v b h)
  rw [Nested.read, read_eq hby (by rw [tys_size]; exact hT), if_neg (by
    rw [tys_size, overwrite_length (by omega)]; omega)]
  simp only [Outcome.bind_ok, Outcome.pure_eq]
  rw [overwrite, List.take_zero, List.nil_append, seq_back machine vs hv]

example : Nested.read .big [.inside [⟨2, .littleEndian⟩, ⟨1, .native⟩], .alone ⟨2, .littleEndian⟩] [1, 2, 3, 4, 5] =
    .ok [[258, 3], [1284]] := by decide

/-- C157 (refuted): what one machine writes, a machine of the other byte order reads back only where the wrapper is not
part of something larger: a number inside a struct comes out with its bytes reversed, wrapped or not. -/
theorem c157_refuted_portable (machine other : Endian) (hne : machine ≠ other) (ns : List Num) (v : Num) (buf : List Nat)
    (hb : ∀ b ∈ buf, IsByte b) (hw : v.enc ≠ .native) (hv : v.value < 256 ^ v.size)
    (hT : v.size + numsSize ns < 2 ^ 64) (hroom : v.size + numsSize ns ≤ buf.length) :
    Nested.read other [valType (.alone v), valType (.inside ns)]
        ((Nested.write machine [.alone v, .inside ns]).run buf).2 =
      .ok [[v.value], ns.map fun n => leValue (leBytes n.size n.value).reverse] := by
  have e : ([Nested.Val.alone v, .inside ns].map valSize).sum = v.size + numsSize ns := by simp [valSize]
  have et : totalTySize ([valType (.alone v), valType (.inside ns)].map Nested.NTy.ty) = v.size + numsSize ns := by
    rw [← e]; exact tys_size [.alone v, .inside ns]
  have hl : ([Nested.Val.alone v, .inside ns].flatMap (valOuter machine)).length = v.size + numsSize ns := by
    rw [outers_len, e]
  rw [c157_write_partial machine _ buf (by rw [e]; exact hT), if_neg (by rw [e]; omega)]
  have hby : ∀ b ∈ overwrite buf 0 ([Nested.Val.alone v, .inside ns].flatMap (valOuter machine)), IsByte b :=
    overwrite_isByte hb (by
      intro b h
      obtain ⟨v, _, h⟩ := List.mem_flatMap.1 h
      exact outer_lt machine v b h)
  rw [Nested.read, read_eq hby (by rw [et]; exact hT), if_neg (by
    rw [et, overwrite_length (by omega)]; omega)]
  simp only [Outcome.bind_ok, Outcome.pure_eq, overwrite, List.take_zero, List.nil_append, List.flatMap_cons,
    List.flatMap_nil, List.append_nil, List.append_assoc, List.map_cons, List.map_nil, decodeSeq,
    List.zipWith_cons_cons, List.zipWith_nil_left]
  have l1 : (valOuter machine (.alone v)).length = (valType (.alone v)).ty.size := by rw [outer_len, ty_size]
  have l2 : (valOuter machine (.inside ns)).length = (valType (.inside ns)).ty.size := by rw [outer_len, ty_size]
  rw [List.take_left' l1, List.drop_left' l1, List.take_left' l2]
  have h1 : (valType (.alone v)).numbers other (decode other (valType (.alone v)).ty.enc (valOuter machine (.alone v))) =
      [v.value] := by
    simp only [valType, Nested.NTy.numbers, Nested.NTy.ty, valOuter]
    rw [dec_num machine other v hv (.inl hw)]
  have h2 : (valType (.inside ns)).numbers other
      (decode other (valType (.inside ns)).ty.enc (valOuter machine (.inside ns))) =
      ns.map fun n => leValue (leBytes n.size n.value).reverse := by
    simp only [valType, Nested.NTy.numbers, Nested.NTy.ty, valOuter, decode, List.map_map, Function.comp_def]
    have := fields_plain machine other ns []
    rw [List.append_nil] at this
    rw [this]
    exact List.map_congr_left fun v _ => val_unw_other machine other v hne
  rw [h1, h2]

-- written by a little-endian machine, read by a big-endian one
example : Nested.read .big [.alone ⟨2, .bigEndian⟩, .inside [⟨2, .bigEndian⟩]]
    ((Nested.write .little [.alone ⟨.bigEndian, 2, 258⟩, .inside [⟨.bigEndian, 2, 258⟩]]).run (List.replicate 4 0)).2 =
    .ok [[258], [513]] := by decide

/-- C157 (what holds): a value written to a good stream that takes everything is read back from its bytes on the same
machine. -/
theorem c157_stream_partial (machine : Endian) (v : Nested.Val) (hv : valFits v) (s : Ios.OStream) (t : Ios.IStream)
    (hg : s.state.good = true) (hr : s.room = none) (ho : s.out = [])
    (ht : t.state.good = true) (hl : t.left = ((Nested.streamWrite machine v).run s).2.out) :
    ((Nested.streamRead machine (valType v)).run t).1 = .ok (valNumbers v) := by
  rw [(c157_refuted_stream machine v s hg hr).1, ho] at hl
  have hsz : (valType v).size = valSize v := by
    rw [← ty_size v]; cases v <;> rfl
  have hlen : t.left.length = (valType v).size := by
    rw [hl, hsz, List.nil_append, plain_len]
  have h1 : (Ios.read (valType v).size).run t = (.ok (valPlain machine v), { t with left := [] }) := by
    rw [Ios.read]
    have h2 : (Ios.IStream.readSome (valType v).size).run t = (.ok (valPlain machine v), { t with left := [] }) := by
      have e1 : t.left.take (valType v).size = valPlain machine v := by
        rw [← hlen, List.take_length, hl, List.nil_append]
      have e2 : t.left.drop (valType v).size = [] := by rw [← hlen, List.drop_length]
      have e3 : (valPlain machine v).length = (valType v).size := by rw [plain_len, hsz]
      simp [St.run, Ios.IStream.readSome, ht, e1, e2, e3]
    rw [St.run_bind_ok h2, St.run_pure]
    have e3 : (valPlain machine v).length = (valType v).size := by rw [plain_len, hsz]
    rw [e3, List.drop_of_length_le (by simp), List.append_nil]
  rw [Nested.streamRead, St.run_bind_ok h1, St.run_pure]
  congr 1
  cases v with
  | alone v =>
    simp only [valType, Nested.NTy.numbers, valPlain, valNumbers, numberOf_eq]
    rw [val_unw machine v hv]
  | inside ns =>
    simp only [valType, Nested.NTy.numbers, valPlain, valNumbers, List.map_map, Function.comp_def]
    have := fields_plain machine machine ns []
    rw [List.append_nil] at this
    rw [this]
    exact congrArg _ (List.map_congr_left fun v h => val_unw machine v (hv v h))

example : ((Nested.streamRead .little (.alone ⟨2, .bigEndian⟩)).run
    ⟨[2, 1], .eof, Ios.Bits.none, Ios.Bits.none⟩).1 = .ok [258] := by decide

/-- C157 (refuted): a wrapped number that the buffer functions have stored is not the number a stream delivers: reading
the bytes of a buffer through a stream, with the same type, gives the number with its bytes as the machine takes them. -/
theorem c157_refuted_mixed (machine : Endian) (v : Num) (he : v.enc = otherWrapper machine) (t : Ios.IStream)
    (ht : t.state.good = true) (rest : List Nat)
    (hl : t.left = ((Nested.write machine [.alone v]).run (List.replicate v.size 0)).2 ++ rest)
    (hT : v.size < 2 ^ 64) :
    ((Nested.streamRead machine (valType (.alone v))).run t).1 =
      .ok [leValue (leBytes v.size v.value).reverse] := by
  rw [c157_write_partial machine _ _ (by simpa [valSize] using hT), if_neg (by simp [valSize])] at hl
  have hlen := said_len machine v
  have hl2 : t.left = asSaid machine v ++ rest := by
    rw [hl]
    simp [overwrite, valOuter, hlen]
  have e1 : t.left.take v.size = asSaid machine v := by rw [hl2, List.take_left' hlen]
  have h2 : (Ios.IStream.readSome v.size).run t = (.ok (asSaid machine v), { t with left := t.left.drop v.size }) := by
    simp [St.run, Ios.IStream.readSome, ht, e1, hlen]
  have h1 : (Ios.read v.size).run t = (.ok (asSaid machine v), { t with left := t.left.drop v.size }) := by
    rw [Ios.read, St.run_bind_ok h2, St.run_pure, hlen, List.drop_of_length_le (by simp), List.append_nil]
  have h3 : (valType (.alone v)).size = v.size := rfl
  rw [Nested.streamRead, h3, St.run_bind_ok h1, St.run_pure]
  simp only [valType, Nested.NTy.numbers, numberOf_eq]
  obtain ⟨enc, k, n⟩ := v
  simp only at he
  subst he
  cases machine <;> simp [otherWrapper, asSaid, intValue, beBytes, beValue]

example : ((Nested.streamRead .little (.alone ⟨2, .bigEndian⟩)).run
    ⟨[1, 2], .eof, Ios.Bits.none, Ios.Bits.none⟩).1 = .ok [513] := by decide

/-! ## Arrays -/

/-- `n` consecutive nestedPieces of `k` bytes. -/
def nestedPieces (k : Nat) : Nat → List Nat → List (List Nat)
  | 0, _ => []
  | n + 1, buf => buf.take k :: nestedPieces k n (buf.drop k)

private theorem fields_pieces (m : Endian) (k n : Nat) (buf : List Nat) :
    Nested.fields m (List.replicate n k) buf = (nestedPieces k n buf).map (intValue m) := by
  induction n generalizing buf with
  | zero => rfl
  | succ n ih => simp only [List.replicate_succ, Nested.fields, nestedPieces, List.map_cons, ih, numberOf_eq]

private theorem pieces_take (k n : Nat) (buf : List Nat) (h : n * k ≤ buf.length) :
    nestedPieces k n (buf.take (n * k)) = nestedPieces k n buf := by
  induction n generalizing buf with
  | zero => rfl
  | succ n ih =>
    have e : (n + 1) * k = k + n * k := by rw [Nat.succ_mul]; omega
    simp only [nestedPieces]
    have h1 : (buf.take ((n + 1) * k)).drop k = (buf.drop k).take (n * k) := by
      rw [e, List.drop_take]; congr 1; omega
    have h2 : (buf.take ((n + 1) * k)).take k = buf.take k := by
      rw [List.take_take]; congr 1; omega
    rw [h1, h2, ih]
    simp only [List.length_drop]; omega

private theorem range_pieces (m : Endian) (t : Ty) (n : Nat) (buf : List Nat) (hb : ∀ b ∈ buf, IsByte b) :
    (decodeSeq m (List.replicate n t) buf).map (numberOf m) =
      (nestedPieces t.size n buf).map fun p => meantAsSaid m (t.enc, p) := by
  induction n generalizing buf with
  | zero => rfl
  | succ n ih =>
    simp only [List.replicate_succ, decodeSeq, nestedPieces, List.map_cons]
    rw [ih _ (fun b hx => hb b (List.mem_of_mem_drop hx))]
    congr 1
    rw [← bytesOf_eq_decode m t.enc _ (fun b hx => hb b (List.mem_of_mem_take hx)), numberOf_eq]
    obtain ⟨k, enc⟩ := t
    cases enc <;> cases m <;>
      simp [bytesOf, littleEndianBytes, bigEndianBytes, meantAsSaid, intValue, beValue]

/-- C157 (refuted): reading a `std::array` of wrapped numbers as one value and reading it as a range are different
things: `read` takes each number as the machine stores it, `read_range` as the wrapper says. -/
theorem c157_refuted_array (machine : Endian) (t : Ty) (n : Nat) (buf : List Nat) (hb : ∀ b ∈ buf, IsByte b)
    (hT : n * t.size < 2 ^ 64) (hroom : n * t.size ≤ buf.length) :
    Nested.read machine [.inside (List.replicate n t)] buf = .ok [(nestedPieces t.size n buf).map (intValue machine)] ∧
    Nested.readRange machine t n buf = .ok ((nestedPieces t.size n buf).map fun p => meantAsSaid machine (t.enc, p)) := by
  have hs : (Nested.NTy.inside (List.replicate n t)).size = n * t.size := by simp [Nested.NTy.size]
  constructor
  · rw [Nested.read, read_eq hb (by simpa [totalTySize, Nested.NTy.ty, hs] using hT), if_neg (by
      simp only [totalTySize, List.map_cons, List.map_nil, List.sum_cons, List.sum_nil, Nested.NTy.ty, hs]; omega)]
    simp only [Outcome.bind_ok, Outcome.pure_eq, List.map_cons, List.map_nil, decodeSeq, List.zipWith_cons_cons,
      List.zipWith_nil_left, Nested.NTy.ty, Nested.NTy.numbers, decode, hs, List.map_replicate]
    rw [fields_pieces, pieces_take _ _ _ hroom]
  · rw [Nested.readRange, readRange_eq hb hT, if_neg (by omega)]
    simp only [Outcome.bind_ok, Outcome.pure_eq]
    rw [range_pieces machine t n buf hb]

-- two big-endian 16-bit numbers on a little-endian machine
example : Nested.read .little [.inside [⟨2, .bigEndian⟩, ⟨2, .bigEndian⟩]] [0, 1, 0, 2] = .ok [[256, 512]] ∧
    Nested.readRange .little ⟨2, .bigEndian⟩ 2 [0, 1, 0, 2] = .ok [1, 2] := by decide

end Wite.Props
