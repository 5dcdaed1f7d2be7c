import Verif.Model.Config
import Verif.Model.FragmentString
import Verif.Model.StaticLookup
import Verif.Lemmas.NoThrow
import Verif.Props.ItemCollection

/-!
# C148–C150: the configuration macros

`WITE_NO_EXCEPTIONS`, the umbrella header and the byte types.
-/

namespace Wite.Props
open Wite Wite.Config

/-- What is reachable from a header stays inside every set closed under inclusion. -/
private theorem reaches_closed {cfg : Macros} {S : Header → Bool}
    (hS : ∀ x, S x = true → (includes cfg x).all S = true) {a b : Header} (ha : S a = true) (h : Reaches cfg a b) : S b = true := by
  induction h with
  | refl => exact ha
  | tail _ hbc ih => exact List.all_eq_true.1 (hS _ ih) _ hbc

private theorem reaches_step {cfg : Macros} {a b c : Header} (h : b ∈ includes cfg a) (h' : Reaches cfg b c) :
    Reaches cfg a c := Relation.ReflTransGen.head h h'

private theorem reaches_one {cfg : Macros} {a b : Header} (h : b ∈ includes cfg a) : Reaches cfg a b :=
  Relation.ReflTransGen.single h

private theorem not_compiles {cfg : Macros} {a b : Header} (h : Reaches cfg a b) (hb : fails cfg b = true) :
    ¬ Compiles cfg a := fun hc => by rw [hc b h] at hb; cases hb

private theorem compiles_closed {cfg : Macros} {S : Header → Bool} {a : Header}
    (hS : ∀ x, S x = true → (includes cfg x).all S = true) (hf : ∀ x, S x = true → fails cfg x = false)
    (ha : S a = true) : Compiles cfg a := fun b h => hf b (reaches_closed hS ha h)

/-- The macros agree with each other: at most one byte type and at most one byte order is chosen. -/
def Consistent (cfg : Macros) : Prop :=
  ¬ (cfg.byteChar = true ∧ cfg.byteU8 = true) ∧ ¬ (cfg.byteChar = true ∧ cfg.byteI8 = true) ∧
  ¬ (cfg.byteU8 = true ∧ cfg.byteI8 = true) ∧ ¬ (cfg.little = true ∧ cfg.big = true)

/-- The byte type the user asked for, or the default, is a type that holds 0 to 255. -/
def UnsignedBytes (cfg : Macros) : Prop :=
  cfg.byteI8 = false ∧ (cfg.byteChar = true → cfg.charSigned = false)

private theorem byteType_isSome {cfg : Macros} (h : Consistent cfg) : (byteType cfg).isSome = true := by
  obtain ⟨h1, h2, h3, -⟩ := h
  unfold byteType
  cases hc : cfg.byteChar <;> cases hu : cfg.byteU8 <;> cases hi : cfg.byteI8 <;> simp_all
  split <;> rfl

private theorem hexlify_ok {cfg : Macros} (h : Consistent cfg) :
    fails cfg .hexlify = false ↔ UnsignedBytes cfg := by
  obtain ⟨h1, h2, h3, -⟩ := h
  unfold fails byteType UnsignedBytes
  cases hc : cfg.byteChar <;> cases hu : cfg.byteU8 <;> cases hi : cfg.byteI8 <;> cases hs : cfg.charSigned <;>
    cases hb : cfg.stdByte <;> simp_all [ByteTy.holds]

private theorem encoding_ok {cfg : Macros} (h : Consistent cfg) : fails cfg .encoding = false := by
  obtain ⟨-, -, -, h4⟩ := h
  unfold fails nativeEndianness
  cases hl : cfg.little <;> cases hb : cfg.big <;> simp_all

private theorem features_ok {cfg : Macros} (h : Consistent cfg) : fails cfg .features = false := by
  have := byteType_isSome h
  unfold fails
  cases hb : byteType cfg <;> simp_all

/-- No macro defined, a compiler with `std::byte` and a signed `char`. -/
private def plain : Macros := ⟨false, false, false, false, false, false, false, true, true⟩

/-! ## C148 -/

/-- C148 (refuted for the string library): with `WITE_NO_EXCEPTIONS` neither `wite/wite.hpp` nor `wite/string.hpp` nor
any of the four headers behind it compiles, whatever the other macros. -/
theorem c148_refuted_headers (cfg : Macros) (h : cfg.noExceptions = true) :
    ∀ x ∈ [Header.wite, .string, .join, .split, .strip, .trim], ¬ Compiles cfg x := by
  have hj : fails cfg .join = true := h
  intro x hx
  simp only [List.mem_cons, List.not_mem_nil, or_false] at hx
  rcases hx with rfl | rfl | rfl | rfl | rfl | rfl
  · exact not_compiles (reaches_step (b := .string) (by simp [includes]) (reaches_one (b := .join) (by simp [includes]))) hj
  · exact not_compiles (reaches_one (b := .join) (by simp [includes])) hj
  · exact not_compiles .refl hj
  · exact not_compiles .refl (show fails cfg .split = true from h)
  · exact not_compiles .refl (show fails cfg .strip = true from h)
  · exact not_compiles .refl (show fails cfg .trim = true from h)

example : ∃ cfg : Macros, cfg.noExceptions = true ∧ ¬ Compiles cfg .wite :=
  ⟨{ plain with noExceptions := true }, rfl, c148_refuted_headers _ rfl _ (by simp)⟩

private def withoutStrings : Header → Bool
  | .wite | .string | .join | .split | .strip | .trim => false
  | _ => true

/-- C148 (what holds of the headers): with `WITE_NO_EXCEPTIONS`, consistent macros and an unsigned byte type, every
header other than those six compiles. -/
theorem c148_headers_partial (cfg : Macros) (h : cfg.noExceptions = true) (hc : Consistent cfg) (hu : UnsignedBytes cfg)
    (x : Header) : Compiles cfg x ↔ x ∉ [Header.wite, .string, .join, .split, .strip, .trim] := by
  constructor
  · exact fun hx hm => c148_refuted_headers cfg h x hm hx
  · intro hx
    have hx' : withoutStrings x = true := by cases x <;> first | rfl | (exfalso; apply hx; simp; done)
    refine compiles_closed (S := withoutStrings) ?_ ?_ hx'
    · intro y hy
      cases y <;> first
        | rfl
        | (cases hy; done)
        | (cases hid : cfg.idType <;> simp [includes, hid, withoutStrings])
    · intro y hy
      cases y <;> first
        | rfl
        | (cases hy; done)
        | exact features_ok hc
        | exact encoding_ok hc
        | exact (hexlify_ok hc).2 hu

example : Compiles { plain with noExceptions := true } .itemCollection :=
  (c148_headers_partial _ rfl (by simp [Consistent, plain]) (by simp [UnsignedBytes, plain]) _).2 (by simp)

/-- C148 (refuted): "it does guarantee that Wite won't throw any".  With `WITE_NO_EXCEPTIONS` (and consistent macros and
an unsigned byte type) these four headers compile, and functions they declare throw: `at`, `substr` and `copy` of a
`fragment_string` behind its end, the string of a UUID for any letter that is no format, `insert` and `emplace` of an id
a collection has, `at` of an id or an index it does not have, and `at` and `with` of a `static_lookup`. -/
theorem c148_refuted_throws (cfg : Macros) (h : cfg.noExceptions = true) (hc : Consistent cfg) (hu : UnsignedBytes cfg) :
    (Compiles cfg .fragmentString ∧ ∀ (C : Type) (b : Build) (fs : Str.FragStr C) (pos count : Nat),
      Str.length fs ≤ pos →
        (∃ e, Str.at' b fs pos = .throw e) ∧ (∃ e, Str.substr b fs pos count = .throw e) ∧
        ∃ e, Str.copy b fs count pos = .throw e) ∧
    (Compiles cfg .uuid ∧ ∀ (host : Io.Endian) (id : List Nat) (f : Char), f ∉ "DNBPXdnbpx".toList →
      ∃ e, Uuid.str host id f = .throw e) ∧
    (Compiles cfg .staticLookup ∧ ∀ (κ ν : Type) (eqk : κ → κ → Bool) (eqv : ν → ν → Bool)
      (t : Collections.StaticLookup κ ν) (k : κ) (v : ν),
      ((∀ p ∈ t.items, eqk p.1 k = false) → ∃ e, t.at' eqk k = .throw e) ∧
      ((∀ p ∈ t.items, eqv p.2 v = false) → ∃ e, t.with' eqv v = .throw e)) ∧
    (Compiles cfg .itemCollection ∧ ∀ (ι α : Type) [DecidableEq ι] (b : Build) (mem : Collections.Site → Nat → Bool)
      (idOf : α → ι) (s : Collections.ItemCollection ι α) (x : α) (i : ι) (n : Nat),
      (s.contains (idOf x) = true → ∃ e, (Collections.ItemCollection.insert b mem idOf x s).1 = .throw e) ∧
      (s.contains i = false → ∃ e, s.atId i = .throw e) ∧
      (s.ordered.length ≤ n → ∃ e, s.atIndex n = .throw e) ∧
      ∀ ops : List (Collections.ItemCollection.Op ι α),
        (∀ op ∈ ops, match op with | .modify _ f => ∀ x, idOf (f x) = idOf x | _ => True) →
        St.history (Collections.ItemCollection.step b (fun _ _ => true) idOf) ops .empty = some s →
        s.contains (idOf x) = true →
        ∃ e, (Collections.ItemCollection.emplace b (fun _ _ => true) idOf x s).1 = .throw e) := by
  have hall := fun x => (c148_headers_partial cfg h hc hu x).2
  refine ⟨⟨hall _ (by simp), ?_⟩, ⟨hall _ (by simp), ?_⟩, ⟨hall _ (by simp), ?_⟩, ⟨hall _ (by simp), ?_⟩⟩
  · intro C b fs pos count hl
    exact ⟨⟨_, if_pos hl⟩, ⟨_, if_pos hl⟩, ⟨_, if_pos hl⟩⟩
  · intro host id f hf
    have : Uuid.printFormat f = none := by
      unfold Uuid.printFormat
      split <;> first | rfl | (exfalso; apply hf; decide)
    exact ⟨_, by rw [Uuid.str, this]⟩
  · intro κ ν eqk eqv t k v
    constructor
    · intro hk
      have : (t.items.find? fun p => eqk p.1 k) = none := List.find?_eq_none.2 fun p hp => by simp [hk p hp]
      exact ⟨_, by rw [Collections.StaticLookup.at', Collections.StaticLookup.get, this]⟩
    · intro hk
      have : (t.items.find? fun p => eqv p.2 v) = none := List.find?_eq_none.2 fun p hp => by simp [hk p hp]
      exact ⟨_, by rw [Collections.StaticLookup.with', Collections.StaticLookup.get, this]⟩
  · intro ι α _ b mem idOf s x i n
    refine ⟨fun hx => ?_, fun hi => ?_, fun hn => ?_,
      fun ops hk hs hx => ⟨_, (c65_single_partial b idOf ops hk s hs x hx).2.2.1⟩⟩
    · refine ⟨.logicError "Insertion of duplicate ID into identifiable_item_collection", ?_⟩
      show ((Collections.ItemCollection.insert b mem idOf x).run s).1 = _
      rw [Collections.ItemCollection.insert, St.run_bind_ok (St.run_get s), if_pos hx]
      rfl
    · have hf : Collections.ItemCollection.mapFind s.items i = none := by
        unfold Collections.ItemCollection.contains at hi
        exact Option.not_isSome_iff_eq_none.1 (by simp [hi])
      exact ⟨_, by rw [Collections.ItemCollection.atId, hf]⟩
    · exact ⟨_, by rw [Collections.ItemCollection.atIndex, List.getElem?_eq_none hn]⟩

example : ∃ e, Uuid.str .little (List.replicate 16 0) 'q' = .throw e :=
  (c148_refuted_throws { plain with noExceptions := true } rfl (by simp [Consistent, plain])
    (by simp [UnsignedBytes, plain])).2.1.2 _ _ _ (by decide)

/-- C148 (what holds of the calls): the functions that report through a `result` do not throw, whatever their arguments
and the state of the buffer, the view or the string. -/
theorem c148_try_partial (host : Io.Endian) (t : Io.Ty) (ts : List Io.Ty) (n pos : Nat) (buf : List Nat) (v : Io.WVal)
    (vs : List Io.WVal) (enc : Io.Enc) (o : Io.Obj) (f : Char) (behind : List Nat) :
    ((Io.tryRead host t buf).NeverThrows ∧ (Io.recursiveTryRead host ts buf).NeverThrows ∧
      (Io.tryReadAt host t pos buf).NeverThrows ∧ (Io.recursiveTryReadAt host ts pos buf).NeverThrows ∧
      (Io.tryReadRange host t n buf).NeverThrows ∧ (Io.tryReadRangeAt host t n pos buf).NeverThrows ∧
      (Io.tryFromBytes host t buf).NeverThrows) ∧
    ((Io.tryWrite host vs).NeverThrows ∧ (Io.tryWriteAt host pos v).NeverThrows ∧
      (Io.recursiveTryWriteAt host pos vs).NeverThrows ∧ (Io.tryToBytes host enc o).NeverThrows) ∧
    ((Io.ReadView.trySeek pos).NeverThrows ∧ (Io.ReadView.tryRead host ts).NeverThrows ∧
      (Io.ReadView.tryReadRange host t n).NeverThrows ∧ (Io.WriteView.trySeek pos).NeverThrows ∧
      (Io.WriteView.tryWrite host vs).NeverThrows) ∧
    ((Hex.tryFromHexChars n buf).NeverThrows ∧ (Hex.tryUnhexlifyN n buf).NeverThrows ∧
      (Uuid.tryMake buf f behind).NeverThrows) :=
  ⟨⟨Io.tryRead_nt .., Io.recursiveTryRead_nt .., Io.tryReadAt_nt .., Io.recursiveTryReadAt_nt .., Io.tryReadRange_nt ..,
      Io.tryReadRangeAt_nt .., Io.tryRead_nt ..⟩,
    ⟨Io.recursiveTryWrite_nt .., Io.tryWriteAt_nt .., Io.recursiveTryWriteAt_nt .., Io.tryToBytes_nt ..⟩,
    ⟨Io.ReadView.trySeek_nt _, Io.ReadView.tryRead_nt .., Io.ReadView.tryReadRange_nt .., Io.WriteView.trySeek_nt _,
      Io.WriteView.tryWrite_nt ..⟩,
    ⟨Hex.tryFromHexChars_nt .., Hex.tryUnhexlifyN_nt .., Uuid.tryMake_nt ..⟩⟩

example : Uuid.tryMake [48, 49] 'q' [] = .ok (.error .invalidUuidFormatType) ∧
    Uuid.ofString [48, 49] 'q' [] = .throw (.invalidArgument "Invalid UUID format type") := ⟨rfl, rfl⟩

/-! ## C149 -/

private def notEverything : Header → Bool
  | .fragmentString | .boundedValue | .coreIo => false
  | _ => true

private theorem via {cfg : Macros} {a b c : Header} (h : Reaches cfg a b) (h' : (includes cfg b).contains c = true) :
    Reaches cfg a c := Relation.ReflTransGen.tail h (List.contains_iff_mem.1 h')

/-- C149 (refuted): "just `#include <wite/wite.hpp>` and you'll get everything".  Whatever the macros, what that header
brings in is every header of the library except `string/fragment_string.hpp`, `maths/bounded_value.hpp` and
`core/io.hpp`. -/
theorem c149_refuted_umbrella (cfg : Macros) (x : Header) :
    Reaches cfg .wite x ↔ x ∉ [Header.fragmentString, .boundedValue, .coreIo] := by
  constructor
  · intro h hm
    have := reaches_closed (cfg := cfg) (S := notEverything) (a := .wite) (fun y hy => by
      cases y <;> first
        | rfl
        | (cases hy; done)
        | (cases hid : cfg.idType <;> simp [includes, hid, notEverything])) rfl h
    simp only [List.mem_cons, List.not_mem_nil, or_false] at hm
    rcases hm with rfl | rfl | rfl <;> cases this
  · intro hx
    have r0 : Reaches cfg .wite .wite := .refl
    have r1 : Reaches cfg .wite .string := via r0 rfl
    have r2 : Reaches cfg .wite .core := via r0 rfl
    have r3 : Reaches cfg .wite .io := via r0 rfl
    have r4 : Reaches cfg .wite .collections := via r0 rfl
    have r5 : Reaches cfg .wite .maths := via r0 rfl
    have r6 : Reaches cfg .wite .geometry := via r0 rfl
    have r7 : Reaches cfg .wite .binascii := via r0 rfl
    have r8 : Reaches cfg .wite .common := via r0 rfl
    have r9 : Reaches cfg .wite .environment := via r0 rfl
    have r10 : Reaches cfg .wite .uuid := via r2 rfl
    cases x <;> first
      | (exfalso; apply hx; simp; done)
      | exact r0
      | exact via r0 rfl
      | exact via r1 rfl
      | exact via r2 rfl
      | exact via r3 rfl
      | exact via r4 rfl
      | exact via r5 rfl
      | exact via r6 rfl
      | exact via r7 rfl
      | exact via r8 rfl
      | exact via r9 rfl
      | exact via r10 rfl

example : Reaches plain .wite .hexlify ∧ ¬ Reaches plain .wite .fragmentString :=
  ⟨(c149_refuted_umbrella _ _).2 (by simp), fun h => (c149_refuted_umbrella _ _).1 h (by simp)⟩

/-- C149 (what holds): with consistent macros, an unsigned byte type and exceptions, the umbrella header compiles. -/
theorem c149_umbrella_partial (cfg : Macros) (h : cfg.noExceptions = false) (hc : Consistent cfg)
    (hu : UnsignedBytes cfg) : Compiles cfg .wite := by
  intro y _
  cases y <;> first
    | rfl
    | exact h
    | exact features_ok hc
    | exact encoding_ok hc
    | exact (hexlify_ok hc).2 hu

example : Compiles plain .wite := c149_umbrella_partial _ rfl (by simp [Consistent, plain]) (by simp [UnsignedBytes, plain])

/-! ## C150 -/

/-- The headers that need the hexadecimal conversions, directly or not. -/
private def needsHex (idType : Bool) : Header → Bool
  | .hexlify | .binascii | .uuid | .uuidFunctions | .core | .coreIo | .wite => true
  | .id | .itemCollection | .collections => !idType
  | _ => false

/-- C150 (refuted): `WITE_USER_DEFINED_BYTE_TYPE_I8`, and `WITE_USER_DEFINED_BYTE_TYPE_CHAR` where `char` is signed, do
not work: `binascii/hexlify.hpp` is ill-formed with these byte types, and so is every header that includes it, the umbrella
header and those of the UUIDs among them.  Unless `WITE_DEFAULT_ID_TYPE` is defined that takes in the ids and the
collections.  With these byte types (and exceptions) all other headers compile. -/
theorem c150_refuted_signed (cfg : Macros) (hc : Consistent cfg) (hu : ¬ UnsignedBytes cfg)
    (hn : cfg.noExceptions = false) (x : Header) :
    ¬ Compiles cfg x ↔
      x ∈ [Header.hexlify, .binascii, .uuid, .uuidFunctions, .core, .coreIo, .wite] ∨
      (cfg.idType = false ∧ x ∈ [Header.id, .itemCollection, .collections]) := by
  have hf : fails cfg .hexlify = true := by
    cases hx : fails cfg .hexlify
    · exact absurd ((hexlify_ok hc).1 hx) hu
    · rfl
  have rh : Reaches cfg .hexlify .hexlify := .refl
  have ru : Reaches cfg .uuid .hexlify := reaches_one (by simp [includes])
  have rc : Reaches cfg .core .hexlify := reaches_step (b := .uuid) (by simp [includes]) ru
  constructor
  · intro hx
    by_cases hm : needsHex cfg.idType x = true
    · cases hid : cfg.idType <;> rw [hid] at hm <;> cases x <;> first | (cases hm; done) | simp
    · refine absurd (compiles_closed (S := fun y => !needsHex cfg.idType y) ?_ ?_ (by simp [hm])) hx
      · intro y hy
        cases hid : cfg.idType <;> rw [hid] at hy <;> cases y <;> first
          | (cases hy; done)
          | rfl
          | simp [includes, hid, needsHex]
      · intro y hy
        cases y <;> first
          | rfl
          | exact hn
          | exact features_ok hc
          | exact encoding_ok hc
          | (cases hy; done)
  · intro hx
    simp only [List.mem_cons, List.not_mem_nil, or_false] at hx
    rcases hx with (rfl | rfl | rfl | rfl | rfl | rfl | rfl) | ⟨hid, rfl | rfl | rfl⟩
    · exact not_compiles rh hf
    · exact not_compiles (reaches_one (by simp [includes])) hf
    · exact not_compiles ru hf
    · exact not_compiles (reaches_one (by simp [includes])) hf
    · exact not_compiles rc hf
    · exact not_compiles (reaches_step (b := .uuid) (by simp [includes]) ru) hf
    · exact not_compiles (reaches_step (b := .core) (by simp [includes]) rc) hf
    · exact not_compiles (reaches_step (b := .uuid) (by simp [includes, hid]) ru) hf
    · exact not_compiles (reaches_step (b := .id) (by simp [includes])
        (reaches_step (b := .uuid) (by simp [includes, hid]) ru)) hf
    · exact not_compiles (reaches_step (b := .itemCollection) (by simp [includes]) (reaches_step (b := .id)
        (by simp [includes]) (reaches_step (b := .uuid) (by simp [includes, hid]) ru))) hf

example : ¬ Compiles { plain with byteI8 := true } .uuid ∧ Compiles { plain with byteI8 := true } .byteBuffer ∧
    ¬ Compiles { plain with byteChar := true } .wite := by
  have h := c150_refuted_signed { plain with byteI8 := true } (by simp [Consistent, plain]) (by simp [UnsignedBytes, plain]) rfl
  refine ⟨(h _).2 (by simp), Classical.not_not.1 fun hn => ?_, ?_⟩
  · have := (h _).1 hn
    simp at this
  · exact (c150_refuted_signed { plain with byteChar := true } (by simp [Consistent, plain]) (by simp [UnsignedBytes, plain]) rfl
      _).2 (by simp)

/-- C150 (what holds): with exceptions, consistent macros and a byte type that is unsigned, every header compiles. -/
theorem c150_unsigned_partial (cfg : Macros) (hn : cfg.noExceptions = false) (hc : Consistent cfg)
    (hu : UnsignedBytes cfg) (x : Header) : Compiles cfg x := by
  intro y _
  cases y <;> first
    | rfl
    | exact hn
    | exact features_ok hc
    | exact encoding_ok hc
    | exact (hexlify_ok hc).2 hu

example : Compiles { plain with byteU8 := true } .uuid ∧ Compiles { plain with byteChar := true, charSigned := false } .uuid :=
  ⟨c150_unsigned_partial _ rfl (by simp [Consistent, plain]) (by simp [UnsignedBytes, plain]) _,
    c150_unsigned_partial _ rfl (by simp [Consistent, plain]) (by simp [UnsignedBytes, plain]) _⟩

/-- The headers that do not look at the configuration. -/
private def bare : Header → Bool
  | .constructorMacros | .platform | .compiler | .configuration | .basicUuid | .uuidHash => true
  | _ => false

/-- C150 (what holds): two byte types are an error in every header but the six that do not look at the byte type. -/
theorem c150_several_types_partial (cfg : Macros)
    (h : (cfg.byteChar = true ∧ cfg.byteU8 = true) ∨ (cfg.byteChar = true ∧ cfg.byteI8 = true) ∨
      (cfg.byteU8 = true ∧ cfg.byteI8 = true)) (x : Header) :
    Compiles cfg x ↔
      x ∈ [Header.constructorMacros, .platform, .compiler, .configuration, .basicUuid, .uuidHash] := by
  have hf : fails cfg .features = true := by
    unfold fails byteType
    cases hc : cfg.byteChar <;> cases hu : cfg.byteU8 <;> cases hi : cfg.byteI8 <;> simp_all
  have r0 : Reaches cfg .environment .features := reaches_one (by simp [includes])
  have rc : Reaches cfg .concepts .features := reaches_step (b := .environment) (by simp [includes]) r0
  have rn : Reaches cfg .numeric .features := reaches_step (b := .environment) (by simp [includes]) r0
  have rp : Reaches cfg .point .features := reaches_step (b := .environment) (by simp [includes]) r0
  have ri : Reaches cfg .ioConcepts .features := reaches_step (b := .concepts) (by simp [includes]) rc
  have rv : Reaches cfg .valueRange .features := reaches_step (b := .environment) (by simp [includes]) r0
  have rr : Reaches cfg .result .features := reaches_step (b := .environment) (by simp [includes]) r0
  have rj : Reaches cfg .join .features := reaches_step (b := .environment) (by simp [includes]) r0
  have rb : Reaches cfg .byteBufferRead .features := reaches_one (by simp [includes])
  have rd : Reaches cfg .dereferencingIterator .features := reaches_step (b := .environment) (by simp [includes]) r0
  have rx : Reaches cfg .hexlify .features := reaches_step (b := .environment) (by simp [includes]) r0
  have ry : Reaches cfg .byteBuffer .features := reaches_step (b := .byteBufferRead) (by simp [includes]) rb
  constructor
  · intro hx
    by_cases hm : bare x = true
    · cases x <;> first | (cases hm; done) | simp
    · exfalso
      revert hx
      cases x <;> first
        | (exfalso; apply hm; rfl; done)
        | exact not_compiles .refl hf
        | exact not_compiles (via .refl rfl) hf
        | (refine not_compiles (reaches_step (b := .environment) ?_ r0) hf; simp [includes]; done)
        | (refine not_compiles (reaches_step (b := .concepts) ?_ rc) hf; simp [includes]; done)
        | (refine not_compiles (reaches_step (b := .numeric) ?_ rn) hf; simp [includes]; done)
        | (refine not_compiles (reaches_step (b := .point) ?_ rp) hf; simp [includes]; done)
        | (refine not_compiles (reaches_step (b := .ioConcepts) ?_ ri) hf; simp [includes]; done)
        | (refine not_compiles (reaches_step (b := .valueRange) ?_ rv) hf; simp [includes]; done)
        | (refine not_compiles (reaches_step (b := .result) ?_ rr) hf; simp [includes]; done)
        | (refine not_compiles (reaches_step (b := .join) ?_ rj) hf; simp [includes]; done)
        | (refine not_compiles (reaches_step (b := .byteBufferRead) ?_ rb) hf; simp [includes]; done)
        | (refine not_compiles (reaches_step (b := .dereferencingIterator) ?_ rd) hf; simp [includes]; done)
        | (refine not_compiles (reaches_step (b := .hexlify) ?_ rx) hf; simp [includes]; done)
        | (refine not_compiles (reaches_step (b := .byteBuffer) ?_ ry) hf; simp [includes]; done)
  · intro hx
    have hx' : bare x = true := by
      simp only [List.mem_cons, List.not_mem_nil, or_false] at hx
      rcases hx with rfl | rfl | rfl | rfl | rfl | rfl <;> rfl
    exact compiles_closed (S := bare) (fun y hy => by cases y <;> first | rfl | (cases hy; done))
      (fun y hy => by cases y <;> first | rfl | (cases hy; done)) hx'

example : ¬ Compiles { plain with byteU8 := true, byteChar := true } .result := fun h => by
  have := (c150_several_types_partial { plain with byteU8 := true, byteChar := true } (.inl ⟨rfl, rfl⟩) .result).1 h
  simp at this

/-- The headers that need the encodings, directly or not. -/
private def needsEncoding (idType : Bool) : Header → Bool
  | .encoding | .ioConcepts | .byteUtilities | .byteBufferRead | .byteBufferWrite | .byteReadBufferView
  | .byteWriteBufferView | .byteBuffer | .io | .uuid | .uuidFunctions | .core | .coreIo | .wite => true
  | .id | .itemCollection | .collections => !idType
  | _ => false

/-- C150 (what holds): both byte orders are an error in every header that needs the encodings; with an unsigned byte type
and exceptions the others compile, the files, the byte streams and the hexadecimal conversions among them. -/
theorem c150_both_orders_partial (cfg : Macros) (h : cfg.little = true ∧ cfg.big = true) (hu : UnsignedBytes cfg)
    (hc : Consistent { cfg with big := false }) (hn : cfg.noExceptions = false) (x : Header) :
    ¬ Compiles cfg x ↔
      x ∈ [Header.encoding, .ioConcepts, .byteUtilities, .byteBufferRead, .byteBufferWrite, .byteReadBufferView,
        .byteWriteBufferView, .byteBuffer, .io, .uuid, .uuidFunctions, .core, .coreIo, .wite] ∨
      (cfg.idType = false ∧ x ∈ [Header.id, .itemCollection, .collections]) := by
  have hf : fails cfg .encoding = true := by
    unfold fails nativeEndianness
    simp [h.1, h.2]
  have r0 : Reaches cfg .encoding .encoding := .refl
  have rb : Reaches cfg .byteBufferRead .encoding := reaches_one (by simp [includes])
  have rw' : Reaches cfg .byteBuffer .encoding := reaches_step (b := .byteBufferRead) (by simp [includes]) rb
  have ru : Reaches cfg .uuid .encoding := reaches_step (b := .byteBuffer) (by simp [includes]) rw'
  have rc : Reaches cfg .core .encoding := reaches_step (b := .uuid) (by simp [includes]) ru
  have ri : Reaches cfg .ioConcepts .encoding := reaches_one (by simp [includes])
  constructor
  · intro hx
    by_cases hm : needsEncoding cfg.idType x = true
    · cases hid : cfg.idType <;> rw [hid] at hm <;> cases x <;> first | (cases hm; done) | simp
    · refine absurd (compiles_closed (S := fun y => !needsEncoding cfg.idType y) ?_ ?_ (by simp [hm])) hx
      · intro y hy
        cases hid : cfg.idType <;> rw [hid] at hy <;> cases y <;> first
          | (cases hy; done)
          | rfl
          | simp [includes, hid, needsEncoding]
      · intro y hy
        cases y <;> first
          | rfl
          | exact hn
          | exact features_ok (cfg := { cfg with big := false }) hc
          | exact (hexlify_ok (cfg := { cfg with big := false }) hc).2 hu
          | (cases hy; done)
  · intro hx
    simp only [List.mem_cons, List.not_mem_nil, or_false] at hx
    rcases hx with (rfl | rfl | rfl | rfl | rfl | rfl | rfl | rfl | rfl | rfl | rfl | rfl | rfl | rfl) | ⟨hid, rfl | rfl | rfl⟩
    · exact not_compiles r0 hf
    · exact not_compiles ri hf
    · exact not_compiles (reaches_step (b := .ioConcepts) (by simp [includes]) ri) hf
    · exact not_compiles rb hf
    · exact not_compiles (reaches_one (by simp [includes])) hf
    · exact not_compiles (reaches_one (by simp [includes])) hf
    · exact not_compiles (reaches_one (by simp [includes])) hf
    · exact not_compiles rw' hf
    · exact not_compiles (reaches_one (by simp [includes])) hf
    · exact not_compiles ru hf
    · exact not_compiles (reaches_step (b := .byteBuffer) (by simp [includes]) rw') hf
    · exact not_compiles rc hf
    · exact not_compiles (reaches_step (b := .uuid) (by simp [includes]) ru) hf
    · exact not_compiles (reaches_step (b := .core) (by simp [includes]) rc) hf
    · exact not_compiles (reaches_step (b := .uuid) (by simp [includes, hid]) ru) hf
    · exact not_compiles (reaches_step (b := .id) (by simp [includes])
        (reaches_step (b := .uuid) (by simp [includes, hid]) ru)) hf
    · exact not_compiles (reaches_step (b := .itemCollection) (by simp [includes]) (reaches_step (b := .id)
        (by simp [includes]) (reaches_step (b := .uuid) (by simp [includes, hid]) ru))) hf

example : ¬ Compiles { plain with little := true, big := true } .byteBuffer ∧
    Compiles { plain with little := true, big := true } .byteBufferFile := by
  have h := c150_both_orders_partial { plain with little := true, big := true } ⟨rfl, rfl⟩ (by simp [UnsignedBytes, plain])
    (by simp [Consistent, plain]) rfl
  refine ⟨(h _).2 (by simp), Classical.not_not.1 fun hn => ?_⟩
  have := (h _).1 hn
  simp at this

end Wite.Props
