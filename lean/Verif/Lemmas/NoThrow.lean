import Verif.Model.Io
import Verif.Model.IoView
import Verif.Model.Hexlify
import Verif.Model.HexlifyWide
import Verif.Model.Uuid

/-!
# Which calls never end in an exception

Whatever the arguments and the state: the calls below return, are undefined, terminate the program or do not come back,
but they do not throw.
-/

namespace Wite

/-- The call does not end in an exception. -/
structure Outcome.NeverThrows {α : Type} (x : Outcome α) : Prop where
  ne : ∀ e, x ≠ .throw e

/-- The call does not end in an exception, whatever the object. -/
structure St.NeverThrows {σ α : Type} (x : St σ α) : Prop where
  ne : ∀ s e, (x.run s).1 ≠ .throw e

namespace Outcome
variable {α β : Type}

theorem nt_ok (a : α) : NeverThrows (.ok a) := ⟨fun _ h => nomatch h⟩
theorem nt_ub : NeverThrows (.ub : Outcome α) := ⟨fun _ h => nomatch h⟩
theorem nt_pure (a : α) : NeverThrows (pure a : Outcome α) := ⟨fun _ h => nomatch h⟩
theorem nt_bind {x : Outcome α} {f : α → Outcome β} (hx : x.NeverThrows) (hf : ∀ a, (f a).NeverThrows) :
    (x >>= f).NeverThrows := by
  cases x with
  | ok a => exact hf a
  | throw e => exact absurd rfl (hx.ne e)
  | ub => exact ⟨fun _ h => nomatch h⟩
  | terminate => exact ⟨fun _ h => nomatch h⟩
  | diverge => exact ⟨fun _ h => nomatch h⟩
theorem nt_map {x : Outcome α} {f : α → β} (hx : x.NeverThrows) : (f <$> x).NeverThrows := by
  cases x with
  | ok a => exact ⟨fun _ h => nomatch h⟩
  | throw e => exact absurd rfl (hx.ne e)
  | ub => exact ⟨fun _ h => nomatch h⟩
  | terminate => exact ⟨fun _ h => nomatch h⟩
  | diverge => exact ⟨fun _ h => nomatch h⟩
theorem nt_ite {p : Prop} [Decidable p] {x y : Outcome α} (hx : x.NeverThrows) (hy : y.NeverThrows) :
    (if p then x else y).NeverThrows := by split <;> assumption

end Outcome

namespace St
variable {σ α β : Type}

theorem nt_pure (a : α) : NeverThrows (pure a : St σ α) := ⟨fun _ _ h => nomatch h⟩
theorem nt_ub : NeverThrows (St.ub : St σ α) := ⟨fun _ _ h => nomatch h⟩
theorem nt_get : NeverThrows (St.get : St σ σ) := ⟨fun _ _ h => nomatch h⟩
theorem nt_set (s : σ) : NeverThrows (St.set s) := ⟨fun _ _ h => nomatch h⟩
theorem nt_lift {x : Outcome α} (hx : x.NeverThrows) : NeverThrows (St.lift x : St σ α) := ⟨fun _ e h => hx.ne e h⟩
theorem nt_bind {x : St σ α} {f : α → St σ β} (hx : x.NeverThrows) (hf : ∀ a, (f a).NeverThrows) :
    (x >>= f).NeverThrows := by
  refine ⟨fun s e => ?_⟩
  have h1 := hx.ne s e
  show (St.bind x f s).1 ≠ _
  unfold St.bind
  change (x s).1 ≠ _ at h1
  split
  · exact (hf _).ne _ e
  · rename_i e' s' h
    rw [h] at h1
    exact fun h' => h1 (congrArg Outcome.throw (Outcome.throw.inj h'))
  all_goals exact fun h => nomatch h
theorem nt_ite {p : Prop} [Decidable p] {x y : St σ α} (hx : x.NeverThrows) (hy : y.NeverThrows) :
    (if p then x else y).NeverThrows := by split <;> assumption

end St

open Outcome

theorem Join.writeOne_nt {α : Type} (st : List α × Nat) (c : α) : (Join.writeOne st c).NeverThrows := by
  unfold Join.writeOne
  exact nt_ite (nt_ok _) nt_ub

/-! ### Reading and writing bytes -/

namespace Io

theorem readMem_nt (buf : List Nat) (pos n : Nat) : (readMem buf pos n).NeverThrows := nt_ite (nt_ok _) nt_ub
theorem spanFrom_nt (buf : List Nat) (pos : Nat) : (spanFrom buf pos).NeverThrows := nt_ite (nt_ok _) nt_ub
theorem uncheckedRead_nt (host : Endian) (t : Ty) (buf : List Nat) (pos : Nat) :
    (uncheckedRead host t buf pos).NeverThrows := nt_bind (readMem_nt ..) fun _ => nt_pure _
theorem generateRead_nt (host : Endian) (t : Ty) (buf : List Nat) :
    ∀ n pos, (generateRead host t buf n pos).NeverThrows
  | 0, _ => nt_ok _
  | n + 1, _ => nt_bind (uncheckedRead_nt ..) fun _ => nt_bind (generateRead_nt host t buf n _) fun _ => nt_pure _
theorem tryRead_nt (host : Endian) (t : Ty) (buf : List Nat) : (tryRead host t buf).NeverThrows :=
  nt_ite (nt_ok _) (nt_bind (uncheckedRead_nt ..) fun _ => nt_pure _)
theorem tryReadRange_nt (host : Endian) (t : Ty) (n : Nat) (buf : List Nat) :
    (tryReadRange host t n buf).NeverThrows :=
  nt_ite (nt_ok _) (nt_bind (generateRead_nt ..) fun _ => nt_pure _)
theorem tryReadAt_nt (host : Endian) (t : Ty) (pos : Nat) (buf : List Nat) : (tryReadAt host t pos buf).NeverThrows :=
  nt_ite (nt_ok _) (nt_ite (nt_ok _) (nt_bind (spanFrom_nt ..) fun _ => tryRead_nt ..))
theorem tryReadRangeAt_nt (host : Endian) (t : Ty) (n pos : Nat) (buf : List Nat) :
    (tryReadRangeAt host t n pos buf).NeverThrows :=
  nt_ite (nt_ok _) (nt_ite (nt_ok _) (nt_bind (spanFrom_nt ..) fun _ => tryReadRange_nt ..))
theorem recursiveTryRead_nt (host : Endian) : ∀ ts buf, (recursiveTryRead host ts buf).NeverThrows
  | [], _ => nt_ok _
  | _ :: ts, _ => nt_bind (tryRead_nt ..) fun _ => nt_bind (spanFrom_nt ..) fun _ =>
      nt_bind (recursiveTryRead_nt host ts _) fun _ => nt_pure _
theorem recursiveTryReadAt_nt (host : Endian) : ∀ ts pos buf, (recursiveTryReadAt host ts pos buf).NeverThrows
  | [], _, _ => nt_ok _
  | _ :: ts, _, _ => nt_bind (tryReadAt_nt ..) fun _ => nt_bind (recursiveTryReadAt_nt host ts _ _) fun _ => nt_pure _

theorem writeMem_nt (pos : Nat) (bs : List Nat) : (writeMem pos bs).NeverThrows := by
  refine ⟨fun s e => ?_⟩
  show (writeMem pos bs s).1 ≠ _
  unfold writeMem
  split <;> exact fun h => nomatch h
theorem writeSingle_nt (host : Endian) (enc : Enc) (o : Obj) (pos : Nat) : (writeSingle host enc o pos).NeverThrows :=
  St.nt_bind (writeMem_nt ..) fun _ => St.nt_pure _
theorem writeRangeLoop_nt (host : Endian) : ∀ os w pos, (writeRangeLoop host os w pos).NeverThrows
  | [], _, _ => St.nt_pure _
  | _ :: os, _, _ => St.nt_bind (writeSingle_nt ..) fun _ => writeRangeLoop_nt host os _ _
theorem uncheckedWrite_nt (host : Endian) (pos : Nat) (v : WVal) : (uncheckedWrite host pos v).NeverThrows := by
  cases v with
  | single => exact writeSingle_nt ..
  | range => exact writeRangeLoop_nt ..
theorem tryWriteOne_nt (host : Endian) (start : Nat) (v : WVal) : (tryWriteOne host start v).NeverThrows :=
  St.nt_bind St.nt_get fun _ => St.nt_ite St.nt_ub (St.nt_ite (St.nt_pure _)
    (St.nt_bind (uncheckedWrite_nt ..) fun _ => St.nt_pure _))
theorem recursiveTryWrite_nt (host : Endian) : ∀ start vs, (recursiveTryWrite host start vs).NeverThrows
  | _, [] => St.nt_pure _
  | _, v :: vs => St.nt_bind (tryWriteOne_nt ..) fun r => by
    cases r with
    | error e => exact St.nt_pure _
    | value n => exact St.nt_ite (St.nt_pure _) (St.nt_bind (recursiveTryWrite_nt host _ vs) fun r => by
        cases r <;> exact St.nt_pure _)
theorem tryWriteAt_nt (host : Endian) (pos : Nat) (v : WVal) : (tryWriteAt host pos v).NeverThrows :=
  St.nt_bind St.nt_get fun _ => St.nt_ite (St.nt_pure _) (St.nt_ite (St.nt_pure _)
    (St.nt_bind (tryWriteOne_nt ..) fun r => by cases r <;> exact St.nt_pure _))
theorem recursiveTryWriteAt_nt (host : Endian) : ∀ pos vs, (recursiveTryWriteAt host pos vs).NeverThrows
  | _, [] => St.nt_pure _
  | _, _ :: vs => St.nt_bind (tryWriteAt_nt ..) fun r => by
    cases r with
    | error e => exact St.nt_pure _
    | value n => exact St.nt_ite (St.nt_pure _) (recursiveTryWriteAt_nt host _ vs)
theorem tryToBytes_nt (host : Endian) (enc : Enc) (o : Obj) : (tryToBytes host enc o).NeverThrows := by
  refine ⟨fun e => ?_⟩
  have h1 := (recursiveTryWrite_nt host 0 [.single enc o]).ne (List.replicate o.length 0)
  unfold tryToBytes tryWrite
  split
  · exact fun h => nomatch h
  · exact fun h => nomatch h
  · rename_i e' s' h
    rw [h] at h1
    exact fun _ => h1 e' rfl
  all_goals exact fun h => nomatch h

/-! ### Views -/

theorem ReadView.uncheckedSeek_nt (p : Nat) : (ReadView.uncheckedSeek p).NeverThrows := by
  refine ⟨fun s e => ?_⟩
  show (ReadView.uncheckedSeek p s).1 ≠ _
  unfold ReadView.uncheckedSeek
  split <;> exact fun h => nomatch h
theorem ReadView.trySeek_nt (p : Nat) : (ReadView.trySeek p).NeverThrows :=
  St.nt_bind St.nt_get fun _ => St.nt_ite (St.nt_pure _) (St.nt_bind (ReadView.uncheckedSeek_nt p) fun _ => St.nt_pure _)
theorem ReadView.rest_nt : ReadView.rest.NeverThrows := St.nt_bind St.nt_get fun _ => St.nt_lift (spanFrom_nt ..)
theorem ReadView.advance_nt (n : Nat) : (ReadView.advance n).NeverThrows := by
  refine ⟨fun s e => ?_⟩
  show (ReadView.advance n s).1 ≠ _
  unfold ReadView.advance
  split <;> exact fun h => nomatch h
theorem ReadView.tryRead_nt (host : Endian) (ts : List Ty) : (ReadView.tryRead host ts).NeverThrows :=
  St.nt_bind ReadView.rest_nt fun _ => St.nt_bind (St.nt_lift (recursiveTryRead_nt ..)) fun _ =>
    St.nt_bind St.nt_get fun _ => St.nt_bind (ReadView.advance_nt _) fun _ => St.nt_pure _
theorem ReadView.tryReadRange_nt (host : Endian) (t : Ty) (n : Nat) : (ReadView.tryReadRange host t n).NeverThrows :=
  St.nt_bind ReadView.rest_nt fun _ => St.nt_bind (St.nt_lift (Io.tryReadRange_nt ..)) fun r => by
    cases r with
    | value vs => exact St.nt_bind (ReadView.advance_nt _) fun _ => St.nt_pure _
    | error e => exact St.nt_bind St.nt_get fun _ => St.nt_bind (St.nt_set _) fun _ => St.nt_pure _
theorem WriteView.uncheckedSeek_nt (p : Nat) : (WriteView.uncheckedSeek p).NeverThrows := by
  refine ⟨fun s e => ?_⟩
  show (WriteView.uncheckedSeek p s).1 ≠ _
  unfold WriteView.uncheckedSeek
  split <;> exact fun h => nomatch h
theorem WriteView.trySeek_nt (p : Nat) : (WriteView.trySeek p).NeverThrows :=
  St.nt_bind St.nt_get fun _ => St.nt_ite (St.nt_pure _) (St.nt_bind (WriteView.uncheckedSeek_nt p) fun _ => St.nt_pure _)
theorem WriteView.advance_nt (n : Nat) : (WriteView.advance n).NeverThrows := by
  refine ⟨fun s e => ?_⟩
  show (WriteView.advance n s).1 ≠ _
  unfold WriteView.advance
  split <;> exact fun h => nomatch h
theorem WriteView.tryWrite_nt (host : Endian) (vs : List WVal) : (WriteView.tryWrite host vs).NeverThrows :=
  St.nt_bind ⟨fun s e => (recursiveTryWrite_nt host s.pos vs).ne s.data e⟩ fun r => by
    cases r with
    | value n => exact St.nt_bind (WriteView.advance_nt _) fun _ => St.nt_pure _
    | error e => exact St.nt_pure _

end Io

/-! ### Hexadecimal strings -/

namespace Hex

theorem unsafeFromHexChars_nt : ∀ n str, (unsafeFromHexChars n str).NeverThrows
  | 0, _ => nt_ok _
  | n + 1, _ :: _ :: rest => nt_bind (unsafeFromHexChars_nt n rest) fun _ => nt_pure _
  | _ + 1, [] => nt_ub
  | _ + 1, [_] => nt_ub
theorem tryFromHexChars_nt (n : Nat) (str : List Nat) : (tryFromHexChars n str).NeverThrows :=
  nt_ite (nt_ok _) (nt_ite (nt_ok _) (nt_map (unsafeFromHexChars_nt ..)))
theorem unsafeUnhexlifyN_nt : ∀ n str, (unsafeUnhexlifyN n str).NeverThrows
  | 0, _ => nt_ok _
  | n + 1, _ :: _ :: rest => nt_bind (unsafeFromHexChars_nt ..) fun _ =>
      nt_bind (unsafeUnhexlifyN_nt n rest) fun _ => nt_pure _
  | _ + 1, [] => nt_ub
  | _ + 1, [_] => nt_ub
theorem tryUnhexlifyN_nt (n : Nat) (str : List Nat) : (tryUnhexlifyN n str).NeverThrows :=
  nt_ite (nt_ok _) (nt_ite (nt_ok _) (nt_map (unsafeUnhexlifyN_nt ..)))

end Hex

/-! ### UUIDs -/

namespace Uuid

theorem isxdigit_nt (c : Nat) : (isxdigit c).NeverThrows := nt_ite (nt_ok _) nt_ub
theorem hasInvalidDelimiter_nt : ∀ ds s, (hasInvalidDelimiter ds s).NeverThrows
  | [], _ => nt_ok _
  | (v, pos) :: ds, s => by
    unfold hasInvalidDelimiter
    split
    · exact nt_ub
    · exact nt_ite (nt_ok _) (hasInvalidDelimiter_nt ds s)
theorem isAValidUuidString_nt (fmt : Format) (s : List Nat) : (isAValidUuidString fmt s).NeverThrows := by
  unfold isAValidUuidString
  refine nt_ite (nt_ok _) ?_
  split
  · exact nt_ite (nt_ok _) (nt_bind (hasInvalidDelimiter_nt ..) fun _ => nt_pure _)
  · exact nt_ub
theorem remove0x_nt : ∀ s st, (remove0x s st).NeverThrows
  | [], _ => nt_ok _
  | [c], st => nt_ite nt_ub (nt_bind (isxdigit_nt _) fun _ => nt_ite (nt_pure _) (Join.writeOne_nt ..))
  | c :: c' :: rest, st => by
    unfold remove0x
    exact nt_ite (remove0x_nt rest st) (nt_bind (isxdigit_nt _) fun _ =>
      nt_ite (remove0x_nt (c' :: rest) st) (nt_bind (Join.writeOne_nt ..) fun st' => remove0x_nt (c' :: rest) st'))
theorem copyHex_nt : ∀ s st, (copyHex s st).NeverThrows
  | [], _ => nt_ok _
  | _ :: rest, st => nt_bind (isxdigit_nt _) fun _ =>
      nt_ite (nt_bind (Join.writeOne_nt ..) fun st' => copyHex_nt rest st') (copyHex_nt rest st)
theorem stripNonHex_nt (s : List Nat) (p : Bool) : (stripNonHex s p).NeverThrows := by
  unfold stripNonHex
  cases p
  · exact nt_bind (copyHex_nt ..) fun _ => nt_pure _
  · exact nt_bind (remove0x_nt ..) fun _ => nt_pure _
theorem ofCStr_nt (s : List Nat) : (ofCStr s).NeverThrows := by
  unfold ofCStr
  exact nt_ite (nt_ok _) nt_ub
theorem tryMakeFmt_nt (s : List Nat) (fmt : Format) (behind : List Nat) : (tryMakeFmt s fmt behind).NeverThrows :=
  nt_bind (isAValidUuidString_nt ..) fun _ => nt_ite (nt_pure _) (nt_bind (stripNonHex_nt ..) fun _ =>
    nt_ite (nt_pure _) (nt_bind (nt_bind (ofCStr_nt _) fun _ => nt_bind (Hex.unsafeUnhexlifyN_nt ..) fun _ => nt_pure _)
      fun _ => nt_pure _))
theorem tryMake_nt (s : List Nat) (f : Char) (behind : List Nat) : (tryMake s f behind).NeverThrows := by
  unfold tryMake
  split <;> first | exact tryMakeFmt_nt .. | exact nt_ok _

end Uuid

end Wite
