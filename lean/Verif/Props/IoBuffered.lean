import Verif.Model.IoBuffered
import Mathlib.Tactic.ByContra

/-!
# C217: what `write` of io/byte_stream.hpp wrote is in the file, for streams with a buffer

The policy is any, so the theorems hold for buffers of every size and every time of emptying them.
-/

namespace Wite.Props

open Wite Wite.Io.Buffered
open Wite.Io (Obj)
open Wite.Io.Ios (Bits failure)

/-- The device of `room` bytes, of which the file has taken its length. -/
private def Left (room : Option Nat) (s : Stream) : Prop :=
  match room with
  | none => s.room = none
  | some r => s.file.length ≤ r ∧ s.room = some (r - s.file.length)

/-- After `w` has been written. -/
private structure Has (room : Option Nat) (w : List Nat) (s : Stream) : Prop where
  pre : s.file <+: w
  good : s.state.good = true → s.file ++ s.kept = w
  bad : s.state.good = false → s.file.length < w.length
  left : Left room s

private theorem takes_le (n : Nat) (s : Stream) : s.takes n ≤ n := by
  unfold Stream.takes; split <;> omega

private theorem left_send {room : Option Nat} {s : Stream} (h : Left room s) (out : List Nat) :
    Left room { s with file := s.file ++ out.take (s.takes out.length), room := s.room.map (· - s.takes out.length) } := by
  unfold Left at h ⊢
  cases room with
  | none => simp only at h ⊢; rw [h]; rfl
  | some r =>
    obtain ⟨h1, h2⟩ := h
    have ht : s.takes out.length = min out.length (r - s.file.length) := by unfold Stream.takes; rw [h2]
    simp only [h2, Option.map_some, List.length_append, List.length_take, ht]
    refine ⟨by omega, ?_⟩
    congr 1; omega

private theorem left_kept {room : Option Nat} {s : Stream} (h : Left room s) (k : List Nat) : Left room { s with kept := k } := h

private theorem left_state {room : Option Nat} {s : Stream} (h : Left room s) (b : Bits) : Left room { s with state := b } := h

/-- What giving bytes to the device does. -/
private theorem send_spec (p : Policy) (bs : List Nat) (k : Nat) (s : Stream) (room : Option Nat) (h : Left room s) :
    ∃ t, (s.send p bs k).2 = t ∧ t.state = s.state ∧ t.mask = s.mask ∧ t.unit = s.unit ∧ Left room t ∧
      ((s.send p bs k).1 = true → t.file ++ t.kept = s.file ++ bs ∧ t.kept = bs.drop (bs.length - k)) ∧
      ((s.send p bs k).1 = false → t.file <+: s.file ++ bs ∧ t.file.length < (s.file ++ bs).length ∧
        ∃ r, room = some r ∧ r < (s.file ++ bs).length) := by
  refine ⟨_, rfl, ?_⟩
  have hl := left_send h (bs.take (bs.length - k))
  have hle := takes_le (bs.take (bs.length - k)).length s
  by_cases hn : s.takes (bs.take (bs.length - k)).length = (bs.take (bs.length - k)).length
  · have e : s.send p bs k = (true, { s with
        file := s.file ++ (bs.take (bs.length - k)).take (s.takes (bs.take (bs.length - k)).length)
        room := s.room.map (· - s.takes (bs.take (bs.length - k)).length)
        kept := bs.drop (bs.length - k) }) := by
      unfold Stream.send; dsimp only; rw [if_pos hn]
    rw [e]
    refine ⟨rfl, rfl, rfl, left_kept hl _, fun _ => ⟨?_, rfl⟩, fun h => by cases h⟩
    show s.file ++ (bs.take (bs.length - k)).take (s.takes (bs.take (bs.length - k)).length) ++ bs.drop (bs.length - k) = _
    rw [hn, List.take_length, List.append_assoc, List.take_append_drop]
  · have e : s.send p bs k = (false, { s with
        file := s.file ++ (bs.take (bs.length - k)).take (s.takes (bs.take (bs.length - k)).length)
        room := s.room.map (· - s.takes (bs.take (bs.length - k)).length)
        kept := p.rest bs }) := by
      unfold Stream.send; dsimp only; rw [if_neg hn]
    rw [e]
    have h2 : (bs.take (bs.length - k)).length ≤ bs.length := by rw [List.length_take]; omega
    refine ⟨rfl, rfl, rfl, left_kept hl _, (fun h => by cases h), fun _ => ⟨?_, ?_, ?_⟩⟩
    · exact (List.prefix_append_right_inj _).2 ((List.take_prefix _ _).trans (List.take_prefix _ _))
    · show (s.file ++ (bs.take (bs.length - k)).take (s.takes (bs.take (bs.length - k)).length)).length < _
      rw [List.length_append, List.length_append, List.length_take]; omega
    · unfold Left at h
      cases room with
      | none => exfalso; apply hn; unfold Stream.takes; rw [h]
      | some r =>
        refine ⟨r, rfl, ?_⟩
        obtain ⟨h3, h4⟩ := h
        have ht : s.takes (bs.take (bs.length - k)).length = min (bs.take (bs.length - k)).length (r - s.file.length) := by
          unfold Stream.takes; rw [h4]
        rw [List.length_append]; omega

private theorem not_good_or (b : Bits) : (b.or badbit).good = false ∧ (b.or failbit).good = false := by
  obtain ⟨e, f, d⟩ := b
  cases e <;> cases f <;> cases d <;> exact ⟨rfl, rfl⟩

private theorem setState_spec (b : Bits) (s : Stream) :
    (s.setState b).2 = { s with state := s.state.or b } ∧ ((s.setState b).1 = .ok () ∨ (s.setState b).1 = .throw failure) := by
  unfold Stream.setState
  dsimp only
  split
  · exact ⟨rfl, .inr rfl⟩
  · exact ⟨rfl, .inl rfl⟩

private theorem fail_has {room : Option Nat} {w : List Nat} {t : Stream} (h1 : t.file <+: w) (h2 : t.file.length < w.length)
    (h3 : Left room t) : Has room w { t with state := t.state.or badbit } :=
  ⟨h1, fun h => (by rw [(not_good_or _).1] at h; cases h), fun _ => h2, left_state h3 _⟩

private theorem longer {room : Option Nat} {w : List Nat} {s : Stream} (h : Has room w s) (hb : s.state.good = false) (v : List Nat) :
    Has room (w ++ v) s :=
  ⟨h.pre.trans (List.prefix_append _ _), fun e => (by rw [hb] at e; cases e), fun _ => (by
    have := h.bad hb; rw [List.length_append]; omega), h.left⟩

/-- One `write`. -/
private theorem write_spec (p : Policy) (o : Obj) (room : Option Nat) (w : List Nat) (s : Stream) (h : Has room w s) :
    Has room (w ++ o) (write p o s).2 ∧ ((write p o s).1 = .ok () ∨ (write p o s).1 = .throw failure) ∧
    ((write p o s).1 = .throw failure → (write p o s).2.state.good = false) ∧
    ((∀ r, room = some r → (w ++ o).length ≤ r) → s.state.good = true →
      (write p o s).1 = .ok () ∧ (write p o s).2.state.good = true) ∧
    (write p o s).2.unit = s.unit ∧
    (s.unit = true → (s.state.good = true → s.kept = []) → (write p o s).2.state.good = true → (write p o s).2.kept = []) := by
  by_cases hg : s.state.good = true
  · obtain ⟨t, e, e1, e2, e3, hl, hok, hno⟩ := send_spec p (s.kept ++ o) (p.keep s.kept.length o.length) s room h.left
    have hw : s.file ++ (s.kept ++ o) = w ++ o := by rw [← List.append_assoc, h.good hg]
    rw [hw] at hok hno
    cases hs : s.send p (s.kept ++ o) (p.keep s.kept.length o.length) with
    | mk r t' =>
      rw [hs] at e hok hno
      simp only at e hok hno
      subst e
      cases r with
      | true =>
        obtain ⟨k1, -⟩ := hok rfl
        by_cases hu : t'.unit = true
        · obtain ⟨z, f, f1, f2, f3, hl', gok, gno⟩ := send_spec p t'.kept 0 t' room hl
          rw [k1] at gok gno
          cases hz : t'.sync p with
          | mk q z' =>
            have hz' : t'.send p t'.kept 0 = (q, z') := hz
            rw [hz'] at f gok gno
            simp only at f gok gno
            subst f
            cases q with
            | true =>
              obtain ⟨g1, g2⟩ := gok rfl
              have hk : z'.kept = [] := by rw [g2]; simp
              have ew : write p o s = (.ok (), z') := by unfold write; rw [if_pos hg, hs]; simp only [hu, if_true, hz]
              rw [ew]
              have hst : z'.state.good = true := by rw [f1, e1]; exact hg
              refine ⟨⟨?_, fun _ => g1, fun hb => ?_, hl'⟩, .inl rfl, (fun hc => by cases hc), fun _ _ => ⟨rfl, hst⟩,
                f3.trans e3, fun _ _ _ => hk⟩
              · rw [← g1]; exact List.prefix_append _ _
              · rw [hst] at hb; cases hb
            | false =>
              obtain ⟨g1, g2, r0, g3, g4⟩ := gno rfl
              have ew : write p o s = (.ok (), { z' with state := z'.state.or badbit }) := by
                unfold write; rw [if_pos hg, hs]; simp only [hu, if_true, hz]
              rw [ew]
              refine ⟨fail_has g1 g2 hl', .inl rfl, (fun hc => by cases hc), fun hr => ?_, f3.trans e3, fun _ _ hc => ?_⟩
              · have := hr r0 g3; omega
              · simp only at hc; rw [(not_good_or _).1] at hc; cases hc
        · have hu' : t'.unit = false := by simpa using hu
          have ew : write p o s = (.ok (), t') := by unfold write; rw [if_pos hg, hs]; simp only [hu', Bool.false_eq_true, if_false]
          rw [ew]
          have hst : t'.state.good = true := by rw [e1]; exact hg
          refine ⟨⟨?_, fun _ => k1, fun hb => ?_, hl⟩, .inl rfl, (fun hc => by cases hc), fun _ _ => ⟨rfl, hst⟩, e3, fun hc => ?_⟩
          · rw [← k1]; exact List.prefix_append _ _
          · rw [hst] at hb; cases hb
          · rw [← e3, hu'] at hc; cases hc
      | false =>
        obtain ⟨k1, k2, r0, k3, k4⟩ := hno rfl
        have ew : write p o s = t'.setState badbit := by unfold write; rw [if_pos hg, hs]
        obtain ⟨q1, q2⟩ := setState_spec badbit t'
        rw [ew, q1]
        refine ⟨fail_has k1 k2 hl, q2, fun _ => (not_good_or _).1, fun hr => ?_, e3, fun _ _ hc => ?_⟩
        · have := hr r0 k3; omega
        · simp only at hc; rw [(not_good_or _).1] at hc; cases hc
  · have hb : s.state.good = false := by simpa using hg
    have ew : write p o s = (.ok (), s) := by unfold write; rw [if_neg hg]
    rw [ew]
    exact ⟨longer h hb o, .inl rfl, (fun hc => by cases hc), fun _ hc => absurd hc hg, rfl, fun _ _ hc => absurd hc hg⟩

/-- One `flush`. -/
private theorem flush_spec (p : Policy) (room : Option Nat) (w : List Nat) (s : Stream) (h : Has room w s) :
    Has room w (flush p s).2 ∧ ((flush p s).1 = .ok () ∨ (flush p s).1 = .throw failure) ∧
    ((flush p s).1 = .throw failure → (flush p s).2.state.good = false) ∧
    ((∀ r, room = some r → w.length ≤ r) → s.state.good = true → (flush p s).1 = .ok () ∧ (flush p s).2.state.good = true) ∧
    (flush p s).2.unit = s.unit ∧ ((flush p s).2.state.good = true → (flush p s).2.kept = []) := by
  by_cases hg : s.state.good = true
  · obtain ⟨z, f, f1, f2, f3, hl', gok, gno⟩ := send_spec p s.kept 0 s room h.left
    rw [h.good hg] at gok gno
    cases hz : s.sync p with
    | mk q z' =>
      have hz' : s.send p s.kept 0 = (q, z') := hz
      rw [hz'] at f gok gno
      simp only at f gok gno
      subst f
      cases q with
      | true =>
        obtain ⟨g1, g2⟩ := gok rfl
        have hk : z'.kept = [] := by rw [g2]; simp
        have ew : flush p s = (.ok (), z') := by unfold flush; rw [if_pos hg, hz]
        have hst : z'.state.good = true := by rw [f1]; exact hg
        rw [ew]
        refine ⟨⟨?_, fun _ => g1, fun hb => ?_, hl'⟩, .inl rfl, (fun hc => by cases hc), fun _ _ => ⟨rfl, hst⟩, f3, fun _ => hk⟩
        · rw [← g1]; exact List.prefix_append _ _
        · rw [hst] at hb; cases hb
      | false =>
        obtain ⟨g1, g2, r0, g3, g4⟩ := gno rfl
        have ew : flush p s = z'.setState badbit := by unfold flush; rw [if_pos hg, hz]
        obtain ⟨q1, q2⟩ := setState_spec badbit z'
        rw [ew, q1]
        refine ⟨fail_has g1 g2 hl', q2, fun _ => (not_good_or _).1, fun hr => ?_, f3, fun hc => ?_⟩
        · have := hr r0 g3; omega
        · simp only at hc; rw [(not_good_or _).1] at hc; cases hc
  · have ew : flush p s = (.ok (), s) := by unfold flush; rw [if_neg hg]
    rw [ew]
    exact ⟨h, .inl rfl, (fun hc => by cases hc), fun _ hc => absurd hc hg, rfl, fun hc => absurd hc hg⟩

private theorem step_spec (p : Policy) (op : Op) (room : Option Nat) (w : List Nat) (s : Stream) (h : Has room w s) :
    Has room (w ++ bytes [op]) (op.run p s).2 ∧ ((op.run p s).1 = .ok () ∨ (op.run p s).1 = .throw failure) ∧
    ((op.run p s).1 = .throw failure → (op.run p s).2.state.good = false) ∧
    ((∀ r, room = some r → (w ++ bytes [op]).length ≤ r) → s.state.good = true →
      (op.run p s).1 = .ok () ∧ (op.run p s).2.state.good = true) ∧
    (op.run p s).2.unit = s.unit ∧
    (s.unit = true → (s.state.good = true → s.kept = []) → (op.run p s).2.state.good = true → (op.run p s).2.kept = []) := by
  cases op with
  | write o =>
    have : bytes [.write o] = o := List.append_nil o
    rw [this]
    exact write_spec p o room w s h
  | flush =>
    have : w ++ bytes [.flush] = w := List.append_nil w
    rw [this]
    obtain ⟨h1, h2, h3, h4, h5, h6⟩ := flush_spec p room w s h
    exact ⟨h1, h2, h3, h4, h5, fun _ _ => h6⟩

private theorem bytes_cons (op : Op) (ops : List Op) : bytes (op :: ops) = bytes [op] ++ bytes ops := by
  cases op with
  | write o => show o ++ bytes ops = (o ++ []) ++ bytes ops; rw [List.append_nil]
  | flush => rfl

private theorem cons_ok {p : Policy} {op : Op} {ops : List Op} {s : Stream} (h : (op.run p s).1 = .ok ()) :
    runAll p (op :: ops) s = runAll p ops (op.run p s).2 := by
  show St.bind _ _ s = _
  unfold St.bind
  cases hr : op.run p s with
  | mk a t => rw [hr] at h; cases h; rfl

private theorem cons_throw {p : Policy} {op : Op} {ops : List Op} {s : Stream} (h : (op.run p s).1 = .throw failure) :
    runAll p (op :: ops) s = (.throw failure, (op.run p s).2) := by
  show St.bind _ _ s = _
  unfold St.bind
  cases hr : op.run p s with
  | mk a t => rw [hr] at h; cases h; rfl

private theorem all_spec (p : Policy) (room : Option Nat) (ops : List Op) : ∀ (w : List Nat) (s : Stream), Has room w s →
    Has room (w ++ bytes ops) (runAll p ops s).2 ∧ ((runAll p ops s).1 = .ok () ∨ (runAll p ops s).1 = .throw failure) ∧
    ((runAll p ops s).1 = .throw failure → (runAll p ops s).2.state.good = false) ∧
    ((∀ r, room = some r → (w ++ bytes ops).length ≤ r) → s.state.good = true →
      (runAll p ops s).1 = .ok () ∧ (runAll p ops s).2.state.good = true) ∧
    (s.unit = true → (s.state.good = true → s.kept = []) → (runAll p ops s).2.state.good = true → (runAll p ops s).2.kept = []) := by
  induction ops with
  | nil =>
    intro w s h
    have : w ++ bytes [] = w := List.append_nil w
    rw [this]
    exact ⟨h, .inl rfl, (fun hc => by cases hc), fun _ hg => ⟨rfl, hg⟩, fun _ hk hg => hk hg⟩
  | cons op ops ih =>
    intro w s h
    obtain ⟨h1, h2, h3, h4, h5, h6⟩ := step_spec p op room w s h
    rw [bytes_cons, ← List.append_assoc]
    rcases h2 with h2 | h2
    · rw [cons_ok h2]
      obtain ⟨k1, k2, k3, k4, k5⟩ := ih (w ++ bytes [op]) (op.run p s).2 h1
      refine ⟨k1, k2, k3, fun hr hg => k4 hr (h4 (fun r hr' => ?_) hg).2, fun hu hk hg => k5 (h5.trans hu) (h6 hu hk) hg⟩
      have := hr r hr'
      rw [List.length_append] at this
      omega
    · rw [cons_throw h2]
      have hb := h3 h2
      refine ⟨longer h1 hb _, .inr rfl, fun _ => hb, fun hr hg => ?_, fun _ _ hc => ?_⟩
      · have := (h4 (fun r hr' => by have := hr r hr'; rw [List.length_append] at this; omega) hg).1
        rw [h2] at this; cases this
      · simp only at hc; rw [hb] at hc; cases hc

private theorem fresh_has (room : Option Nat) (mask : Bits) (unit : Bool) : Has room [] (fresh room mask unit) := by
  refine ⟨List.prefix_refl _, fun _ => rfl, (fun h => by cases h), ?_⟩
  unfold Left fresh
  cases room with
  | none => rfl
  | some r => exact ⟨Nat.zero_le _, rfl⟩

/-! ## The theorems -/

/-- C217, for every buffer: as long as the stream is open, the file holds the beginning of what was written, in order and with nothing
missing in between, and no more than the device takes.  Programs end normally or with `std::ios_base::failure`, and then the stream is not
good. -/
theorem c217_prefix (p : Policy) (ops : List Op) (room : Option Nat) (mask : Bits) (unit : Bool) :
    let r := runAll p ops (fresh room mask unit)
    r.2.file <+: bytes ops ∧ (∀ n, room = some n → r.2.file.length ≤ n) ∧ (r.1 = .ok () ∨ r.1 = .throw failure) ∧
      (r.1 = .throw failure → r.2.state.good = false) := by
  intro r
  obtain ⟨h1, h2, h3, _, _⟩ := all_spec p room ops [] _ (fresh_has room mask unit)
  refine ⟨h1.pre, fun n hn => ?_, h2, h3⟩
  have := h1.left
  unfold Left at this
  subst hn
  exact this.1

/-- C217, the part that holds for every buffer: if the device has room for all that is written, every call succeeds and everything is in the
file when the stream is gone. -/
theorem c217_room_partial (p : Policy) (ops : List Op) (room : Option Nat) (mask : Bits) (unit : Bool)
    (hroom : ∀ n, room = some n → (bytes ops).length ≤ n) :
    ∃ s, runAll p ops (fresh room mask unit) = (.ok (), s) ∧ s.state.good = true ∧ destroy p s = bytes ops := by
  obtain ⟨h1, _, _, h4, _⟩ := all_spec p room ops [] _ (fresh_has room mask unit)
  obtain ⟨k1, k2⟩ := h4 hroom rfl
  cases hr : runAll p ops (fresh room mask unit) with
  | mk a s =>
    rw [hr] at h1 k1 k2
    simp only at h1 k1 k2
    subst k1
    refine ⟨s, rfl, k2, ?_⟩
    obtain ⟨z, f, _, _, _, _, gok, gno⟩ := send_spec p s.kept 0 s room h1.left
    rw [h1.good k2] at gok gno
    unfold destroy Stream.sync
    cases hz : (s.send p s.kept 0).1 with
    | true =>
      obtain ⟨g1, g2⟩ := gok hz
      rw [f]
      rw [g2] at g1
      simpa using g1
    | false =>
      obtain ⟨_, _, r0, g3, g4⟩ := gno hz
      have := hroom r0 g3
      simp only [List.nil_append] at g4
      omega

/-- C217, the part that holds for every buffer: if the stream is good after a program, then `flush` and `close` leave it good exactly if
everything that was written is in the file then. -/
theorem c217_flush_partial (p : Policy) (ops : List Op) (room : Option Nat) (mask : Bits) (unit : Bool) (s : Stream)
    (h : runAll p ops (fresh room mask unit) = (.ok (), s)) (hg : s.state.good = true) :
    ((flush p s).2.state.good = true ↔ (flush p s).2.file = bytes ops) ∧
    ((close p s).2.state.good = true ↔ (close p s).2.file = bytes ops) := by
  obtain ⟨h1, _, _, _, _⟩ := all_spec p room ops [] _ (fresh_has room mask unit)
  rw [h] at h1
  simp only [List.nil_append] at h1
  obtain ⟨z, f, f1, f2, f3, hl', gok, gno⟩ := send_spec p s.kept 0 s room h1.left
  rw [h1.good hg] at gok gno
  cases hz : s.sync p with
  | mk q z' =>
    have hz' : s.send p s.kept 0 = (q, z') := hz
    rw [hz'] at f gok gno
    simp only at f gok gno
    subst f
    unfold flush close
    rw [if_pos hg, hz]
    cases q with
    | true =>
      obtain ⟨g1, g2⟩ := gok rfl
      have hfile : z'.file = bytes ops := by rw [g2] at g1; simpa using g1
      have hst : z'.state.good = true := by rw [f1]; exact hg
      exact ⟨⟨fun _ => hfile, fun _ => hst⟩, ⟨fun _ => hfile, fun _ => hst⟩⟩
    | false =>
      obtain ⟨_, g2, _⟩ := gno rfl
      have hfile : z'.file ≠ bytes ops := fun e => by rw [e] at g2; exact Nat.lt_irrefl _ g2
      simp only [(setState_spec _ z').1]
      exact ⟨⟨fun hc => (by rw [(not_good_or _).1] at hc; cases hc), fun hc => absurd hc hfile⟩,
        ⟨fun hc => (by rw [(not_good_or _).2] at hc; cases hc), fun hc => absurd hc hfile⟩⟩

/-- C217 is false for every stream that keeps something: for every value of which it keeps a byte there is a device on which `write` reports
success, whatever `exceptions()` is, the stream is good, and the bytes are missing in the file when the stream is gone.  Nothing reports it. -/
theorem c217_refuted (p : Policy) (o : Obj) (mask : Bits) (hkeep : 0 < p.keep 0 o.length) (ho : o ≠ []) :
    ∃ n s, runAll p [.write o] (fresh (some n) mask false) = (.ok (), s) ∧ s.state.good = true ∧ destroy p s ≠ o := by
  have hlen : 0 < o.length := List.length_pos_iff.2 ho
  have hs : (fresh (some (o.length - p.keep 0 o.length)) mask false).send p ([] ++ o) (p.keep 0 o.length) =
      (true, ⟨o.take (o.length - p.keep 0 o.length), o.drop (o.length - p.keep 0 o.length), some 0, .none, mask, false⟩) := by
    have e : (o.take (o.length - p.keep 0 o.length)).length = o.length - p.keep 0 o.length := by rw [List.length_take]; omega
    unfold Stream.send fresh Stream.takes
    simp only [List.nil_append, e, Nat.min_self, if_true, Option.map_some, Nat.sub_self]
    rw [List.take_take, Nat.min_self]
  refine ⟨o.length - p.keep 0 o.length, ⟨o.take (o.length - p.keep 0 o.length), o.drop (o.length - p.keep 0 o.length), some 0, .none, mask, false⟩,
    ?_, rfl, ?_⟩
  · have ew : write p o (fresh (some (o.length - p.keep 0 o.length)) mask false) =
        (.ok (), ⟨o.take (o.length - p.keep 0 o.length), o.drop (o.length - p.keep 0 o.length), some 0, .none, mask, false⟩) := by
      unfold write
      rw [if_pos (show (fresh (some (o.length - p.keep 0 o.length)) mask false).state.good = true from rfl)]
      have : (fresh (some (o.length - p.keep 0 o.length)) mask false).kept = [] := rfl
      rw [this, List.length_nil, hs]
      rfl
    rw [cons_ok (op := .write o) (by show (write p o _).1 = _; rw [ew])]
    show runAll p [] (write p o _).2 = _
    rw [ew]
    rfl
  · intro hd
    have : (destroy p ⟨o.take (o.length - p.keep 0 o.length), o.drop (o.length - p.keep 0 o.length), some 0, .none, mask, false⟩).length ≤
        o.length - p.keep 0 o.length := by
      unfold destroy Stream.sync Stream.send Stream.takes
      simp only [Nat.min_zero, List.take_zero, List.append_nil]
      split <;> simp
    rw [hd] at this
    omega

/-- C217 is false also in that the call that fails is not the one whose bytes are missing: if the stream keeps the whole of one value and nothing
after the next, then on a full device the first `write` succeeds and the second one reports the error, even if the second value has no bytes. -/
theorem c217_refuted_which (p : Policy) (o o' : Obj) (mask : Bits) (ho : o ≠ []) (h1 : o.length ≤ p.keep 0 o.length)
    (h2 : p.keep o.length o'.length = 0) :
    ∃ s, write p o (fresh (some 0) mask false) = (.ok (), s) ∧ s.state.good = true ∧
      (write p o' s).2.state.bad = true ∧ (write p o' s).2.file = [] := by
  have hlen : 0 < o.length := List.length_pos_iff.2 ho
  have ew : write p o (fresh (some 0) mask false) = (.ok (), ⟨[], o, some 0, .none, mask, false⟩) := by
    unfold write Stream.send fresh Stream.takes
    simp only [List.nil_append, List.length_nil, Nat.sub_eq_zero_of_le h1, List.take_zero, List.drop_zero, Nat.min_zero]
    rfl
  refine ⟨_, ew, rfl, ?_⟩
  have hs : (⟨[], o, some 0, .none, mask, false⟩ : Stream).send p (o ++ o') (p.keep o.length o'.length) =
      (false, ⟨[], p.rest (o ++ o'), some 0, .none, mask, false⟩) := by
    unfold Stream.send Stream.takes
    rw [h2]
    simp only [Nat.sub_zero, List.take_length, Nat.min_zero, List.take_zero, List.append_nil]
    rw [if_neg (by rw [List.length_append]; omega)]
    rfl
  have ew' : write p o' ⟨[], o, some 0, .none, mask, false⟩ =
      (⟨[], p.rest (o ++ o'), some 0, .none, mask, false⟩ : Stream).setState badbit := by
    unfold write
    rw [if_pos (show (⟨[], o, some 0, .none, mask, false⟩ : Stream).state.good = true from rfl)]
    simp only [hs]
  rw [ew', (setState_spec _ _).1]
  exact ⟨rfl, rfl⟩

/-- C217, the part that holds with `std::unitbuf`, for every buffer: after every program the stream is good exactly if everything that was
written is in the file. -/
theorem c217_unit_partial (p : Policy) (ops : List Op) (room : Option Nat) (mask : Bits) :
    let s := (runAll p ops (fresh room mask true)).2
    s.state.good = true ↔ s.file = bytes ops := by
  intro s
  obtain ⟨h1, _, _, _, h5⟩ := all_spec p room ops [] _ (fresh_has room mask true)
  constructor
  · intro hg
    have hk := h5 rfl (fun _ => rfl) hg
    have := h1.good hg
    rw [hk, List.append_nil] at this
    exact this
  · intro hf
    by_contra hg
    have hb : s.state.good = false := by simpa using hg
    have := h1.bad hb
    have hf' : (runAll p ops (fresh room mask true)).2.file = [] ++ bytes ops := hf
    rw [hf'] at this
    exact Nat.lt_irrefl _ this

/-- C217 is false with `std::unitbuf` for programs that rely on exceptions: if the stream keeps the whole of a value, then on a full device its
`write` does not throw, although `exceptions()` asks for it, and neither does anything after it. -/
theorem c217_refuted_unit (p : Policy) (o : Obj) (ops : List Op) (mask : Bits) (ho : o ≠ []) (hkeep : o.length ≤ p.keep 0 o.length) :
    ∃ s, runAll p (.write o :: ops) (fresh (some 0) mask true) = (.ok (), s) ∧ s.state.bad = true ∧ s.file = [] := by
  have hlen : 0 < o.length := List.length_pos_iff.2 ho
  have ew : write p o (fresh (some 0) mask true) = (.ok (), ⟨[], p.rest o, some 0, badbit, mask, true⟩) := by
    have h1 : (fresh (some 0) mask true).send p ([] ++ o) (p.keep 0 o.length) = (true, ⟨[], o, some 0, .none, mask, true⟩) := by
      unfold Stream.send fresh Stream.takes
      simp only [List.nil_append, Nat.sub_eq_zero_of_le hkeep, List.take_zero, List.drop_zero, Nat.min_zero]
      rfl
    have h2 : (⟨[], o, some 0, .none, mask, true⟩ : Stream).sync p = (false, ⟨[], p.rest o, some 0, .none, mask, true⟩) := by
      unfold Stream.sync Stream.send Stream.takes
      simp only [Nat.sub_zero, List.take_length, Nat.min_zero, List.take_zero, List.append_nil]
      rw [if_neg (by omega)]
      rfl
    unfold write
    rw [if_pos (show (fresh (some 0) mask true).state.good = true from rfl)]
    have : (fresh (some 0) mask true).kept = [] := rfl
    rw [this, List.length_nil, h1]
    simp only [if_true, h2]
    rfl
  have stuck : ∀ ops : List Op, runAll p ops ⟨[], p.rest o, some 0, badbit, mask, true⟩ = (.ok (), ⟨[], p.rest o, some 0, badbit, mask, true⟩) := by
    intro ops
    induction ops with
    | nil => rfl
    | cons op ops ih =>
      have e : op.run p ⟨[], p.rest o, some 0, badbit, mask, true⟩ = (.ok (), ⟨[], p.rest o, some 0, badbit, mask, true⟩) := by
        cases op <;> rfl
      rw [cons_ok (by rw [e]), e]
      exact ih
  refine ⟨⟨[], p.rest o, some 0, badbit, mask, true⟩, ?_, rfl, rfl⟩
  rw [cons_ok (op := .write o) (by show (write p o _).1 = _; rw [ew])]
  show runAll p ops (write p o _).2 = _
  rw [ew]
  exact stuck ops

/-- The stream of `IoStream.lean` as one without a buffer. -/
private def plain (s : Io.Ios.OStream) : Stream := ⟨s.out, [], s.room, s.state, s.mask, false⟩

/-- C217 holds without a buffer, and C145 says what happens there: writing values one after another leaves the file, the state and the exceptions
that it leaves when every byte reaches the device at once. -/
theorem c217_unbuffered (os : List Obj) : ∀ s : Io.Ios.OStream,
    runAll unbuffered (os.map .write) ⟨s.out, [], s.room, s.state, s.mask, false⟩ =
      ((Io.Ios.writeAll os s).1, ⟨(Io.Ios.writeAll os s).2.out, [], (Io.Ios.writeAll os s).2.room, (Io.Ios.writeAll os s).2.state,
        (Io.Ios.writeAll os s).2.mask, false⟩) := by
  induction os with
  | nil => intro s; rfl
  | cons o os ih =>
    intro s
    have one : Op.run unbuffered (.write o) (plain s) = ((Io.Ios.write o s).1, plain (Io.Ios.write o s).2) := by
      show write unbuffered o (plain s) = _
      by_cases hg : s.state.good = true
      · have hsend : (plain s).send unbuffered ([] ++ o) (unbuffered.keep 0 o.length) =
            (decide (s.takes o.length = o.length),
              plain { s with out := s.out ++ o.take (s.takes o.length), room := s.room.map (· - s.takes o.length) }) := by
          have ht : (plain s).takes o.length = s.takes o.length := rfl
          unfold Stream.send unbuffered
          simp only [List.nil_append, Nat.sub_zero, List.take_length, List.drop_length, ht]
          by_cases hk : s.takes o.length = o.length
          · rw [if_pos hk, decide_eq_true hk]; rfl
          · rw [if_neg hk, decide_eq_false hk]; rfl
        have hl : write unbuffered o (plain s) = match (plain s).send unbuffered ([] ++ o) (unbuffered.keep 0 o.length) with
            | (true, s') => (.ok (), s')
            | (false, s') => s'.setState badbit := by
          have hgp : (plain s).state.good = true := hg
          unfold write
          rw [if_pos hgp]
          show (match (plain s).send unbuffered ([] ++ o) (unbuffered.keep 0 o.length) with
            | (true, s') => _
            | (false, s') => _) = _
          rw [hsend]
          by_cases hk : s.takes o.length = o.length
          · rw [decide_eq_true hk]; rfl
          · rw [decide_eq_false hk]
        rw [hl, hsend]
        unfold Io.Ios.write
        rw [if_pos hg]
        by_cases hk : s.takes o.length = o.length
        · rw [decide_eq_true hk]
          simp only [if_pos hk]
        · rw [decide_eq_false hk]
          simp only [if_neg hk]
          unfold Stream.setState
          dsimp only [plain, badbit]
          by_cases hm : (s.state.or ⟨false, false, true⟩).meets s.mask = true
          · simp only [if_pos hm]
          · simp only [if_neg hm]
      · have hgp : ¬ (plain s).state.good = true := hg
        unfold write Io.Ios.write
        rw [if_neg hgp, if_neg hg]
    have hone := one
    unfold plain at hone
    have hw : Io.Ios.writeAll (o :: os) s = St.bind (Io.Ios.write o) (fun _ => Io.Ios.writeAll os) s := rfl
    have hl : runAll unbuffered ((o :: os).map .write) ⟨s.out, [], s.room, s.state, s.mask, false⟩ =
        St.bind (Op.run unbuffered (.write o)) (fun _ => runAll unbuffered (os.map .write)) ⟨s.out, [], s.room, s.state, s.mask, false⟩ := rfl
    rw [hw, hl]
    unfold St.bind
    rw [hone]
    cases hr : Io.Ios.write o s with
    | mk a t =>
      cases a with
      | ok _ => exact ih t
      | throw e => rfl
      | ub => rfl
      | terminate => rfl
      | diverge => rfl

/-- Values of two bytes through a buffer of four: to a device of five bytes the third `write` says that it failed.  Two values to a device of
three bytes: both succeed, the last byte is lost without a word when the stream is destroyed, and `flush` would have said so. -/
example : runAll (whenFull 4) [.write [1, 2], .write [3, 4], .write [5, 6]] (fresh (some 5) .none false) =
      (.ok (), ⟨[1, 2, 3, 4, 5], [1, 2, 3, 4, 5, 6], some 0, badbit, .none, false⟩) ∧
    runAll (whenFull 4) [.write [1, 2], .write [3, 4]] (fresh (some 3) .none false) =
      (.ok (), ⟨[], [1, 2, 3, 4], some 3, .none, .none, false⟩) ∧
    destroy (whenFull 4) ⟨[], [1, 2, 3, 4], some 3, .none, .none, false⟩ = [1, 2, 3] ∧
    (flush (whenFull 4) ⟨[], [1, 2, 3, 4], some 3, .none, .none, false⟩).2.state = badbit := by decide +kernel

/-- With `unitbuf` the second `write` says so, but does not throw. -/
example : runAll (whenFull 4) [.write [1, 2], .write [3, 4]] (fresh (some 3) badbit true) =
    (.ok (), ⟨[1, 2, 3], [3, 4], some 0, badbit, badbit, true⟩) := by decide +kernel

end Wite.Props
