import Verif.Model.OStreamFail
import Verif.Props.OStream

/-! Properties about the insertion operators on streams that fail. -/

namespace Wite.Props

open Wite.Io Wite.Io.Ios Wite.Spec Wite.Spec.Uuid Wite.Uuid Wite.Hex

variable {C : Type}

/-- The device behind the stream has room for `n` characters. -/
def HasRoom (room : Option Nat) (n : Nat) : Prop := ∀ r, room = some r → n ≤ r

/-- What is asked of an operator that is to write the text `t` into a stream that is good: if there is room, all of it
arrives, the call returns and the stream stays good; if not, what the device took is a prefix of it, the stream is
marked as failed, and the call throws if the caller asked for exceptions and returns if they did not. -/
def Delivers (s : FStream C) (t : List C) (r : Outcome Unit × FStream C) : Prop :=
  (HasRoom s.room t.length → r.1 = .ok () ∧ r.2.os.out = s.os.out ++ t ∧ r.2.state = s.state) ∧
  (∀ k, s.room = some k → k < t.length → r.2.os.out = s.os.out ++ t.take k ∧ r.2.state.failed = true ∧
    (s.mask = Bits.none → r.1 = .ok ()) ∧ (s.mask.fail = true → s.mask.bad = true → ∃ e, r.1 = .throw e) ∧
    (r.1 = .ok () ∨ ∃ e, r.1 = .throw e))

/-- Nothing is written and the stream stays failed. -/
def Refuses (s : FStream C) (r : Outcome Unit × FStream C) : Prop :=
  r.2.os.out = s.os.out ∧ r.2.state.failed = true ∧ (s.mask = Bits.none → r.1 = .ok ()) ∧
    (r.1 = .ok () ∨ ∃ e, r.1 = .throw e)

/-- What an operator that does `F` to a stream that takes everything does to one that fails. -/
private structure Writes (op : St (FStream C) Unit) (F : OStream C → OStream C) : Prop where
  app : ∀ os, ∃ t, (F os).out = os.out ++ t
  bad : ∀ s, s.state.failed = true → Refuses s (op.run s) ∧ (op.run s).2.mask = s.mask
  fits : ∀ s t, s.state.good = true → (F s.os).out = s.os.out ++ t → HasRoom s.room t.length →
    op.run s = (.ok (), { s with os := F s.os, room := s.room.map (· - t.length) })
  short : ∀ s t k, s.state.good = true → (F s.os).out = s.os.out ++ t → s.room = some k → k < t.length →
    Delivers s t (op.run s) ∧ (op.run s).2.mask = s.mask

private theorem failed_not_good {b : Bits} (h : b.failed = true) : b.good = false := by
  cases b with | mk e f d => cases e <;> cases f <;> cases d <;> simp_all [Bits.failed, Bits.good]

private theorem failed_or {a b : Bits} (h : a.failed = true ∨ b.failed = true) : (a.or b).failed = true := by
  cases a; cases b
  simp only [Bits.failed, Bits.or, Bool.or_eq_true] at *
  tauto

private theorem meets_none (a : Bits) : a.meets Bits.none = false := by
  cases a; simp [Bits.meets, Bits.none]

private theorem meets_full {a m : Bits} (ha : a.failed = true) (hf : m.fail = true) (hb : m.bad = true) : a.meets m = true := by
  cases a; cases m
  simp only [Bits.failed, Bool.or_eq_true] at ha
  simp only at hf hb
  subst hf hb
  simp only [Bits.meets, Bool.and_true, Bool.or_eq_true]
  tauto

private theorem setState_run (b : Bits) (s : FStream C) :
    (FStream.setState b).run s = if (s.state.or b).meets s.mask then (.throw failure, { s with state := s.state.or b })
      else (.ok (), { s with state := s.state.or b }) := rfl

private theorem writes_put (lib : StreamLib) (hlib : lib.short.failed = true) (F : OStream C → OStream C)
    (happ : ∀ os, ∃ t, (F os).out = os.out ++ t) : Writes (FStream.put lib F) F := by
  refine ⟨happ, ?_, ?_, ?_⟩
  · intro s hs
    have hg := failed_not_good hs
    have e : (FStream.put lib F).run s = (FStream.setState (lib.sentry s.state)).run s := by
      unfold FStream.put
      simp only [St.run, hg, Bool.false_eq_true, if_false]
    rw [e, setState_run]
    have hf : (s.state.or (lib.sentry s.state)).failed = true := failed_or (Or.inl hs)
    split
    · rename_i h
      refine ⟨⟨rfl, hf, ?_, Or.inr ⟨_, rfl⟩⟩, rfl⟩
      intro hm; rw [hm, meets_none] at h; simp at h
    · exact ⟨⟨rfl, hf, fun _ => rfl, Or.inl rfl⟩, rfl⟩
  · intro s t hs ht hr
    have hd : (F s.os).out.drop s.os.out.length = t := by rw [ht]; simp
    have hk : s.takes t.length = t.length := by
      unfold FStream.takes
      cases h : s.room with
      | none => rfl
      | some r => exact Nat.min_eq_left (hr r h)
    unfold FStream.put
    simp only [St.run, hs, if_true, hd, hk]
  · intro s t k hs ht hr hk
    have hd : (F s.os).out.drop s.os.out.length = t := by rw [ht]; simp
    have hk' : s.takes t.length = k := by
      unfold FStream.takes
      rw [hr]
      exact Nat.min_eq_right (by omega)
    have hne : k ≠ t.length := by omega
    have hno : ¬ HasRoom s.room t.length := by
      intro h
      have := h k hr
      omega
    unfold FStream.put
    simp only [St.run, hs, if_true, hd, hk', hne, if_false]
    cases s.ending with
    | eof =>
      simp only
      rw [show ∀ x : FStream C, FStream.setState lib.short x = (FStream.setState lib.short).run x from fun _ => rfl, setState_run]
      simp only
      have hf : (s.state.or lib.short).failed = true := failed_or (Or.inr hlib)
      split
      · rename_i h
        refine ⟨⟨fun h => absurd h hno, ?_⟩, rfl⟩
        intro k' hk2 _
        rw [hr] at hk2; cases hk2
        refine ⟨rfl, hf, ?_, fun _ _ => ⟨_, rfl⟩, Or.inr ⟨_, rfl⟩⟩
        intro hm; rw [hm, meets_none] at h; simp at h
      · rename_i h
        refine ⟨⟨fun h => absurd h hno, ?_⟩, rfl⟩
        intro k' hk2 _
        rw [hr] at hk2; cases hk2
        refine ⟨rfl, hf, fun _ => rfl, ?_, Or.inl rfl⟩
        intro h1 h2
        exact absurd (meets_full hf h1 h2) h
    | throws e =>
      simp only
      have hf : (s.state.or ⟨false, false, true⟩).failed = true := failed_or (Or.inr rfl)
      split
      · rename_i h
        refine ⟨⟨fun h => absurd h hno, ?_⟩, rfl⟩
        intro k' hk2 _
        rw [hr] at hk2; cases hk2
        refine ⟨rfl, hf, ?_, fun _ _ => ⟨_, rfl⟩, Or.inr ⟨_, rfl⟩⟩
        intro hm; rw [hm] at h; simp [Bits.none] at h
      · rename_i h
        refine ⟨⟨fun h => absurd h hno, ?_⟩, rfl⟩
        intro k' hk2 _
        rw [hr] at hk2; cases hk2
        refine ⟨rfl, hf, fun _ => rfl, ?_, Or.inl rfl⟩
        intro h1 h2
        exact absurd h2 h

private theorem writes_pure : Writes (pure () : St (FStream C) Unit) id := by
  refine ⟨fun os => ⟨[], by simp⟩, ?_, ?_, ?_⟩
  · intro s hs
    exact ⟨⟨rfl, hs, fun _ => rfl, Or.inl rfl⟩, rfl⟩
  · intro s t hs ht _
    have : t = [] := by simpa using ht
    subst this
    rcases s with ⟨o, room, e, st, m⟩
    cases room <;> rfl
  · intro s t k hs ht hr hk
    have : t = [] := by simpa using ht
    subst this
    simp at hk

private theorem writes_bind {op1 op2 : St (FStream C) Unit} {F1 F2 : OStream C → OStream C} (h1 : Writes op1 F1)
    (h2 : Writes op2 F2) : Writes (op1 >>= fun _ => op2) (fun os => F2 (F1 os)) := by
  have happ : ∀ os, ∃ t, (F2 (F1 os)).out = os.out ++ t := by
    intro os
    obtain ⟨t1, e1⟩ := h1.app os
    obtain ⟨t2, e2⟩ := h2.app (F1 os)
    exact ⟨t1 ++ t2, by rw [e2, e1, List.append_assoc]⟩
  -- the second call after a first one that left the stream failed
  have after : ∀ s : FStream C, (op1.run s).2.state.failed = true → (op1.run s).2.mask = s.mask →
      (s.mask = Bits.none → (op1.run s).1 = .ok ()) → ((op1.run s).1 = .ok () ∨ ∃ e, (op1.run s).1 = .throw e) →
      ∀ r, r = (op1 >>= fun _ => op2).run s →
      r.2.os.out = (op1.run s).2.os.out ∧ r.2.state.failed = true ∧ r.2.mask = s.mask ∧ (s.mask = Bits.none → r.1 = .ok ()) ∧
        ((∃ e, (op1.run s).1 = .throw e) → ∃ e, r.1 = .throw e) ∧ (r.1 = .ok () ∨ ∃ e, r.1 = .throw e) := by
    intro s hf hm hn ho r hr
    rcases hrun : op1.run s with ⟨o, s1⟩
    rw [hrun] at hf hm hn ho
    rcases ho with ho | ⟨e, ho⟩
    · simp only at ho
      subst ho
      rw [St.run_bind_ok hrun] at hr
      obtain ⟨⟨b1, b2, b3, b4⟩, b5⟩ := h2.bad s1 hf
      subst hr
      simp only at hm
      refine ⟨b1, b2, b5.trans hm, fun h => b3 (hm.trans h), ?_, b4⟩
      rintro ⟨e, he⟩; cases he
    · simp only at ho
      subst ho
      rw [St.run_bind_throw hrun] at hr
      subst hr
      refine ⟨rfl, hf, hm, ?_, fun _ => ⟨e, rfl⟩, Or.inr ⟨e, rfl⟩⟩
      intro h
      have := hn h
      cases this
  refine ⟨happ, ?_, ?_, ?_⟩
  · intro s hs
    obtain ⟨⟨b1, b2, b3, b4⟩, b5⟩ := h1.bad s hs
    obtain ⟨a1, a2, a3, a4, _, a6⟩ := after s b2 b5 b3 b4 _ rfl
    exact ⟨⟨a1.trans b1, a2, a4, a6⟩, a3⟩
  · intro s t hs ht hr
    obtain ⟨t1, e1⟩ := h1.app s.os
    obtain ⟨t2, e2⟩ := h2.app (F1 s.os)
    have et : t = t1 ++ t2 := by
      have : s.os.out ++ t = s.os.out ++ (t1 ++ t2) := by rw [← ht, e2, e1, List.append_assoc]
      exact List.append_cancel_left this
    subst et
    have hr1 : HasRoom s.room t1.length := fun r h => by have := hr r h; simp at this; omega
    rw [St.run_bind_ok (h1.fits s t1 hs e1 hr1)]
    rw [h2.fits { s with os := F1 s.os, room := s.room.map (· - t1.length) } t2 hs e2 (by
      intro r h
      simp only [Option.map_eq_some_iff] at h
      obtain ⟨r0, h0, rfl⟩ := h
      have := hr r0 h0; simp at this; omega)]
    simp only [Option.map_map, List.length_append]
    congr 2
    cases s.room with
    | none => rfl
    | some x =>
      simp only [Option.map_some, Function.comp]
      congr 1
      omega
  · intro s t k hs ht hr hk
    obtain ⟨t1, e1⟩ := h1.app s.os
    obtain ⟨t2, e2⟩ := h2.app (F1 s.os)
    have et : t = t1 ++ t2 := by
      have : s.os.out ++ t = s.os.out ++ (t1 ++ t2) := by rw [← ht, e2, e1, List.append_assoc]
      exact List.append_cancel_left this
    subst et
    have hno : ¬ HasRoom s.room (t1 ++ t2).length := by
      intro h
      have := h k hr
      omega
    by_cases h : k < t1.length
    · obtain ⟨⟨_, d⟩, d5⟩ := h1.short s t1 k hs e1 hr h
      obtain ⟨d1, d2, d3, d4, d6⟩ := d k hr h
      obtain ⟨a1, a2, a3, a4, a5, a6⟩ := after s d2 d5 d3 d6 _ rfl
      refine ⟨⟨fun h => absurd h hno, ?_⟩, a3⟩
      intro k' hk' _
      rw [hr] at hk'; cases hk'
      refine ⟨?_, a2, a4, fun h1 h2 => a5 (d4 h1 h2), a6⟩
      rw [a1, d1, List.take_append_of_le_length (by omega)]
    · have hr1 : HasRoom s.room t1.length := fun r h => by rw [hr] at h; cases h; omega
      rw [St.run_bind_ok (h1.fits s t1 hs e1 hr1)]
      have hlen : k - t1.length < t2.length := by simp at hk; omega
      obtain ⟨⟨_, d⟩, d5⟩ := h2.short { s with os := F1 s.os, room := s.room.map (· - t1.length) } t2 (k - t1.length) hs e2
        (by simp [hr]) hlen
      obtain ⟨d1, d2, d3, d4, d6⟩ := d (k - t1.length) (by simp [hr]) hlen
      refine ⟨⟨fun h => absurd h hno, ?_⟩, d5⟩
      intro k' hk' _
      rw [hr] at hk'; cases hk'
      refine ⟨?_, d2, d3, d4, d6⟩
      rw [d1]
      have hge : t1.length ≤ k := by omega
      simp only [e1, List.append_assoc]
      congr 1
      rw [List.take_append, List.take_of_length_le hge]

private theorem writes_delivers {op : St (FStream C) Unit} {F : OStream C → OStream C} (h : Writes op F) (s : FStream C)
    (hs : s.state.good = true) (t : List C) (ht : (F s.os).out = s.os.out ++ t) : Delivers s t (op.run s) := by
  by_cases hr : HasRoom s.room t.length
  · rw [h.fits s t hs ht hr]
    refine ⟨fun _ => ⟨rfl, ht, rfl⟩, ?_⟩
    intro k hk hlt
    have := hr k hk
    omega
  · obtain ⟨k, hk, hlt⟩ : ∃ k, s.room = some k ∧ k < t.length := by
      unfold HasRoom at hr
      push Not at hr
      exact hr
    exact (h.short s t k hs ht hk hlt).1

private theorem text_app (t : List C) (os : OStream C) : ∃ u, (os.insertText t).out = os.out ++ u := ⟨_, rfl⟩

private theorem unsigned_app (v : Nat) (os : OStream Nat) : ∃ u, (os.insertUnsigned v).out = os.out ++ u := ⟨_, rfl⟩

private theorem writes_text (lib : StreamLib) (hlib : lib.short.failed = true) (t : List C) :
    Writes (FStream.putText lib t) (OStream.insertText t) := writes_put lib hlib _ (text_app t)

/-! ## The operators -/

private theorem writes_uuid (lib : StreamLib) (hlib : lib.short.failed = true) (host : Endian) (u : List Nat) (hu : IsUuid u) :
    Writes (FStream.insertUuid lib host u) (OStream.insertText (text .D true u)) := by
  have h := str_eq host .D true hu
  simp only [letter] at h
  have e : FStream.insertUuid lib host u = FStream.putText lib (text .D true u) := by
    unfold FStream.insertUuid
    rw [h]
    rfl
  rw [e]
  exact writes_text lib hlib _

/-- Inserting a UUID into a stream that is good. -/
theorem c176_uuid (lib : StreamLib) (hlib : lib.short.failed = true) (host : Endian) (u : List Nat) (hu : IsUuid u)
    (s : FStream Nat) (hs : s.state.good = true) :
    Delivers s (padded (s.os.adjust == .left) (s.os.width - 36) s.os.fill (text .D true u))
      ((FStream.insertUuid lib host u).run s) := by
  refine writes_delivers (writes_uuid lib hlib host u hu) s hs _ ?_
  have hl : (text .D true u).length = 36 := text_length .D true hu
  simp only [OStream.insertText, hl, padded]
  cases s.os.adjust <;> rfl

private theorem writes_index (lib : StreamLib) (hlib : lib.short.failed = true) (idx : Nat) :
    Writes (FStream.insertIndex lib idx) (OStream.insertIndex idx) := writes_put lib hlib _ (unsigned_app _)

/-- Inserting an index into a stream that is good; `t` is what a stream that takes everything gets (C122 says what that
is). -/
theorem c176_index (lib : StreamLib) (hlib : lib.short.failed = true) (idx : Nat) (s : FStream Nat)
    (hs : s.state.good = true) (t : List Nat) (ht : (OStream.insertIndex idx s.os).out = s.os.out ++ t) :
    Delivers s t ((FStream.insertIndex lib idx).run s) :=
  writes_delivers (writes_index lib hlib idx) s hs t ht

variable {α : Type}

/-- What the coordinates after the first do to a stream that takes everything. -/
private def restF (text : α → List Char) : List α → OStream Char → OStream Char
  | [], os => os
  | x :: xs, os => restF text xs ((os.insertText ", ".toList).insertText (text x))

private theorem writes_rest (lib : StreamLib) (hlib : lib.short.failed = true) (text : α → List Char) (p : Geometry.Point α)
    (xs : List α) : ∀ pre : List α, p.cells = (pre ++ xs).map some →
    Writes (FStream.pointLoop lib text p pre.length xs.length) (restF text xs) := by
  induction xs with
  | nil => intro pre _; exact writes_pure
  | cons x xs ih =>
    intro pre hc
    have hg : p.get pre.length = .ok x := by simp [Geometry.Point.get, hc]
    have e : FStream.pointLoop lib text p pre.length (x :: xs).length =
        (FStream.putText lib ", ".toList >>= fun _ => (FStream.putText lib (text x) >>= fun _ =>
          FStream.pointLoop lib text p (pre.length + 1) xs.length)) := by
      rw [List.length_cons, FStream.pointLoop, hg]
      rfl
    rw [e]
    have := ih (pre ++ [x]) (by simp [hc])
    rw [List.length_append] at this
    have h := writes_bind (writes_text lib hlib ", ".toList) (writes_bind (writes_text lib hlib (text x)) this)
    exact h

private theorem writes_point (lib : StreamLib) (hlib : lib.short.failed = true) (text : α → List Char) (x : α) (xs : List α) :
    ∃ F, Writes (FStream.insertPoint lib text (Geometry.Point.ofArray (x :: xs))) F ∧
      ∀ os, OStream.insertPoint text (Geometry.Point.ofArray (x :: xs)) os = .ok (F os) := by
  have hg : (Geometry.Point.ofArray (x :: xs)).get 0 = .ok x := by simp [Geometry.Point.get, Geometry.Point.ofArray]
  have hd : (Geometry.Point.ofArray (x :: xs)).dimensions - 1 = xs.length := by
    simp [Geometry.Point.dimensions, Geometry.Point.ofArray]
  refine ⟨fun os => (restF text xs ((os.insertText "[ ".toList).insertText (text x))).insertText " ]".toList, ?_, ?_⟩
  · have e : FStream.insertPoint lib text (Geometry.Point.ofArray (x :: xs)) =
        (FStream.putText lib "[ ".toList >>= fun _ => (FStream.putText lib (text x) >>= fun _ =>
          (FStream.pointLoop lib text (Geometry.Point.ofArray (x :: xs)) 1 xs.length >>= fun _ =>
            FStream.putText lib " ]".toList))) := by
      unfold FStream.insertPoint
      rw [hg, hd]
      rfl
    rw [e]
    have h := writes_bind (writes_text lib hlib "[ ".toList) (writes_bind (writes_text lib hlib (text x))
      (writes_bind (writes_rest lib hlib text (Geometry.Point.ofArray (x :: xs)) xs [x] rfl) (writes_text lib hlib " ]".toList)))
    exact h
  · intro os
    have loop : ∀ (ys pre : List α) (o : OStream Char), (Geometry.Point.ofArray (x :: xs)).cells = (pre ++ ys).map some →
        OStream.insertPoint.loop text (Geometry.Point.ofArray (x :: xs)) o pre.length ys.length = .ok (restF text ys o) := by
      intro ys
      induction ys with
      | nil => intro pre o _; rfl
      | cons y ys ih =>
        intro pre o hc
        have hg : (Geometry.Point.ofArray (x :: xs)).get pre.length = .ok y := by simp [Geometry.Point.get, hc]
        rw [List.length_cons, OStream.insertPoint.loop, hg, Outcome.bind_ok]
        have := ih (pre ++ [y]) ((o.insertText ", ".toList).insertText (text y)) (by simp [hc])
        rw [List.length_append] at this
        exact this
    unfold OStream.insertPoint
    rw [hg, Outcome.bind_ok, hd]
    have := loop xs [x] ((os.insertText "[ ".toList).insertText (text x)) rfl
    rw [List.length_singleton] at this
    refine Eq.trans (congrArg (· >>= _) this) ?_
    rfl

/-- Inserting a point into a stream that is good. -/
theorem c176_point (lib : StreamLib) (hlib : lib.short.failed = true) (text : α → List Char) (x : α) (xs : List α)
    (s : FStream Char) (hs : s.state.good = true) :
    Delivers s (padded (s.os.adjust == .left) (s.os.width - 2) s.os.fill "[ ".toList ++
        ((", ".toList).intercalate ((x :: xs).map text) ++ " ]".toList))
      ((FStream.insertPoint lib text (Geometry.Point.ofArray (x :: xs))).run s) := by
  obtain ⟨F, hw, hF⟩ := writes_point lib hlib text x xs
  refine writes_delivers hw s hs _ ?_
  have h1 := hF s.os
  rw [c123_point] at h1
  injection h1 with h1
  rw [← h1]
  simp

private theorem writes_range {lb hb : Maths.Boundary} (lib : StreamLib) (hlib : lib.short.failed = true) (text : α → List Char)
    (r : Maths.ValueRange α lb hb) : Writes (FStream.insertRange lib text r) (OStream.insertRange text r) := by
  have h := fun l u => writes_bind (writes_text lib hlib l) (writes_bind (writes_text lib hlib (text r.lo))
    (writes_bind (writes_text lib hlib ", ".toList)
      (writes_bind (writes_text lib hlib (text r.hi)) (writes_text lib hlib u))))
  cases lb <;> cases hb
  · exact h "[ ".toList " ]".toList
  · exact h "[ ".toList " )".toList
  · exact h "( ".toList " ]".toList
  · exact h "( ".toList " )".toList

/-- Inserting a range into a stream that is good. -/
theorem c176_range {lb hb : Maths.Boundary} (lib : StreamLib) (hlib : lib.short.failed = true) (text : α → List Char)
    (r : Maths.ValueRange α lb hb) (s : FStream Char) (hs : s.state.good = true) :
    Delivers s (padded (s.os.adjust == .left) (s.os.width - 2) s.os.fill ((r.print text).take 2) ++ (r.print text).drop 2)
      ((FStream.insertRange lib text r).run s) := by
  refine writes_delivers (writes_range lib hlib text r) s hs _ ?_
  rw [c123_range]
  simp

/-- What a fragment string does to a stream that takes everything. -/
private def fragF : Str.FragStr C → OStream C → OStream C
  | [], os => os
  | f :: fs, os => fragF fs (os.insertText f.chars)

private theorem writes_frags (lib : StreamLib) (hlib : lib.short.failed = true) : ∀ fs : Str.FragStr C,
    Writes (FStream.insertFragments lib fs) (fragF fs)
  | [] => writes_pure
  | f :: fs => by
    have h := writes_bind (writes_text lib hlib f.chars) (writes_frags lib hlib fs)
    exact h

private theorem frag_zero : ∀ (fs : Str.FragStr C) (os : OStream C), os.width = 0 →
    (fragF fs os).out = os.out ++ fs.flatMap Str.Frag.chars
  | [], os, _ => by simp [fragF]
  | f :: fs, os, h => by
    have := frag_zero fs (os.insertText f.chars) rfl
    rw [fragF, this]
    simp [OStream.insertText, h]

/-- Inserting a fragment string into a stream that is good: the first fragment is padded to the width, on either side. -/
theorem c176_fragments (lib : StreamLib) (hlib : lib.short.failed = true) (f : Str.Frag C) (fs : Str.FragStr C)
    (s : FStream C) (hs : s.state.good = true) :
    Delivers s (padded (s.os.adjust == .left) (s.os.width - f.chars.length) s.os.fill f.chars ++ fs.flatMap Str.Frag.chars)
      ((FStream.insertFragments lib (f :: fs)).run s) := by
  refine writes_delivers (writes_frags lib hlib (f :: fs)) s hs _ ?_
  rw [fragF, frag_zero fs _ rfl]
  simp only [OStream.insertText, padded, List.append_assoc]
  cases s.os.adjust <;> rfl

/-! ## Streams that failed before -/

/-- A stream that failed before takes nothing, whatever is inserted, and stays failed; without exceptions asked for
nothing is thrown. -/
theorem c176_failed {lb hb : Maths.Boundary} (lib : StreamLib) (hlib : lib.short.failed = true) (host : Endian) (u : List Nat)
    (hu : IsUuid u) (idx : Nat) (text : α → List Char) (x : α) (xs : List α) (r : Maths.ValueRange α lb hb) (fs : Str.FragStr C)
    (s : FStream Nat) (hs : s.state.failed = true) (sc : FStream Char) (hsc : sc.state.failed = true) (sf : FStream C)
    (hsf : sf.state.failed = true) :
    Refuses s ((FStream.insertUuid lib host u).run s) ∧ Refuses s ((FStream.insertIndex lib idx).run s) ∧
    Refuses sc ((FStream.insertPoint lib text (Geometry.Point.ofArray (x :: xs))).run sc) ∧
    Refuses sc ((FStream.insertRange lib text r).run sc) ∧ Refuses sf ((FStream.insertFragments lib fs).run sf) := by
  obtain ⟨F, hw, _⟩ := writes_point lib hlib text x xs
  exact ⟨((writes_uuid lib hlib host u hu).bad s hs).1, ((writes_index lib hlib idx).bad s hs).1, (hw.bad sc hsc).1,
    ((writes_range lib hlib text r).bad sc hsc).1, ((writes_frags lib hlib fs).bad sf hsf).1⟩

/-! ## Several values -/

/-- One value to insert into a stream of narrow characters. -/
inductive Printed where
  | uuid (u : List Nat)
  | index (i : Nat)
  | frags (fs : Str.FragStr Nat)
  | text (t : List Nat)

/-- Only UUIDs of sixteen bytes. -/
def Printed.ok : Printed → Prop
  | .uuid u => IsUuid u
  | _ => True

/-- `os << v`. -/
def Printed.put (lib : StreamLib) (host : Endian) : Printed → St (FStream Nat) Unit
  | .uuid u => FStream.insertUuid lib host u
  | .index i => FStream.insertIndex lib i
  | .frags fs => FStream.insertFragments lib fs
  | .text t => FStream.putText lib t

/-- `os << v1 << v2 << ...`. -/
def putValues (lib : StreamLib) (host : Endian) : List Printed → St (FStream Nat) Unit
  | [] => pure ()
  | v :: vs => do
    v.put lib host
    putValues lib host vs

private theorem writes_values (lib : StreamLib) (hlib : lib.short.failed = true) (host : Endian) : ∀ vs : List Printed,
    (∀ v ∈ vs, v.ok) → ∃ F, Writes (putValues lib host vs) F
  | [], _ => ⟨_, writes_pure⟩
  | v :: vs, h => by
    obtain ⟨F2, h2⟩ := writes_values lib hlib host vs (fun w hw => h w (by simp [hw]))
    have h1 : ∃ F1, Writes (v.put lib host) F1 := by
      cases v with
      | uuid u => exact ⟨_, writes_uuid lib hlib host u (h (.uuid u) (by simp))⟩
      | index i => exact ⟨_, writes_index lib hlib i⟩
      | frags fs => exact ⟨_, writes_frags lib hlib fs⟩
      | text t => exact ⟨_, writes_text lib hlib t⟩
    obtain ⟨F1, h1⟩ := h1
    exact ⟨_, writes_bind h1 h2⟩

/-- Any number of values inserted one after another: there is one text, what the same stream over a device without limit
receives, and it is delivered as a whole or up to where the room ends.  So a stream that is still good holds all of it. -/
theorem c176_values (lib : StreamLib) (hlib : lib.short.failed = true) (host : Endian) (vs : List Printed)
    (hv : ∀ v ∈ vs, v.ok) (s : FStream Nat) (hs : s.state.good = true) :
    ∃ t, ((putValues lib host vs).run { s with room := none }).2.os.out = s.os.out ++ t ∧
      Delivers s t ((putValues lib host vs).run s) ∧
      (((putValues lib host vs).run s).2.state.good = true →
        ((putValues lib host vs).run s).2.os.out = s.os.out ++ t) := by
  obtain ⟨F, h⟩ := writes_values lib hlib host vs hv
  obtain ⟨t, ht⟩ := h.app s.os
  have hd := writes_delivers h s hs t ht
  refine ⟨t, ?_, hd, ?_⟩
  · rw [h.fits { s with room := none } t hs ht (by intro r hr; simp at hr)]
    exact ht
  · intro hg
    by_cases hr : HasRoom s.room t.length
    · exact (hd.1 hr).2.1
    · obtain ⟨k, hk, hlt⟩ : ∃ k, s.room = some k ∧ k < t.length := by
        unfold HasRoom at hr
        push Not at hr
        exact hr
      have := failed_not_good (hd.2 k hk hlt).2.1
      rw [this] at hg
      simp at hg

/-- A device that takes five more characters and then reports a short write, no exceptions asked for; nothing is reported
until the sixth. -/
example : ((FStream.insertFragments ⟨⟨false, false, true⟩, fun _ => ⟨false, true, false⟩⟩ [some [97, 98], none, some [99, 100, 101, 102]]).run
    (⟨⟨3, 32, .left, .dec, false, false, [120]⟩, some 5, .eof, Bits.none, Bits.none⟩ : FStream Nat)) =
    (.ok (), ⟨⟨0, 32, .left, .dec, false, false, [120, 97, 98, 32, 99, 100]⟩, some 0, .eof, ⟨false, false, true⟩, Bits.none⟩) := by
  rfl
example : (⟨⟨false, false, true⟩, fun _ => ⟨false, true, false⟩⟩ : StreamLib).short.failed = true := rfl

end Wite.Props
