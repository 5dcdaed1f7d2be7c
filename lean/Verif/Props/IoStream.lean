import Verif.Model.IoStream

/-!
# Properties C144–C145: reading from and writing to streams that fail
-/

namespace Wite.Props

open Wite Wite.Io

/-- The objects of the given sizes that lie one after another in the bytes. -/
def pieces : List Nat → List Nat → List Obj
  | [], _ => []
  | n :: ns, bs => bs.take n :: pieces ns (bs.drop n)

/-! ## C144 -/

private theorem read_enough (n : Nat) (s : Ios.IStream) (hg : s.state.good = true) (hn : n ≤ s.left.length) :
    (Ios.read n).run s = (.ok (s.left.take n), { s with left := s.left.drop n }) := by
  have hl : (s.left.take n).length = n := by simp; omega
  have h : (Ios.IStream.readSome n).run s = (.ok (s.left.take n), { s with left := s.left.drop n }) := by
    simp only [St.run, Ios.IStream.readSome, hg, if_true, hl]
  rw [Ios.read, St.run_bind_ok h, hl]
  simp

private theorem read_short (n : Nat) (s : Ios.IStream) (hg : s.state.good = true) (hn : s.left.length < n) :
    ∃ st, st.good = false ∧ st.failed = true ∧ (Ios.read n).run s =
      (match s.ending with
        | .eof => if s.mask.eof || s.mask.fail then .throw Ios.failure
            else .ok (s.left ++ List.replicate (n - s.left.length) 0)
        | .throws e => if s.mask.bad then .throw e else .ok (s.left ++ List.replicate (n - s.left.length) 0),
        { s with left := [], state := st }) := by
  have ht : s.left.take n = s.left := List.take_of_length_le (by omega)
  have hd : s.left.drop n = [] := List.drop_eq_nil_of_le (by omega)
  have hne : ¬ s.left.length = n := by omega
  have hst : s.state = ⟨false, false, false⟩ := by
    rcases hs : s.state with ⟨a, b, c⟩
    rw [hs] at hg
    simp [Ios.Bits.good] at hg
    simp [hg]
  have hg' : Ios.Bits.good ⟨false, false, false⟩ = true := rfl
  cases he : s.ending with
  | eof =>
    refine ⟨⟨true, true, false⟩, rfl, rfl, ?_⟩
    have h : (Ios.IStream.readSome n).run s = (if s.mask.eof || s.mask.fail then .throw Ios.failure else .ok s.left,
        { s with left := [], state := ⟨true, true, false⟩ }) := by
      simp only [St.run, Ios.IStream.readSome, hst, hg', if_true, ht, hne, if_false, hd, he, Ios.IStream.setState, Ios.Bits.or,
        Ios.Bits.meets]
      cases s.mask.eof <;> cases s.mask.fail <;> simp
    rw [Ios.read, St.run_bind, h]
    cases s.mask.eof <;> cases s.mask.fail <;> simp [he]
  | throws e =>
    refine ⟨⟨false, false, true⟩, rfl, rfl, ?_⟩
    have h : (Ios.IStream.readSome n).run s = (if s.mask.bad then .throw e else .ok s.left,
        { s with left := [], state := ⟨false, false, true⟩ }) := by
      simp only [St.run, Ios.IStream.readSome, hst, hg', if_true, ht, hne, if_false, hd, he, Ios.Bits.or]
      cases s.mask.bad <;> simp
    rw [Ios.read, St.run_bind, h]
    cases s.mask.bad <;> simp [he]

private theorem read_notgood (n : Nat) (s : Ios.IStream) (hg : s.state.good = false) :
    ∃ st, st.good = false ∧ (Ios.read n).run s =
      (if (s.state.or ⟨false, true, false⟩).meets s.mask then .throw Ios.failure else .ok (List.replicate n 0),
        { s with state := st }) := by
  refine ⟨s.state.or ⟨false, true, false⟩, by simp [Ios.Bits.or, Ios.Bits.good], ?_⟩
  have h : (Ios.IStream.readSome n).run s =
      (if (s.state.or ⟨false, true, false⟩).meets s.mask then .throw Ios.failure else .ok [],
        { s with state := s.state.or ⟨false, true, false⟩ }) := by
    simp only [St.run, Ios.IStream.readSome, hg, Ios.IStream.setState]
    cases (s.state.or ⟨false, true, false⟩).meets s.mask <;> simp
  rw [Ios.read, St.run_bind, h]
  cases (s.state.or ⟨false, true, false⟩).meets s.mask <;> simp

private theorem readAll_cons_state {n : Nat} {ns : List Nat} {s t : Ios.IStream} {o : Obj} (h : (Ios.read n).run s = (.ok o, t)) :
    ((Ios.readAll (n :: ns)).run s).2 = ((Ios.readAll ns).run t).2 := by
  rw [Ios.readAll, St.run_bind_ok h, St.run_bind]
  rcases (Ios.readAll ns).run t with ⟨r, u⟩
  cases r <;> rfl

private theorem readAll_notgood (ns : List Nat) (s : Ios.IStream) (h : s.state.good = false) :
    ((Ios.readAll ns).run s).2.state.good = false := by
  induction ns generalizing s with
  | nil => exact h
  | cons n ns ih =>
    obtain ⟨st, h1, h2⟩ := read_notgood n s h
    by_cases hm : (s.state.or ⟨false, true, false⟩).meets s.mask = true
    · rw [if_pos hm] at h2
      rw [Ios.readAll, St.run_bind_throw h2]; exact h1
    · rw [if_neg hm] at h2
      rw [readAll_cons_state h2]
      exact ih _ h1

/-- C144 fails: with the exception mask streams have by default, a read for which there are too few bytes returns
normally, and returns the value that the same stream with zero bytes appended would have given. -/
theorem c144_refuted_short (n : Nat) (s : Ios.IStream) (hg : s.state.good = true) (hm : s.mask = .none)
    (hn : s.left.length < n) :
    ∃ t, (Ios.read n).run s = (.ok (s.left ++ List.replicate (n - s.left.length) 0), t) ∧ t.state.failed = true ∧ t.left = [] ∧
      ((Ios.read n).run { s with left := s.left ++ List.replicate (n - s.left.length) 0 }).1 = ((Ios.read n).run s).1 := by
  have hz : ((Ios.read n).run { s with left := s.left ++ List.replicate (n - s.left.length) 0 }).1 =
      .ok (s.left ++ List.replicate (n - s.left.length) 0) := by
    rw [read_enough n { s with left := s.left ++ List.replicate (n - s.left.length) 0 } hg (by simp; omega)]
    simp only
    rw [List.take_of_length_le (by simp; omega)]
  obtain ⟨st, -, h2, h3⟩ := read_short n s hg hn
  have h4 : (Ios.read n).run s = (.ok (s.left ++ List.replicate (n - s.left.length) 0), { s with left := [], state := st }) := by
    rw [h3, hm]
    cases s.ending <;> simp [Ios.Bits.none]
  exact ⟨_, h4, h2, rfl, by rw [hz, h4]⟩

/-- C144 fails: once the stream has failed, every read, of whatever type, returns zeros, however many bytes there are. -/
theorem c144_refuted_failed (n : Nat) (s : Ios.IStream) (hg : s.state.good = false) (hm : s.mask = .none) :
    ((Ios.read n).run s).1 = .ok (List.replicate n 0) := by
  obtain ⟨st, -, h2⟩ := read_notgood n s hg
  rw [h2, hm]
  simp [Ios.Bits.meets, Ios.Bits.none]

/-- C144, the state tells: for any sequence of reads, any mask and any way the source ends, the stream is `good()` at the
end exactly if it was at the beginning and has enough bytes; then the values are the bytes of the stream in order, and
exactly these have been consumed. -/
theorem c144_state_partial (ns : List Nat) (s : Ios.IStream) :
    (((Ios.readAll ns).run s).2.state.good = true ↔ s.state.good = true ∧ ns.sum ≤ s.left.length) ∧
    (s.state.good = true → ns.sum ≤ s.left.length →
      (Ios.readAll ns).run s = (.ok (pieces ns s.left), { s with left := s.left.drop ns.sum })) := by
  have hrun : ∀ (ns : List Nat) (s : Ios.IStream), s.state.good = true → ns.sum ≤ s.left.length →
      (Ios.readAll ns).run s = (.ok (pieces ns s.left), { s with left := s.left.drop ns.sum }) := by
    intro ns
    induction ns with
    | nil => intro s _ _; simp [Ios.readAll, pieces]
    | cons n ns ih =>
      intro s hg hn
      simp only [List.sum_cons] at hn
      have h1 := read_enough n s hg (by omega)
      have h2 := ih { s with left := s.left.drop n } hg (by simp; omega)
      rw [Ios.readAll, St.run_bind_ok h1, St.run_bind_ok h2]
      simp only [St.run_pure, pieces, List.drop_drop, List.sum_cons]
  refine ⟨⟨fun h => ?_, fun h => ?_⟩, hrun ns s⟩
  · by_cases hg : s.state.good = true
    · refine ⟨hg, ?_⟩
      induction ns generalizing s with
      | nil => simp
      | cons n ns ih =>
        by_cases hn : n ≤ s.left.length
        · rw [readAll_cons_state (read_enough n s hg hn)] at h
          have := ih { s with left := s.left.drop n } h hg
          simp only [List.length_drop] at this
          simp only [List.sum_cons]; omega
        · obtain ⟨st, hb, -, hr⟩ := read_short n s hg (by omega)
          have hbad : ((Ios.readAll (n :: ns)).run s).2.state.good = false := by
            rcases ho : (match s.ending with
              | .eof => if s.mask.eof || s.mask.fail then .throw Ios.failure
                  else .ok (s.left ++ List.replicate (n - s.left.length) 0)
              | .throws e => if s.mask.bad then .throw e else .ok (s.left ++ List.replicate (n - s.left.length) 0) : Outcome Obj)
              with a | e | - | - | -
            · rw [ho] at hr
              rw [readAll_cons_state hr]; exact readAll_notgood ns _ hb
            · rw [ho] at hr
              rw [Ios.readAll, St.run_bind_throw hr]; exact hb
            all_goals (rw [ho] at hr; rw [Ios.readAll, St.run_bind, hr]; exact hb)
          rw [hbad] at h; simp at h
    · have := readAll_notgood ns s (by simpa using hg)
      rw [this] at h; simp at h
  · rw [hrun ns s h.1 h.2]; exact h.1

/-- C144, with exceptions: if the stream has been told to throw on `failbit` and `badbit`, a sequence of reads that
returns normally returns the bytes of the stream, and one that cannot be satisfied throws. -/
theorem c144_exceptions_partial (ns : List Nat) (s : Ios.IStream) (hf : s.mask.fail = true) (hb : s.mask.bad = true)
    (hg : s.state.good = true) :
    (ns.sum ≤ s.left.length ∧ ((Ios.readAll ns).run s).1 = .ok (pieces ns s.left)) ∨
    (s.left.length < ns.sum ∧ ((Ios.readAll ns).run s).1 = .throw (match s.ending with | .eof => Ios.failure | .throws e => e)) := by
  by_cases h : ns.sum ≤ s.left.length
  · exact Or.inl ⟨h, by rw [(c144_state_partial ns s).2 hg h]⟩
  · right
    refine ⟨by omega, ?_⟩
    induction ns generalizing s with
    | nil => simp at h
    | cons n ns ih =>
      by_cases hn : n ≤ s.left.length
      · have h1 := read_enough n s hg hn
        have h2 := ih { s with left := s.left.drop n } hf hb hg (by simp only [List.sum_cons] at h; simp; omega)
        rw [Ios.readAll, St.run_bind_ok h1, St.run_bind]
        rcases hr2 : (Ios.readAll ns).run { s with left := s.left.drop n } with ⟨o2, t2⟩
        rw [hr2] at h2
        simp only at h2
        subst h2
        rfl
      · obtain ⟨st, -, -, hr⟩ := read_short n s hg (by omega)
        cases he : s.ending with
        | eof =>
          rw [he] at hr
          simp only [hf, Bool.or_true, if_true] at hr
          rw [Ios.readAll, St.run_bind_throw hr]
        | throws e =>
          rw [he] at hr
          simp only [hb, if_true] at hr
          rw [Ios.readAll, St.run_bind_throw hr]

/-- Three bytes and a four-byte type: 01 02 03 00, with only the state to tell; the next read gives zeros, with
exceptions it throws. -/
example : (Ios.readAll [4, 2]).run ⟨[1, 2, 3], .eof, .none, .none⟩ = (.ok [[1, 2, 3, 0], [0, 0]], ⟨[], .eof, ⟨true, true, false⟩, .none⟩) ∧
    ((Ios.readAll [2, 4]).run ⟨[1, 2, 3], .eof, .none, ⟨false, true, true⟩⟩).1 = .throw Ios.failure ∧
    (Ios.readAll [2, 1]).run ⟨[1, 2, 3, 4], .eof, .none, .none⟩ = (.ok [[1, 2], [3]], ⟨[4], .eof, .none, .none⟩) := by decide

/-! ## C145 -/

private theorem write_enough (o : Obj) (s : Ios.OStream) (hg : s.state.good = true) (hn : ∀ r, s.room = some r → o.length ≤ r) :
    (Ios.write o).run s = (.ok (), { s with out := s.out ++ o, room := s.room.map (· - o.length) }) := by
  have hk : s.takes o.length = o.length := by
    unfold Ios.OStream.takes
    cases hr : s.room with
    | none => rfl
    | some r => have := hn r hr; simp only; omega
  simp only [St.run, Ios.write, hg, if_true, hk, List.take_length]

private theorem write_short (o : Obj) (s : Ios.OStream) (hg : s.state.good = true) (r : Nat) (hr : s.room = some r) (hn : r < o.length) :
    (Ios.write o).run s = (if s.mask.bad then .throw Ios.failure else .ok (),
      { s with out := s.out ++ o.take r, room := some 0, state := ⟨false, false, true⟩ }) := by
  have hk : s.takes o.length = r := by unfold Ios.OStream.takes; simp only [hr]; omega
  have hst : s.state = ⟨false, false, false⟩ := by
    rcases hs : s.state with ⟨a, b, c⟩
    rw [hs] at hg
    simp [Ios.Bits.good] at hg
    simp [hg]
  have hne : ¬ r = o.length := by omega
  have hg' : Ios.Bits.good ⟨false, false, false⟩ = true := rfl
  simp only [St.run, Ios.write, hst, hg', if_true, hk, hne, if_false, hr, Ios.Bits.or, Ios.Bits.meets]
  cases s.mask.bad <;> simp

private theorem writeAll_notgood (os : List Obj) (s : Ios.OStream) (h : s.state.good = false) :
    (Ios.writeAll os).run s = (.ok (), s) := by
  induction os with
  | nil => rfl
  | cons o os ih =>
    have hw : (Ios.write o).run s = (.ok (), s) := by simp [St.run, Ios.write, h]
    rw [Ios.writeAll, St.run_bind_ok hw, ih]

/-- C145 fails: when the device is full, a write puts part of the value there and returns normally, and so do all further
writes, which write nothing. -/
theorem c145_refuted_full (o : Obj) (os : List Obj) (s : Ios.OStream) (hg : s.state.good = true) (hm : s.mask = .none)
    (r : Nat) (hr : s.room = some r) (hn : r < o.length) :
    ((Ios.writeAll (o :: os)).run s).1 = .ok () ∧ ((Ios.writeAll (o :: os)).run s).2.out = s.out ++ o.take r := by
  have hw := write_short o s hg r hr hn
  have hmb : s.mask.bad = false := by rw [hm]; rfl
  rw [hmb] at hw
  simp only [Bool.false_eq_true, if_false] at hw
  rw [Ios.writeAll, St.run_bind_ok hw, writeAll_notgood]
  · exact ⟨rfl, rfl⟩
  · rfl

/-- C145, the state tells: after any sequence of writes the stream is `good()` exactly if it was before and there was
room for everything; then exactly the bytes of the values, in order, have been added. -/
theorem c145_state_partial (os : List Obj) (s : Ios.OStream) :
    (((Ios.writeAll os).run s).2.state.good = true ↔ s.state.good = true ∧ ∀ r, s.room = some r → os.flatten.length ≤ r) ∧
    (((Ios.writeAll os).run s).2.state.good = true →
      ((Ios.writeAll os).run s).1 = .ok () ∧ ((Ios.writeAll os).run s).2.out = s.out ++ os.flatten) := by
  induction os generalizing s with
  | nil => simp [Ios.writeAll]
  | cons o os ih =>
    by_cases hg : s.state.good = true
    · by_cases hfit : ∀ r, s.room = some r → o.length ≤ r
      · have hw := write_enough o s hg hfit
        have hall : (Ios.writeAll (o :: os)).run s = (Ios.writeAll os).run { s with out := s.out ++ o, room := s.room.map (· - o.length) } := by
          rw [Ios.writeAll, St.run_bind_ok hw]
        obtain ⟨h1, h2⟩ := ih { s with out := s.out ++ o, room := s.room.map (· - o.length) }
        rw [hall]
        refine ⟨h1.trans ⟨fun h => ⟨hg, fun r hr => ?_⟩, fun h => ⟨hg, fun r hr => ?_⟩⟩, fun h => ?_⟩
        · have h3 := h.2 (r - o.length) (by simp [hr])
          have h4 := hfit r hr
          simp only [List.flatten_cons, List.length_append]; omega
        · cases hs : s.room with
          | none => simp [hs] at hr
          | some q =>
            have h3 := h.2 q hs
            simp only [hs, Option.map_some, Option.some.injEq] at hr
            simp only [List.flatten_cons, List.length_append] at h3; omega
        · obtain ⟨h3, h4⟩ := h2 h
          exact ⟨h3, by rw [h4]; simp⟩
      · obtain ⟨r, hr⟩ : ∃ r, s.room = some r ∧ r < o.length := by
          cases hs : s.room with
          | none => exact absurd (fun r hr => by simp [hs] at hr) hfit
          | some q =>
            refine ⟨q, rfl, ?_⟩
            by_cases hq : q < o.length
            · exact hq
            · exact absurd (fun r hr => by rw [hs] at hr; cases hr; omega) hfit
        have hbad : ((Ios.writeAll (o :: os)).run s).2.state.good = false := by
          have hw := write_short o s hg r hr.1 hr.2
          cases hm : s.mask.bad with
          | true =>
            rw [hm, if_pos rfl] at hw
            rw [Ios.writeAll, St.run_bind_throw hw]; rfl
          | false =>
            rw [hm, if_neg (by simp)] at hw
            rw [Ios.writeAll, St.run_bind_ok hw, writeAll_notgood]
            · rfl
            · rfl
        rw [hbad]
        refine ⟨⟨by simp, fun h => ?_⟩, by simp⟩
        have := h.2 r hr.1
        simp only [List.flatten_cons, List.length_append] at this
        omega
    · have hg' : s.state.good = false := by simpa using hg
      rw [writeAll_notgood _ _ hg', hg']
      simp

/-- C145, with exceptions: a stream told to throw on `badbit`, good at the start, either takes all the values or throws. -/
theorem c145_exceptions_partial (os : List Obj) (s : Ios.OStream) (hb : s.mask.bad = true) (hg : s.state.good = true) :
    ((∀ r, s.room = some r → os.flatten.length ≤ r) ∧ ((Ios.writeAll os).run s).1 = .ok () ∧
      ((Ios.writeAll os).run s).2.out = s.out ++ os.flatten) ∨
    ((∃ r, s.room = some r ∧ r < os.flatten.length) ∧ ((Ios.writeAll os).run s).1 = .throw Ios.failure) := by
  by_cases h : ∀ r, s.room = some r → os.flatten.length ≤ r
  · left
    obtain ⟨h1, h2⟩ := c145_state_partial os s
    obtain ⟨h3, h4⟩ := h2 (h1.2 ⟨hg, h⟩)
    exact ⟨h, h3, h4⟩
  · right
    have hex : ∃ r, s.room = some r ∧ r < os.flatten.length := by
      cases hs : s.room with
      | none => exact absurd (fun r hr => by simp [hs] at hr) h
      | some q =>
        refine ⟨q, rfl, ?_⟩
        by_cases hq : q < os.flatten.length
        · exact hq
        · exact absurd (fun r hr => by rw [hs] at hr; cases hr; omega) h
    refine ⟨hex, ?_⟩
    clear h
    induction os generalizing s with
    | nil => obtain ⟨r, -, hr⟩ := hex; simp at hr
    | cons o os ih =>
      obtain ⟨r, hr, hlt⟩ := hex
      simp only [List.flatten_cons, List.length_append] at hlt
      by_cases hfit : o.length ≤ r
      · have hw := write_enough o s hg (fun q hq => by rw [hr] at hq; cases hq; exact hfit)
        rw [Ios.writeAll, St.run_bind_ok hw]
        exact ih { s with out := s.out ++ o, room := s.room.map (· - o.length) } hb hg ⟨r - o.length, by simp [hr], by omega⟩
      · have hw := write_short o s hg r hr (by omega)
        rw [hb, if_pos rfl] at hw
        rw [Ios.writeAll, St.run_bind_throw hw]

/-- C145: what was written to a stream that stayed good is read back from its bytes. -/
theorem c145_round_trip_partial (os : List Obj) (s : Ios.OStream) (ho : s.out = [])
    (hgood : ((Ios.writeAll os).run s).2.state.good = true) (e : Ios.Ending) (mask : Ios.Bits) :
    ((Ios.readAll (os.map List.length)).run ⟨((Ios.writeAll os).run s).2.out, e, .none, mask⟩).1 = .ok os := by
  obtain ⟨-, h⟩ := (c145_state_partial os s).2 hgood
  rw [ho, List.nil_append] at h
  have hsum : (os.map List.length).sum = os.flatten.length := by simp [List.length_flatten]
  have hp : ∀ os : List Obj, pieces (os.map List.length) os.flatten = os := by
    intro os
    induction os with
    | nil => rfl
    | cons o os ih => simp [pieces, ih]
  rw [h, ((c144_state_partial (os.map List.length) ⟨os.flatten, e, .none, mask⟩).2 rfl (by simp only; omega))]
  simp only [hp]

/-- Five bytes of room: the second four-byte value is cut off and the third lost, silently; with exceptions the second
write throws. -/
example : (Ios.writeAll [[1, 2, 3, 4], [5, 6, 7, 8], [9]]).run ⟨[], some 5, .none, .none⟩ =
      (.ok (), ⟨[1, 2, 3, 4, 5], some 0, ⟨false, false, true⟩, .none⟩) ∧
    ((Ios.writeAll [[1, 2, 3, 4], [5, 6, 7, 8], [9]]).run ⟨[], some 5, .none, ⟨false, false, true⟩⟩).1 = .throw Ios.failure ∧
    (Ios.writeAll [[1, 2], [3]]).run ⟨[9], none, .none, .none⟩ = (.ok (), ⟨[9, 1, 2, 3], none, .none, .none⟩) := by decide

end Wite.Props
