import Verif.Lemmas.IoLayout

/-!
# C211: nested data through the views

A program writes data of any shape made of numbers, pairs, sequences and alternatives through a `byte_write_buffer_view`, and
reads it back through a `byte_read_buffer_view`.
-/

namespace Wite.Props

open Wite.Io Wite.Layouts Wite.Spec Wite.Spec.IoLayout

/-- A message: a big-endian number and a little-endian one, then several optional numbers behind their count. -/
private def message : Layout :=
  .both (.numbers [⟨2, .bigEndian⟩, ⟨2, .littleEndian⟩])
    (.many ⟨1, .native⟩ (.either ⟨1, .native⟩ .nothing (.numbers [⟨2, .bigEndian⟩])))

/-- One. -/
private def sample : message.Data := (([258, 772] : List Nat), ([.inr ([1286] : List Nat), .inl ()] : List (Unit ⊕ List Nat)))

private theorem message_sensible : Sensible message := by
  simp [message, Sensible, totalTySize]

private theorem sample_fits : Fits message sample :=
  ⟨.cons (by simp) (.cons (by simp) .nil), by show 2 < 256 ^ 1; omega, by
    intro x hx
    have hx' : x ∈ ([.inr ([1286] : List Nat), .inl ()] : List (Unit ⊕ List Nat)) := hx
    rcases List.mem_cons.1 hx' with rfl | h
    · exact .cons (by simp) .nil
    · obtain rfl := List.mem_singleton.1 h
      exact trivial⟩

/-- Another. -/
private def other : message.Data := (([258, 772] : List Nat), ([.inr ([1286] : List Nat)] : List (Unit ⊕ List Nat)))

private theorem other_fits : Fits message other :=
  ⟨.cons (by simp) (.cons (by simp) .nil), by show 1 < 256 ^ 1; omega, by
    intro x hx
    have hx' : x ∈ ([.inr ([1286] : List Nat)] : List (Unit ⊕ List Nat)) := hx
    obtain rfl := List.mem_singleton.1 hx'
    exact .cons (by simp) .nil⟩

/-- C211: writing data writes its bytes at the cursor, moves the cursor behind them and changes nothing else, if there is
room for them.  If not, it throws `std::out_of_range`; some of the first bytes are written then, not all of them, and the cursor
is behind those. -/
theorem c211_write (host : Endian) (l : Layout) (hl : Sensible l) (d : l.Data) (hd : Fits l d) (v : WriteView)
    (hv : v.pos ≤ v.data.length) :
    (v.pos + (bytes host l d).length ≤ v.data.length →
      (put host l d).run v = (.ok (), ⟨overwrite v.data v.pos (bytes host l d), v.pos + (bytes host l d).length⟩)) ∧
    (v.data.length < v.pos + (bytes host l d).length → ∃ k, k < (bytes host l d).length ∧ v.pos + k ≤ v.data.length ∧
      (put host l d).run v = (.throw (.outOfRange "Insufficient buffer space for write"),
        ⟨overwrite v.data v.pos ((bytes host l d).take k), v.pos + k⟩)) := by
  obtain ⟨h1, h2⟩ := writes host l hl d hd v hv
  refine ⟨fun h => (h1 h).1, fun h => ?_⟩
  obtain ⟨k, j, a1, a2, a3, a4, a5, _⟩ := h2 h
  exact ⟨k, a2, by omega, a5⟩

example : (put .little message sample).run ⟨List.replicate 12 9, 1⟩ =
    (.ok (), ⟨[9, 1, 2, 4, 3, 2, 1, 5, 6, 0, 9, 9], 10⟩) := by
  have h := (c211_write .little message message_sensible sample sample_fits ⟨List.replicate 12 9, 1⟩ (by simp)).1 (by decide)
  rw [h]; decide

/-- C211: writing with `try_write` returns a value exactly if the throwing program returns, and then leaves the same view.
Otherwise it returns `insufficient_buffer`, the cursor is where the throwing program leaves it, and the buffer holds at least as many of
the first bytes. -/
theorem c211_try_write (host : Endian) (l : Layout) (hl : Sensible l) (d : l.Data) (hd : Fits l d) (v : WriteView)
    (hv : v.pos ≤ v.data.length) :
    ((tryPut host l d).run v = (.ok (.value ()), ((put host l d).run v).2) ∧ ((put host l d).run v).1 = .ok ()) ∨
    (∃ k j, k ≤ j ∧ v.pos + j ≤ v.data.length ∧ j ≤ (bytes host l d).length ∧
      (tryPut host l d).run v = (.ok (.error .insufficientBuffer),
        ⟨overwrite v.data v.pos ((bytes host l d).take j), v.pos + k⟩) ∧
      (put host l d).run v = (.throw (.outOfRange "Insufficient buffer space for write"),
        ⟨overwrite v.data v.pos ((bytes host l d).take k), v.pos + k⟩)) := by
  obtain ⟨h1, h2⟩ := writes host l hl d hd v hv
  by_cases h : v.pos + (bytes host l d).length ≤ v.data.length
  · obtain ⟨a1, a2⟩ := h1 h
    rw [a1, a2]
    exact .inl ⟨rfl, rfl⟩
  · obtain ⟨k, j, a1, a2, a3, a4, a5, a6⟩ := h2 (by omega)
    exact .inr ⟨k, j, a1, a4, a3, a6, a5⟩

example : (tryPut .little message sample).run ⟨List.replicate 4 9, 1⟩ = (.ok (.error .insufficientBuffer), ⟨[9, 1, 2, 9], 1⟩) ∧
    (put .little message sample).run ⟨List.replicate 4 9, 1⟩ =
      (.throw (.outOfRange "Insufficient buffer space for write"), ⟨[9, 9, 9, 9], 1⟩) := by decide

/-- C211: whatever bytes there are, reading data returns `d` exactly if what follows the cursor begins with the bytes of `d`;
it uses up exactly those. -/
theorem c211_read (host : Endian) (l : Layout) (hl : Sensible l) (v : ReadView) (hb : ∀ b ∈ v.data, IsByte b)
    (hv : v.pos ≤ v.data.length) (d : l.Data) (v' : ReadView) :
    (get host l).run v = (.ok d, v') ↔
      Fits l d ∧ bytes host l d <+: v.data.drop v.pos ∧ v' = ⟨v.data, v.pos + (bytes host l d).length⟩ := by
  obtain ⟨h1, h2, _⟩ := reads host l hl v hb hv
  have hc := codec host l hl
  rw [h2]
  constructor
  · intro h
    rcases hf : found host l (v.data.drop v.pos) with ⟨a, n⟩ | n | n <;> rw [hf] at h
    · simp only [thrown, Prod.mk.injEq, Outcome.ok.injEq] at h
      obtain ⟨rfl, rfl⟩ := h
      obtain ⟨s1, s2, s3⟩ := hc.sound _ a n (drop_isByte hb) hf
      have hn : (bytes host l a).length = n := by rw [← s3, List.length_take]; omega
      exact ⟨s2, s3 ▸ List.take_prefix .., by rw [hn]⟩
    · simp [thrown] at h
    · simp [thrown] at h
  · rintro ⟨hd, ⟨rest, hr⟩, rfl⟩
    rw [← hr, hc.complete d _ rest ⟨hd, rfl⟩]
    rfl

example : (get .big message).run ⟨[9, 1, 2, 4, 3, 2, 1, 5, 6, 0, 7], 1⟩ = (.ok sample, ⟨[9, 1, 2, 4, 3, 2, 1, 5, 6, 0, 7], 10⟩) := by
  refine (c211_read .big message message_sensible _ (by simp [IsByte]) (by decide) _ _).2 ⟨sample_fits, ?_, ?_⟩
  · exact ⟨[7], by decide⟩
  · decide

/-- C211: if it does not return, it throws and leaves the bytes as they are and the cursor among them: `std::out_of_range`, or, in front of bytes
that neither hold data nor begin any data, the exception of the program for a number other than 0 and 1. -/
theorem c211_read_throws (host : Endian) (l : Layout) (hl : Sensible l) (v : ReadView) (hb : ∀ b ∈ v.data, IsByte b)
    (hv : v.pos ≤ v.data.length) (hn : ∀ d, Fits l d → ¬ bytes host l d <+: v.data.drop v.pos) :
    ∃ e p, (get host l).run v = (.throw e, ⟨v.data, p⟩) ∧ v.pos ≤ p ∧ p ≤ v.data.length ∧
      (e = .outOfRange "Insufficient buffer space for read" ∨
        e = unknownTag ∧ ∀ d, Fits l d → ¬ v.data.drop v.pos <+: bytes host l d) := by
  obtain ⟨h1, h2, _⟩ := reads host l hl v hb hv
  have hc := codec host l hl
  rw [h2]
  rcases hf : found host l (v.data.drop v.pos) with ⟨a, n⟩ | n | n <;> rw [hf] at h1 <;>
    simp only [Found.used, List.length_drop] at h1
  · obtain ⟨s1, s2, s3⟩ := hc.sound _ a n (drop_isByte hb) hf
    exact absurd (s3 ▸ List.take_prefix ..) (hn a s2)
  · exact ⟨_, _, rfl, by omega, by omega, .inl rfl⟩
  · refine ⟨_, _, rfl, by omega, by omega, .inr ⟨rfl, fun d hd hp => ?_⟩⟩
    have hx := List.prefix_iff_eq_take.1 hp
    by_cases hk : (v.data.drop v.pos).length < (bytes host l d).length
    · obtain ⟨m, hm⟩ := hc.cut d _ _ ⟨hd, rfl⟩ hk
      rw [← hx, hf] at hm
      cases hm
    · rw [List.take_of_length_le (by omega)] at hx
      exact hn d hd (hx ▸ List.prefix_rfl)

example : (get .big message).run ⟨[1, 2, 4, 3, 2, 7], 0⟩ = (.throw unknownTag, ⟨[1, 2, 4, 3, 2, 7], 6⟩) ∧
    (get .big message).run ⟨[1, 2, 4, 3, 2, 1, 5], 0⟩ =
      (.throw (.outOfRange "Insufficient buffer space for read"), ⟨[1, 2, 4, 3, 2, 1, 5], 6⟩) := by
  constructor <;> rfl

/-- C211: data cut short is noticed, wherever it is cut: reading throws `std::out_of_range`. -/
theorem c211_cut (host : Endian) (l : Layout) (hl : Sensible l) (d : l.Data) (hd : Fits l d) (before : List Nat)
    (hb : ∀ b ∈ before, IsByte b) (k : Nat) (hk : k < (bytes host l d).length) :
    ((get host l).run ⟨before ++ (bytes host l d).take k, before.length⟩).1 =
      .throw (.outOfRange "Insufficient buffer space for read") := by
  have hb' : ∀ b ∈ before ++ (bytes host l d).take k, IsByte b := by
    intro b h
    rcases List.mem_append.1 h with h | h
    · exact hb b h
    · exact bytes_byte host l d b (List.mem_of_mem_take h)
  obtain ⟨_, h2, _⟩ := reads host l hl ⟨before ++ (bytes host l d).take k, before.length⟩ hb' (by simp)
  obtain ⟨m, hm⟩ := (codec host l hl).cut d _ k ⟨hd, rfl⟩ hk
  simp only [List.drop_left] at h2
  rw [h2, hm]
  rfl

example : ((get .little message).run ⟨[8] ++ (bytes .little message sample).take 8, 1⟩).1 =
    .throw (.outOfRange "Insufficient buffer space for read") :=
  c211_cut .little message message_sensible sample sample_fits [8] (by simp [IsByte]) 8 (by decide)

/-- C211: reading with `try_read` returns the value the throwing program returns, and leaves the same view; where the throwing program throws
`std::out_of_range` it returns `insufficient_buffer`, with the cursor at the end of the buffer; and it finds the same number other than
0 and 1, in the same place. -/
theorem c211_try_read (host : Endian) (l : Layout) (hl : Sensible l) (v : ReadView) (hb : ∀ b ∈ v.data, IsByte b)
    (hv : v.pos ≤ v.data.length) :
    (∃ d v', (get host l).run v = (.ok d, v') ∧ (tryGet host l).run v = (.ok (.value d), v')) ∨
    (((get host l).run v).1 = .throw (.outOfRange "Insufficient buffer space for read") ∧
      (tryGet host l).run v = (.ok (.error (.library .insufficientBuffer)), ⟨v.data, v.data.length⟩)) ∨
    (∃ v', (get host l).run v = (.throw unknownTag, v') ∧ (tryGet host l).run v = (.ok (.error .unknown), v')) := by
  obtain ⟨_, h2, h3⟩ := reads host l hl v hb hv
  rw [h2, h3]
  rcases found host l (v.data.drop v.pos) with ⟨a, n⟩ | n | n
  · exact .inl ⟨_, _, rfl, rfl⟩
  · exact .inr (.inl ⟨rfl, rfl⟩)
  · exact .inr (.inr ⟨_, rfl, rfl⟩)

example : (tryGet .big message).run ⟨[1, 2, 4, 3, 2, 7], 0⟩ = (.ok (.error .unknown), ⟨[1, 2, 4, 3, 2, 7], 6⟩) ∧
    (tryGet .big message).run ⟨[1, 2, 4, 3, 2, 1, 5], 0⟩ =
      (.ok (.error (.library .insufficientBuffer)), ⟨[1, 2, 4, 3, 2, 1, 5], 7⟩) := by
  constructor <;> rfl

/-- C211: no bytes mean two things: if the bytes of one piece of data begin the bytes of another, followed by anything, the two
are the same. -/
theorem c211_unique (host : Endian) (l : Layout) (hl : Sensible l) (d d' : l.Data) (hd : Fits l d) (hd' : Fits l d')
    (rest : List Nat) (h : bytes host l d <+: bytes host l d' ++ rest) : d = d' := by
  obtain ⟨r, hr⟩ := h
  have hc := codec host l hl
  have h1 := hc.complete d _ r ⟨hd, rfl⟩
  rw [hr, hc.complete d' _ rest ⟨hd', rfl⟩] at h1
  cases h1
  rfl

example : ¬ bytes .little message sample <+: bytes .little message other ++ [0] := by
  intro h
  have := c211_unique .little message message_sensible sample other sample_fits other_fits [0] h
  exact absurd (congrArg (fun d : message.Data => List.length (α := Unit ⊕ List Nat) d.2) this) (by decide)

/-- C211: data written on one machine and read on another is the data, whatever was in the buffer, if every number is in one of the
endian wrappers or the machines have the same byte order. -/
theorem c211_round_trip (host host' : Endian) (l : Layout) (hl : Sensible l) (d : l.Data) (hd : Fits l d)
    (hp : Portable l ∨ host = host') (v : WriteView) (hb : ∀ b ∈ v.data, IsByte b)
    (hr : v.pos + (bytes host l d).length ≤ v.data.length) :
    ∃ w : WriteView, (put host l d).run v = (.ok (), w) ∧
      (get host' l).run ⟨w.data, v.pos⟩ = (.ok d, ⟨w.data, w.pos⟩) := by
  have he : bytes host l d = bytes host' l d := by
    rcases hp with hp | rfl
    · exact bytes_portable host host' l hp d
    · rfl
  have hw := (c211_write host l hl d hd v (by omega)).1 hr
  refine ⟨_, hw, ?_⟩
  refine (c211_read host' l hl ⟨overwrite v.data v.pos (bytes host l d), v.pos⟩
    (overwrite_isByte hb (bytes_byte host l d)) ?_ d _).2 ⟨hd, ?_, ?_⟩
  · show v.pos ≤ (overwrite v.data v.pos (bytes host l d)).length
    rw [overwrite_length hr]; omega
  · show bytes host' l d <+: (overwrite v.data v.pos (bytes host l d)).drop v.pos
    rw [drop_overwrite hr, he]
    exact List.prefix_append ..
  · rw [he]

example : ∃ w : WriteView, (put .big message sample).run ⟨List.replicate 12 9, 1⟩ = (.ok (), w) ∧
    (get .big message).run ⟨w.data, 1⟩ = (.ok sample, ⟨w.data, w.pos⟩) :=
  c211_round_trip .big .big message message_sensible sample sample_fits (.inr rfl) ⟨List.replicate 12 9, 1⟩
    (by simp [IsByte]) (by decide)

/-- C211: data one after another: what is written by one program after another is read by one after another. -/
theorem c211_streams (host : Endian) (l : Layout) (hl : Sensible l) (ds : List l.Data) (hd : ∀ d ∈ ds, Fits l d) (v : WriteView)
    (hb : ∀ b ∈ v.data, IsByte b) (hr : v.pos + (ds.map (bytes host l)).flatten.length ≤ v.data.length) :
    ∃ w : WriteView, (putEach (put host l) ds).run v = (.ok (), w) ∧ w.pos = v.pos + (ds.map (bytes host l)).flatten.length ∧
      (getTimes (get host l) ds.length).run ⟨w.data, v.pos⟩ = (.ok ds, ⟨w.data, w.pos⟩) := by
  have hw := ((writes_each ds (fun d hx => writes host l hl d (hd d hx))) v (by omega)).1 hr
  refine ⟨_, hw.1, rfl, ?_⟩
  have hbw : ∀ b ∈ (ds.map (bytes host l)).flatten, IsByte b := by
    intro b hx
    obtain ⟨w, hw, hbw⟩ := List.mem_flatten.1 hx
    obtain ⟨d, _, rfl⟩ := List.mem_map.1 hw
    exact bytes_byte host l d b hbw
  obtain ⟨_, h2, _⟩ := reads_times (reads host l hl) ds.length
    ⟨overwrite v.data v.pos (ds.map (bytes host l)).flatten, v.pos⟩ (overwrite_isByte hb hbw)
    (by simp only; rw [overwrite_length hr]; omega)
  simp only [drop_overwrite hr] at h2
  rw [h2, (codec_times (codec host l hl) ds.length).complete ds _ _ ⟨rfl, hd, rfl⟩]
  rfl

example : ∃ w : WriteView, (putEach (put .little message) [sample, sample]).run ⟨List.replicate 20 9, 1⟩ = (.ok (), w) ∧ w.pos = 19 ∧
    (getTimes (get .little message) 2).run ⟨w.data, 1⟩ = (.ok [sample, sample], ⟨w.data, w.pos⟩) :=
  c211_streams .little message message_sensible [sample, sample]
    (by intro d h; simp only [List.mem_cons, List.not_mem_nil, or_false, or_self] at h; subst h; exact sample_fits)
    ⟨List.replicate 20 9, 1⟩ (by simp [IsByte]) (by decide)

end Wite.Props
