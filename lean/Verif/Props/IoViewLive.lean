import Verif.Model.IoViewLive
import Verif.Props.IoView

/-!
# Property C143: views over a buffer that changes
-/

namespace Wite.Props

open Wite.Io Wite.Spec Wite.Hex

/-- Everything that needs the cursor of view `v` is undefined. -/
def Useless (w : Live.World) (v : Nat) : Prop :=
  (Live.position v w).1 = .ub ∧
  (∀ (α : Type) (call : St ReadView α), (Live.reading v call w).1 = .ub) ∧
  (∀ (α : Type) (call : St WriteView α), (Live.writing v call w).1 = .ub)

private theorem useless_of_cursor {w : Live.World} {v : Nat} (h : w.cursor v = none) : Useless w v := by
  refine ⟨?_, fun α call => ?_, fun α call => ?_⟩
  · unfold Live.position; split <;> simp_all
  · unfold Live.reading; split <;> simp_all
  · unfold Live.writing; split <;> simp_all

private theorem useless_of_buf {w : Live.World} {v : Nat} (h : w.buf = none) : Useless w v := by
  refine ⟨?_, fun α call => ?_, fun α call => ?_⟩
  · unfold Live.position; split <;> simp_all
  · unfold Live.reading; split <;> simp_all
  · unfold Live.writing; split <;> simp_all

/-- C143 fails when the buffer grows beyond its capacity, by `resize`, `push_back` or `reserve`: afterwards reading,
writing and even asking for the position are undefined through every view, wherever it stood. -/
theorem c143_refuted_realloc (w : Live.World) (b : Live.Buf) (hb : w.buf = some b) (v : Nat) :
    (∀ n grow, b.bytes.length < n → b.cap < n →
      (Live.resize n grow w).1 = .ok () ∧ Useless (Live.resize n grow w).2 v) ∧
    (∀ x grow, b.bytes.length = b.cap → (Live.pushBack x grow w).1 = .ok () ∧ Useless (Live.pushBack x grow w).2 v) ∧
    (∀ n, b.cap < n → (Live.reserve n w).1 = .ok () ∧ Useless (Live.reserve n w).2 v) := by
  refine ⟨fun n grow h1 h2 => ?_, fun x grow h => ?_, fun n h => ?_⟩
  · have hl : (b.bytes ++ List.replicate (n - b.bytes.length) 0).length = n := by simp; omega
    have he : Live.resize n grow w =
        (.ok (), { w.keep (fun _ => false) with buf := some ⟨b.bytes ++ List.replicate (n - b.bytes.length) 0, max n grow⟩ }) := by
      simp only [Live.resize, hb, gt_iff_lt, h1, if_true, Live.enlarge, hl, h2]
    rw [he]
    refine ⟨rfl, useless_of_cursor ?_⟩
    simp only [Live.World.keep]
    cases w.cursor v <;> rfl
  · have he : Live.pushBack x grow w =
        (.ok (), { w.keep (fun _ => false) with buf := some ⟨b.bytes ++ [x], max (b.bytes ++ [x]).length grow⟩ }) := by
      have hl : (b.bytes ++ [x]).length > b.cap := by simp; omega
      simp only [Live.pushBack, hb, Live.enlarge, hl, if_true]
    rw [he]
    refine ⟨rfl, useless_of_cursor ?_⟩
    simp only [Live.World.keep]
    cases w.cursor v <;> rfl
  · simp only [Live.reserve, hb, gt_iff_lt, h, if_true]
    refine ⟨trivial, useless_of_cursor ?_⟩
    simp only [Live.World.keep]
    cases w.cursor v <;> rfl

/-- C143 fails when the buffer shrinks to where the view stands or below, is cleared, or when the view stands at the end
and the buffer grows within its capacity. -/
theorem c143_refuted_shrink (w : Live.World) (b : Live.Buf) (hb : w.buf = some b) (v p : Nat) (hp : w.cursor v = some p) :
    (∀ n grow, n < b.bytes.length → n ≤ p → (Live.resize n grow w).1 = .ok () ∧ Useless (Live.resize n grow w).2 v) ∧
    ((Live.clear w).1 = .ok () ∧ Useless (Live.clear w).2 v) ∧
    (∀ n grow, p = b.bytes.length → b.bytes.length < n →
      (Live.resize n grow w).1 = .ok () ∧ Useless (Live.resize n grow w).2 v) ∧
    (∀ x grow, p = b.bytes.length → (Live.pushBack x grow w).1 = .ok () ∧ Useless (Live.pushBack x grow w).2 v) := by
  have henl : ∀ bytes grow, p = b.bytes.length → (Live.enlarge bytes grow b w).cursor v = none := by
    intro bytes grow h
    unfold Live.enlarge
    split <;> simp [Live.World.keep, hp, h]
  refine ⟨fun n grow h1 h2 => ?_, ?_, fun n grow h1 h2 => ?_, fun x grow h => ?_⟩
  · have h3 : ¬ n > b.bytes.length := by omega
    simp only [Live.resize, hb, h3, if_false, h1, if_true]
    refine ⟨trivial, useless_of_cursor ?_⟩
    simp [Live.World.keep, hp, h2]
  · simp only [Live.clear, hb]
    refine ⟨trivial, useless_of_cursor ?_⟩
    simp [Live.World.keep]
  · simp only [Live.resize, hb, gt_iff_lt, h2, if_true]
    exact ⟨trivial, useless_of_cursor (henl _ _ h1)⟩
  · simp only [Live.pushBack, hb]
    exact ⟨trivial, useless_of_cursor (henl _ _ h)⟩

/-- C143 fails when the buffer is gone (a view of a temporary): also `seek` and `try_seek` are undefined then. -/
theorem c143_refuted_destroyed (w : Live.World) (b : Live.Buf) (hb : w.buf = some b) (v : Nat) :
    (Live.destroy w).1 = .ok () ∧ Useless (Live.destroy w).2 v ∧
    ∀ p, (Live.seek v p (Live.destroy w).2).1 = .ub ∧ (Live.trySeek v p (Live.destroy w).2).1 = .ub := by
  have hd : Live.destroy w = (.ok (), { w with buf := none }) := by simp [Live.destroy, hb]
  rw [hd]
  exact ⟨rfl, useless_of_buf rfl, fun p => ⟨rfl, rfl⟩⟩

/-- C143, repair: whatever has happened to the buffer and to the cursor, as long as the buffer exists `seek` throws
`std::out_of_range` exactly for positions beyond its present size, and after a successful `seek` reads and writes through
the view do what they do through a new view over the present bytes; `try_seek` likewise. -/
theorem c143_repair_partial (w : Live.World) (b : Live.Buf) (hb : w.buf = some b) (v p : Nat) :
    (b.bytes.length < p →
      Live.seek v p w = (.throw (.outOfRange "Cannot seek past end of buffer"), w) ∧ Live.trySeek v p w = (.ok none, w)) ∧
    (p ≤ b.bytes.length → ∃ w', Live.seek v p w = (.ok (), w') ∧ Live.trySeek v p w = (.ok (some true), w') ∧
      Live.uncheckedSeek v p w = (.ok (), w') ∧
      w'.buf = some b ∧ (∀ u, u ≠ v → w'.cursor u = w.cursor u) ∧ (Live.position v w').1 = .ok p ∧
      (∃ r, ReadView.makeAt b.bytes p = .ok r ∧
        ∀ (α : Type) (call : St ReadView α), (Live.reading v call w').1 = (call.run r).1) ∧
      (∃ r, WriteView.makeAt b.bytes p = .ok r ∧
        ∀ (α : Type) (call : St WriteView α), (Live.writing v call w').1 = (call.run r).1 ∧
          (Live.writing v call w').2.buf.map Live.Buf.bytes = some (call.run r).2.data)) := by
  refine ⟨fun h => ?_, fun h => ?_⟩
  · simp [Live.seek, Live.trySeek, hb, h]
  · have hn : ¬ p > b.bytes.length := by omega
    have hu : Live.uncheckedSeek v p w = (.ok (), w.put v p) := by simp [Live.uncheckedSeek, hb, h]
    have h1 : (w.put v p).buf = some b := hb
    have h2 : (w.put v p).cursor v = some p := by simp [Live.World.put]
    refine ⟨w.put v p, ?_, ?_, hu, h1, ?_, ?_, ?_, ?_⟩
    · simp only [Live.seek, hb, hn, if_false, hu]
    · simp only [Live.trySeek, hb, hn, if_false, hu]
    · intro u hu; simp [Live.World.put, hu]
    · simp only [Live.position, h1, h2]
    · refine ⟨⟨b.bytes, p⟩, ?_, ?_⟩
      · have := ReadView.seek_run (ReadView.make b.bytes) p
        simp only [ReadView.make, Nat.not_lt.2 h, if_false] at this
        simp only [ReadView.makeAt, ReadView.make, this]
      · intro α call; simp only [Live.reading, h1, h2]
    · refine ⟨⟨b.bytes, p⟩, ?_, ?_⟩
      · have := WriteView.seek_run (WriteView.make b.bytes) p
        simp only [WriteView.make, Nat.not_lt.2 h, if_false] at this
        simp only [WriteView.makeAt, WriteView.make, this]
      · intro α call; simp only [Live.writing, h1, h2]; exact ⟨trivial, rfl⟩

/-- C143, in place: assigning to bytes leaves every view where it was, and so does growing within the capacity for views
that stand before the end; afterwards reads see the present bytes. -/
theorem c143_in_place_partial (w : Live.World) (b : Live.Buf) (hb : w.buf = some b) (v p : Nat) (hp : w.cursor v = some p)
    (α : Type) (call : St ReadView α) :
    (∀ i x, i < b.bytes.length → ∃ w', Live.setByte i x w = (.ok (), w') ∧ w'.cursor = w.cursor ∧
      (Live.reading v call w').1 = (call.run ⟨b.bytes.set i x, p⟩).1) ∧
    (∀ n grow, p < b.bytes.length → b.bytes.length ≤ n → n ≤ b.cap → ∃ w', Live.resize n grow w = (.ok (), w') ∧
      w'.cursor v = some p ∧
      (Live.reading v call w').1 = (call.run ⟨b.bytes ++ List.replicate (n - b.bytes.length) 0, p⟩).1) ∧
    (∀ n grow, p < n → n ≤ b.bytes.length → ∃ w', Live.resize n grow w = (.ok (), w') ∧
      w'.cursor v = some p ∧ (Live.reading v call w').1 = (call.run ⟨b.bytes.take n, p⟩).1) := by
  refine ⟨fun i x h => ?_, fun n grow h1 h2 h3 => ?_, fun n grow h1 h2 => ?_⟩
  · refine ⟨{ w with buf := some { b with bytes := b.bytes.set i x } }, by simp [Live.setByte, hb, h], rfl, ?_⟩
    simp only [Live.reading, hp]
  · rcases Nat.lt_or_eq_of_le h2 with h | h
    · have hl : ¬ (b.bytes ++ List.replicate (n - b.bytes.length) 0).length > b.cap := by simp; omega
      have hc : (w.cursor v).filter (fun p => decide (p < b.bytes.length)) = some p := by simp [hp, h1]
      refine ⟨{ w.keep (fun p => p < b.bytes.length) with buf := some { b with bytes := b.bytes ++ List.replicate (n - b.bytes.length) 0 } },
        ?_, hc, ?_⟩
      · simp only [Live.resize, hb, gt_iff_lt, h, if_true, Live.enlarge]
        rw [if_neg hl]
      · simp only [Live.reading, Live.World.keep, hc]
    · subst h
      refine ⟨w, by simp [Live.resize, hb], hp, ?_⟩
      simp only [Live.reading, hb, hp, Nat.sub_self, List.replicate_zero, List.append_nil]
  · rcases Nat.lt_or_eq_of_le h2 with h | h
    · have hc : (w.cursor v).filter (fun p => decide (p < n)) = some p := by simp [hp, h1]
      refine ⟨{ w.keep (fun p => p < n) with buf := some { b with bytes := b.bytes.take n } }, ?_, hc, ?_⟩
      · have h3 : ¬ n > b.bytes.length := by omega
        simp only [Live.resize, hb, h3, if_false, h, if_true]
      · simp only [Live.reading, Live.World.keep, hc]
    · subst h
      refine ⟨w, by simp [Live.resize, hb], hp, ?_⟩
      simp only [Live.reading, hb, hp, List.take_length]

/-- C143, two views of one buffer: values written one after another through a write view are read back through a read
view that stands where the writing started, and the views end at the same position. -/
theorem c143_shared_partial (host : Endian) (w : Live.World) (b : Live.Buf) (hb : w.buf = some b) (u v p : Nat) (huv : u ≠ v)
    (hu : w.cursor u = some p) (hv : w.cursor v = some p) (hbytes : ∀ x ∈ b.bytes, IsByte x) (hp : p ≤ b.bytes.length)
    (xs : List (Enc × Obj)) (hx : ∀ q ∈ xs, (∀ x ∈ q.2, IsByte x) ∧ q.2.length < 2 ^ 64)
    (hfit : p + (xs.map fun q => q.2.length).sum ≤ b.bytes.length) :
    ∃ w' w'', Live.writing u (writeEach host xs) w = (.ok ⟨⟩, w') ∧
      Live.reading v (readEach host (xs.map fun q => ⟨q.2.length, q.1⟩)) w' = (.ok (xs.map Prod.snd), w'') ∧
      w''.cursor u = w''.cursor v ∧ w''.buf = w'.buf := by
  obtain ⟨wv, hw⟩ := (c43_writes_succeed_iff host xs b.bytes p hx hp).2 hfit
  obtain ⟨h1, -⟩ := c43_writes_then_reads host xs b.bytes p wv hx hbytes hp hw
  refine ⟨{ w.put u wv.pos with buf := some { b with bytes := wv.data } },
    { (w.put u wv.pos).put v wv.pos with buf := some { b with bytes := wv.data } }, ?_, ?_, ?_, rfl⟩
  · simp only [Live.writing, hb, hu, hw]
  · have hv' : (w.put u wv.pos).cursor v = some p := by simp [Live.World.put, huv.symm, hv]
    simp only [Live.reading, hv', h1]
    rfl
  · simp [Live.World.put]

/-- What a program may do with a buffer and its views. -/
inductive LiveOp where
  | make (v : Nat)
  | position (v : Nat)
  | reading (v : Nat) (op : ReadOp)
  | writing (v : Nat) (op : WriteOp)
  | setByte (i x : Nat)
  | resize (n grow : Nat)
  | pushBack (x grow : Nat)
  | reserve (n : Nat)
  | clear

/-- Perform one operation, ignoring the value it returns. -/
def LiveOp.run (host : Endian) : LiveOp → St Live.World Unit
  | .make v => Live.make v
  | .position v => fun w => match Live.position v w with
    | (.ok _, w') => (.ok (), w')
    | (_, w') => (.ub, w')
  | .reading v (.seek p) => Live.seek v p
  | .reading v (.trySeek p) => fun w => match Live.trySeek v p w with
    | (.ok _, w') => (.ok (), w')
    | (_, w') => (.ub, w')
  | .reading v op => Live.reading v (op.run host)
  | .writing v (.seek p) => Live.seek v p
  | .writing v (.trySeek p) => fun w => match Live.trySeek v p w with
    | (.ok _, w') => (.ok (), w')
    | (_, w') => (.ub, w')
  | .writing v op => Live.writing v (op.run host)
  | .setByte i x => Live.setByte i x
  | .resize n grow => Live.resize n grow
  | .pushBack x grow => Live.pushBack x grow
  | .reserve n => Live.reserve n
  | .clear => Live.clear

/-- The rule a careful program follows: after a change of the size or capacity of the buffer it uses a view only after a
successful `seek` or `try_seek` (or makes a new one).  The rule is stated on the text of the program: `size` is the size the
buffer has at this point, `ready` says which views may be used. -/
def Careful : (size : Nat) → (ready : Nat → Bool) → List LiveOp → Prop
  | _, _, [] => True
  | size, ready, op :: ops =>
    match op with
    | .make v => Careful size (fun u => u == v || ready u) ops
    | .position v => ready v = true ∧ Careful size ready ops
    | .reading v (.seek p) => Careful size (fun u => (u == v && decide (p ≤ size)) || ready u) ops
    | .reading v (.trySeek p) => Careful size (fun u => (u == v && decide (p ≤ size)) || ready u) ops
    | .reading v op => ready v = true ∧ op.Possible ∧ Careful size ready ops
    | .writing v (.seek p) => Careful size (fun u => (u == v && decide (p ≤ size)) || ready u) ops
    | .writing v (.trySeek p) => Careful size (fun u => (u == v && decide (p ≤ size)) || ready u) ops
    | .writing v op => ready v = true ∧ op.Possible ∧ Careful size ready ops
    | .setByte i x => i < size ∧ IsByte x ∧ Careful size ready ops
    | .resize n _ => Careful n (fun _ => false) ops
    | .pushBack x _ => IsByte x ∧ Careful (size + 1) (fun _ => false) ops
    | .reserve _ => Careful size (fun _ => false) ops
    | .clear => Careful 0 (fun _ => false) ops

/-- What a careful program can rely on. -/
private def Inv (size : Nat) (ready : Nat → Bool) (w : Live.World) : Prop :=
  ∃ b, w.buf = some b ∧ b.bytes.length = size ∧ (∀ x ∈ b.bytes, IsByte x) ∧
    ∀ v, ready v = true → ∃ p, w.cursor v = some p ∧ p ≤ size

private theorem write_step_bytes (host : Endian) (op : WriteOp) (v : WriteView) (hop : op.Possible)
    (hp : v.pos ≤ v.data.length) (hb : ∀ x ∈ v.data, IsByte x) : ∀ x ∈ ((op.run host).run v).2.data, IsByte x := by
  cases op with
  | seek p =>
    simp only [WriteOp.run]
    rw [WriteView.seek_run]
    split <;> exact hb
  | trySeek p =>
    simp only [WriteOp.run]
    rw [St.run_bind, WriteView.trySeek_run]
    by_cases h : v.data.length < p <;> simp only [h, if_true, if_false] <;> exact hb
  | write vs =>
    simp only [WriteOp.run]
    rw [St.run_bind, WriteView.write_run hop.1 hp hop.2]
    by_cases h : v.data.length < v.pos + totalSize vs
    · simp only [h, if_true]; exact hb
    · simp only [h, if_false]; exact overwrite_isByte hb (encodeAll_isByte hop.1)
  | writeWithEndian o e =>
    simp only [WriteOp.run]
    rw [St.run_bind, WriteView.writeWithEndian_run hop.1 hp hop.2]
    by_cases h : v.data.length < v.pos + o.length
    · simp only [h, if_true]; exact hb
    · simp only [h, if_false]
      refine overwrite_isByte hb ?_
      have := encodeAll_isByte (host := host) (vs := [.single (ReadView.encOf e) o]) (by simpa [GoodVal] using hop.1)
      simpa [encodeAll, encodeVal] using this
  | tryWrite vs =>
    simp only [WriteOp.run]
    rw [St.run_bind, WriteView.tryWrite_run hop.1 hp hop.2]
    have hl : ∀ (ws : List WVal) (room : Nat), (∀ x ∈ ws, GoodVal x) → ∀ x ∈ leadingFit room ws, GoodVal x := by
      intro ws
      induction ws with
      | nil => intro room _ x hx; simp [leadingFit] at hx
      | cons y ys ih =>
        intro room hg x hx
        rw [leadingFit] at hx
        split at hx
        · rcases List.mem_cons.1 hx with rfl | hx
          · exact hg _ (by simp)
          · exact ih _ (fun z hz => hg z (by simp [hz])) x hx
        · simp at hx
    by_cases h : v.data.length < v.pos + totalSize vs
    · simp only [h, if_true]; exact overwrite_isByte hb (encodeAll_isByte (hl _ _ hop.1))
    · simp only [h, if_false]; exact overwrite_isByte hb (encodeAll_isByte hop.1)

private theorem inv_put {size : Nat} {ready : Nat → Bool} {w : Live.World} {v p : Nat} (h : Inv size ready w) (hp : p ≤ size) :
    Inv size (fun u => u == v || ready u) (w.put v p) := by
  obtain ⟨b, hb, hl, hx, hc⟩ := h
  refine ⟨b, hb, hl, hx, fun u hu => ?_⟩
  by_cases huv : u = v
  · exact ⟨p, by simp [Live.World.put, huv], hp⟩
  · have : ready u = true := by simpa [huv] using hu
    obtain ⟨q, hq, hq'⟩ := hc u this
    exact ⟨q, by simp [Live.World.put, huv, hq], hq'⟩

private theorem inv_weaken {size : Nat} {ready ready' : Nat → Bool} {w : Live.World} (h : Inv size ready w)
    (hr : ∀ v, ready' v = true → ready v = true) : Inv size ready' w := by
  obtain ⟨b, hb, hl, hx, hc⟩ := h
  exact ⟨b, hb, hl, hx, fun u hu => hc u (hr u hu)⟩

private theorem seek_inv {size : Nat} {ready : Nat → Bool} {w : Live.World} (v p : Nat) (h : Inv size ready w) :
    ((Live.seek v p w).1 = .ok () ∨ ∃ e, (Live.seek v p w).1 = .throw e) ∧
    (∃ r, (Live.trySeek v p w).1 = .ok r) ∧
    Inv size (fun u => (u == v && decide (p ≤ size)) || ready u) (Live.seek v p w).2 ∧
    (Live.trySeek v p w).2 = (Live.seek v p w).2 := by
  obtain ⟨b, hb, hl, -⟩ := id h
  obtain ⟨h1, h2⟩ := c143_repair_partial w b hb v p
  by_cases hp : b.bytes.length < p
  · obtain ⟨h3, h4⟩ := h1 hp
    rw [h3, h4]
    refine ⟨Or.inr ⟨_, rfl⟩, ⟨_, rfl⟩, inv_weaken h (fun u hu => ?_), rfl⟩
    have : ¬ p ≤ size := by omega
    simpa [this] using hu
  · have hp' : p ≤ size := by omega
    have hn : ¬ p > b.bytes.length := by omega
    have hu : Live.uncheckedSeek v p w = (.ok (), w.put v p) := by
      simp only [Live.uncheckedSeek, hb]; rw [if_pos (by omega)]
    have hs : Live.seek v p w = (.ok (), w.put v p) := by simp only [Live.seek, hb, hn, if_false, hu]
    have ht : Live.trySeek v p w = (.ok (some true), w.put v p) := by simp only [Live.trySeek, hb, hn, if_false, hu]
    rw [hs, ht]
    refine ⟨Or.inl rfl, ⟨_, rfl⟩, inv_weaken (inv_put h hp') (fun u hu => ?_), rfl⟩
    simpa [hp'] using hu

private theorem reading_inv {host : Endian} {size : Nat} {ready : Nat → Bool} {w : Live.World} {v : Nat} {op : ReadOp} (h : Inv size ready w)
    (hr : ready v = true) (hop : op.Possible) :
    ((Live.reading v (op.run host) w).1 = .ok ⟨⟩ ∨ ∃ e, (Live.reading v (op.run host) w).1 = .throw e) ∧
    Inv size ready (Live.reading v (op.run host) w).2 := by
  obtain ⟨b, hb, hl, hx, hc⟩ := id h
  obtain ⟨p, hp, hp'⟩ := hc v hr
  obtain ⟨⟨-, s2⟩, s3⟩ := read_step host b.bytes hx op ⟨b.bytes, p⟩ hop ⟨rfl, by simp only; omega⟩
  have he : Live.reading v (op.run host) w = (((op.run host).run ⟨b.bytes, p⟩).1, w.put v ((op.run host).run ⟨b.bytes, p⟩).2.pos) := by
    simp only [Live.reading, hb, hp]
  rw [he]
  refine ⟨?_, inv_weaken (inv_put (v := v) (p := ((op.run host).run ⟨b.bytes, p⟩).2.pos) h (by omega)) (fun u hu => by simp [hu])⟩
  rcases s3 with ⟨a, ha⟩ | he
  · exact Or.inl ha
  · exact Or.inr he

private theorem writing_inv {host : Endian} {size : Nat} {ready : Nat → Bool} {w : Live.World} {v : Nat} {op : WriteOp} (h : Inv size ready w)
    (hr : ready v = true) (hop : op.Possible) :
    ((Live.writing v (op.run host) w).1 = .ok ⟨⟩ ∨ ∃ e, (Live.writing v (op.run host) w).1 = .throw e) ∧
    Inv size ready (Live.writing v (op.run host) w).2 := by
  obtain ⟨b, hb, hl, hx, hc⟩ := id h
  obtain ⟨p, hp, hp'⟩ := hc v hr
  obtain ⟨⟨s1, s2⟩, s3⟩ := write_step host b.bytes.length op ⟨b.bytes, p⟩ hop ⟨rfl, by simp only; omega⟩
  have sb := write_step_bytes host op ⟨b.bytes, p⟩ hop (by simp only; omega) hx
  have he : Live.writing v (op.run host) w = (((op.run host).run ⟨b.bytes, p⟩).1,
      { w.put v ((op.run host).run ⟨b.bytes, p⟩).2.pos with buf := some { b with bytes := ((op.run host).run ⟨b.bytes, p⟩).2.data } }) := by
    simp only [Live.writing, hb, hp]
  rw [he]
  obtain ⟨-, -, -, -, hc'⟩ := inv_weaken (ready' := ready) (inv_put (v := v) (p := ((op.run host).run ⟨b.bytes, p⟩).2.pos) h (by omega))
    (fun u hu => by simp [hu])
  refine ⟨?_, _, rfl, by simp only; omega, sb, hc'⟩
  rcases s3 with ⟨a, ha⟩ | he
  · exact Or.inl ha
  · exact Or.inr he

/-- The size of the buffer after a program, by its text. -/
def sizeAfter : Nat → List LiveOp → Nat
  | size, [] => size
  | _, .resize n _ :: ops => sizeAfter n ops
  | size, .pushBack _ _ :: ops => sizeAfter (size + 1) ops
  | _, .clear :: ops => sizeAfter 0 ops
  | size, _ :: ops => sizeAfter size ops

private theorem history_ok {ι σ : Type} {step : ι → St σ Unit} {i : ι} {is : List ι} {s : σ}
    (h : (step i s).1 = .ok () ∨ ∃ e, (step i s).1 = .throw e) :
    St.history step (i :: is) s = St.history step is (step i s).2 := by
  rcases hr : step i s with ⟨o, s'⟩
  rw [hr] at h
  rcases h with h | ⟨e, h⟩
  · simp only at h; subst h; simp only [St.history, hr]
  · simp only at h; subst h; simp only [St.history, hr]

private theorem careful_run (host : Endian) (ops : List LiveOp) : ∀ (size : Nat) (ready : Nat → Bool) (w : Live.World),
    Inv size ready w → Careful size ready ops →
    ∃ w' b, St.history (LiveOp.run host) ops w = some w' ∧ w'.buf = some b ∧ b.bytes.length = sizeAfter size ops ∧
      ∀ x ∈ b.bytes, IsByte x := by
  induction ops with
  | nil =>
    intro size ready w h _
    obtain ⟨b, hb, hl, hx, -⟩ := h
    exact ⟨w, b, rfl, hb, hl, hx⟩
  | cons op ops ih =>
    have key : ∀ {size : Nat} {ready : Nat → Bool} {w : Live.World} {size' : Nat} {ready' : Nat → Bool},
        (((LiveOp.run host op) w).1 = .ok () ∨ ∃ e, ((LiveOp.run host op) w).1 = .throw e) → Inv size' ready' ((LiveOp.run host op) w).2 →
        Careful size' ready' ops → sizeAfter size (op :: ops) = sizeAfter size' ops →
        ∃ w' b, St.history (LiveOp.run host) (op :: ops) w = some w' ∧ w'.buf = some b ∧
          b.bytes.length = sizeAfter size (op :: ops) ∧ ∀ x ∈ b.bytes, IsByte x := by
      intro size ready w size' ready' h1 h2 h3 h4
      rw [history_ok h1, h4]
      exact ih size' ready' _ h2 h3
    intro size ready w h hc
    have tries : ∀ v p, (match Live.trySeek v p w with
        | (.ok _, w') => ((.ok (), w') : Outcome Unit × Live.World)
        | (_, w') => (.ub, w')) = (.ok (), (Live.seek v p w).2) := by
      intro v p
      obtain ⟨-, ⟨r, hr⟩, -, h4⟩ := seek_inv v p h
      rcases ht : Live.trySeek v p w with ⟨o, w'⟩
      rw [ht] at hr h4
      simp only at hr h4
      subst hr; subst h4
      rfl
    cases op with
    | make v =>
      obtain ⟨b, hb, -⟩ := id h
      have he : LiveOp.run host (.make v) w = (.ok (), w.put v 0) := by simp [LiveOp.run, Live.make, hb]
      exact key (ready := ready) (by rw [he]; exact Or.inl rfl) (by rw [he]; exact inv_put h (Nat.zero_le _)) hc rfl
    | position v =>
      obtain ⟨hr, hc⟩ := hc
      obtain ⟨b, hb, -, -, hcur⟩ := id h
      obtain ⟨p, hp, -⟩ := hcur v hr
      have he : LiveOp.run host (.position v) w = (.ok (), w) := by simp [LiveOp.run, Live.position, hb, hp]
      exact key (ready := ready) (by rw [he]; exact Or.inl rfl) (by rw [he]; exact h) hc rfl
    | reading v op =>
      cases op with
      | seek p =>
        obtain ⟨h1, -, h3, -⟩ := seek_inv v p h
        exact key (ready := ready) h1 h3 hc rfl
      | trySeek p =>
        obtain ⟨-, -, h3, -⟩ := seek_inv v p h
        have he : LiveOp.run host (.reading v (.trySeek p)) w = (.ok (), (Live.seek v p w).2) := tries v p
        exact key (ready := ready) (by rw [he]; exact Or.inl rfl) (by rw [he]; exact h3) hc rfl
      | read ts => obtain ⟨h1, h2⟩ := reading_inv (host := host) h hc.1 hc.2.1; exact key (ready := ready) h1 h2 hc.2.2 rfl
      | readRange t n => obtain ⟨h1, h2⟩ := reading_inv (host := host) h hc.1 hc.2.1; exact key (ready := ready) h1 h2 hc.2.2 rfl
      | readWithEndianness s e => obtain ⟨h1, h2⟩ := reading_inv (host := host) h hc.1 hc.2.1; exact key (ready := ready) h1 h2 hc.2.2 rfl
      | tryRead ts => obtain ⟨h1, h2⟩ := reading_inv (host := host) h hc.1 hc.2.1; exact key (ready := ready) h1 h2 hc.2.2 rfl
      | tryReadRange t n => obtain ⟨h1, h2⟩ := reading_inv (host := host) h hc.1 hc.2.1; exact key (ready := ready) h1 h2 hc.2.2 rfl
    | writing v op =>
      cases op with
      | seek p =>
        obtain ⟨h1, -, h3, -⟩ := seek_inv v p h
        exact key (ready := ready) h1 h3 hc rfl
      | trySeek p =>
        obtain ⟨-, -, h3, -⟩ := seek_inv v p h
        have he : LiveOp.run host (.writing v (.trySeek p)) w = (.ok (), (Live.seek v p w).2) := tries v p
        exact key (ready := ready) (by rw [he]; exact Or.inl rfl) (by rw [he]; exact h3) hc rfl
      | write vs => obtain ⟨h1, h2⟩ := writing_inv (host := host) h hc.1 hc.2.1; exact key (ready := ready) h1 h2 hc.2.2 rfl
      | writeWithEndian o e => obtain ⟨h1, h2⟩ := writing_inv (host := host) h hc.1 hc.2.1; exact key (ready := ready) h1 h2 hc.2.2 rfl
      | tryWrite vs => obtain ⟨h1, h2⟩ := writing_inv (host := host) h hc.1 hc.2.1; exact key (ready := ready) h1 h2 hc.2.2 rfl
    | setByte i x =>
      obtain ⟨hi, hx, hc⟩ := hc
      obtain ⟨b, hb, hl, hbx, hcur⟩ := id h
      have he : LiveOp.run host (.setByte i x) w = (.ok (), { w with buf := some { b with bytes := b.bytes.set i x } }) := by
        simp only [LiveOp.run, Live.setByte, hb]; rw [if_pos (by omega)]
      refine key (ready := ready) (by rw [he]; exact Or.inl rfl) ?_ hc rfl
      rw [he]
      refine ⟨_, rfl, by simp [hl], fun y hy => ?_, hcur⟩
      rcases List.mem_or_eq_of_mem_set hy with hy | rfl
      · exact hbx y hy
      · exact hx
    | resize n grow =>
      obtain ⟨b, hb, hl, hbx, -⟩ := id h
      have : ∃ w' b', LiveOp.run host (.resize n grow) w = (.ok (), w') ∧ w'.buf = some b' ∧ b'.bytes.length = n ∧
          ∀ x ∈ b'.bytes, IsByte x := by
        by_cases h1 : n > b.bytes.length
        · have hz : ∀ x ∈ b.bytes ++ List.replicate (n - b.bytes.length) 0, IsByte x := by
            intro x hx
            rcases List.mem_append.1 hx with hx | hx
            · exact hbx x hx
            · rw [(List.mem_replicate.1 hx).2]; exact Nat.zero_lt_of_lt (by decide : 0 < 256)
          simp only [LiveOp.run, Live.resize, hb, h1, if_true, Live.enlarge]
          by_cases h2 : (b.bytes ++ List.replicate (n - b.bytes.length) 0).length > b.cap
          · rw [if_pos h2]; exact ⟨_, _, rfl, rfl, by simp; omega, hz⟩
          · rw [if_neg h2]; exact ⟨_, _, rfl, rfl, by simp; omega, hz⟩
        · by_cases h2 : n < b.bytes.length
          · simp only [LiveOp.run, Live.resize, hb, h1, if_false, h2, if_true]
            exact ⟨_, _, rfl, rfl, by simp; omega, fun x hx => hbx x (List.mem_of_mem_take hx)⟩
          · simp only [LiveOp.run, Live.resize, hb, h1, if_false, h2]
            exact ⟨_, _, rfl, hb, by omega, hbx⟩
      obtain ⟨w', b', he, h1, h2, h3⟩ := this
      refine key (ready := ready) (size' := n) (ready' := fun _ => false) (by rw [he]; exact Or.inl rfl) ?_ hc rfl
      rw [he]; exact ⟨b', h1, h2, h3, by simp⟩
    | pushBack x grow =>
      obtain ⟨hx, hc⟩ := hc
      obtain ⟨b, hb, hl, hbx, -⟩ := id h
      have hz : ∀ y ∈ b.bytes ++ [x], IsByte y := by
        intro y hy
        rcases List.mem_append.1 hy with hy | hy
        · exact hbx y hy
        · rw [List.mem_singleton.1 hy]; exact hx
      have : ∃ w' b', LiveOp.run host (.pushBack x grow) w = (.ok (), w') ∧ w'.buf = some b' ∧ b'.bytes.length = size + 1 ∧
          ∀ x ∈ b'.bytes, IsByte x := by
        simp only [LiveOp.run, Live.pushBack, hb, Live.enlarge]
        by_cases h2 : (b.bytes ++ [x]).length > b.cap
        · rw [if_pos h2]; exact ⟨_, _, rfl, rfl, by simp; omega, hz⟩
        · rw [if_neg h2]; exact ⟨_, _, rfl, rfl, by simp; omega, hz⟩
      obtain ⟨w', b', he, h1, h2, h3⟩ := this
      refine key (ready := ready) (size' := size + 1) (ready' := fun _ => false) (by rw [he]; exact Or.inl rfl) ?_ hc rfl
      rw [he]; exact ⟨b', h1, h2, h3, by simp⟩
    | reserve n =>
      obtain ⟨b, hb, hl, hbx, -⟩ := id h
      have : ∃ w' b', LiveOp.run host (.reserve n) w = (.ok (), w') ∧ w'.buf = some b' ∧ b'.bytes.length = size ∧
          ∀ x ∈ b'.bytes, IsByte x := by
        simp only [LiveOp.run, Live.reserve, hb]
        by_cases h2 : n > b.cap
        · rw [if_pos h2]; exact ⟨_, _, rfl, rfl, hl, hbx⟩
        · rw [if_neg h2]; exact ⟨_, _, rfl, hb, hl, hbx⟩
      obtain ⟨w', b', he, h1, h2, h3⟩ := this
      refine key (ready := ready) (size' := size) (ready' := fun _ => false) (by rw [he]; exact Or.inl rfl) ?_ hc rfl
      rw [he]; exact ⟨b', h1, h2, h3, by simp⟩
    | clear =>
      obtain ⟨b, hb, hl, hbx, -⟩ := id h
      have he : LiveOp.run host .clear w = (.ok (), { w.keep (fun _ => false) with buf := some { b with bytes := [] } }) := by
        simp only [LiveOp.run, Live.clear, hb]
      refine key (ready := ready) (size' := 0) (ready' := fun _ => false) (by rw [he]; exact Or.inl rfl) ?_ hc rfl
      rw [he]; exact ⟨_, rfl, rfl, by simp, by simp⟩

/-- C143, careful programs: if after every change of the buffer's size or capacity each view is used only after a
successful `seek`, no operation has undefined behaviour or terminates, whatever is read and written through however many
views, and whatever throws on the way; the buffer ends with the size the owner gave it. -/
theorem c143_careful_partial (host : Endian) (bytes : List Nat) (cap : Nat) (hb : ∀ x ∈ bytes, IsByte x) (ops : List LiveOp)
    (hc : Careful bytes.length (fun _ => false) ops) :
    ∃ w b, St.history (LiveOp.run host) ops ⟨some ⟨bytes, cap⟩, fun _ => none⟩ = some w ∧ w.buf = some b ∧
      b.bytes.length = sizeAfter bytes.length ops := by
  obtain ⟨w, b, h1, h2, h3, -⟩ := careful_run host ops bytes.length (fun _ => false) ⟨some ⟨bytes, cap⟩, fun _ => none⟩
    ⟨_, rfl, rfl, hb, by simp⟩ hc
  exact ⟨w, b, h1, h2, h3⟩

/-- The rule can be followed by a program that grows its buffer, and a program that does not follow it fails: the same
operations without the second `seek`. -/
example : Careful 2 (fun _ => false) [.make 0, .writing 0 (.write [.single .native [7, 8]]), .pushBack 9 8,
      .writing 0 (.seek 2), .writing 0 (.write [.single .native [5]])] ∧
    (St.history (LiveOp.run .little) [.make 0, .writing 0 (.write [.single .native [7, 8]]), .pushBack 9 8,
      .writing 0 (.seek 2), .writing 0 (.write [.single .native [5]])] ⟨some ⟨[0, 0], 2⟩, fun _ => none⟩).bind
        (fun w => w.buf) = some ⟨[7, 8, 5], 8⟩ ∧
    (St.history (LiveOp.run .little) [.make 0, .writing 0 (.write [.single .native [7, 8]]), .pushBack 9 8,
      .writing 0 (.write [.single .native [5]])] ⟨some ⟨[0, 0], 2⟩, fun _ => none⟩).isNone = true := by
  refine ⟨?_, by decide, by decide⟩
  simp [Careful, WriteOp.Possible, GoodVal, IsByte, totalSize, sizeOfVal]

end Wite.Props
