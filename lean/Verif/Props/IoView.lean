import Verif.Lemmas.IoView

/-!
# Properties C41–C45: buffer views and byte streams
-/

namespace Wite.Props

open Wite.Io Wite.Spec Wite.Hex

/-- The operations of a read view a caller may perform (everything but
`unchecked_seek`). -/
inductive ReadOp where
  | seek (p : Nat)
  | trySeek (p : Nat)
  | read (ts : List Ty)
  | readRange (t : Ty) (n : Nat)
  | readWithEndianness (size : Nat) (e : Endian)
  | tryRead (ts : List Ty)
  | tryReadRange (t : Ty) (n : Nat)

/-- Perform one operation, ignoring the value it returns. -/
def ReadOp.run (host : Endian) : ReadOp → St ReadView PUnit
  | .seek p => ReadView.seek p
  | .trySeek p => do let _ ← ReadView.trySeek p; pure ⟨⟩
  | .read ts => do let _ ← ReadView.read host ts; pure ⟨⟩
  | .readRange t n => do let _ ← ReadView.readRange host t n; pure ⟨⟩
  | .readWithEndianness size e => do let _ ← ReadView.readWithEndianness host size e; pure ⟨⟩
  | .tryRead ts => do let _ ← ReadView.tryRead host ts; pure ⟨⟩
  | .tryReadRange t n => do let _ ← ReadView.tryReadRange host t n; pure ⟨⟩

/-- The sizes named by the operation are possible sizes of objects in memory. -/
def ReadOp.Possible : ReadOp → Prop
  | .read ts => totalTySize ts < 2 ^ 64
  | .readRange t n => n * t.size < 2 ^ 64
  | .readWithEndianness size _ => size < 2 ^ 64
  | .tryRead ts => totalTySize ts < 2 ^ 64
  | .tryReadRange t n => n * t.size < 2 ^ 64
  | _ => True

private theorem discard {σ α : Type} {x : St σ α} {s s' : σ} {a : α} (h : x.run s = (.ok a, s')) :
    (x >>= fun _ => (pure ⟨⟩ : St σ PUnit)).run s = (.ok ⟨⟩, s') := by
  rw [St.run_bind_ok h]; rfl

theorem read_step (host : Endian) (buf : List Nat) (hb : ∀ b ∈ buf, IsByte b) (op : ReadOp)
    (v : ReadView) (hop : op.Possible) (hv : v.data = buf ∧ v.pos ≤ buf.length) :
    (((op.run host).run v).2.data = buf ∧ ((op.run host).run v).2.pos ≤ buf.length) ∧
      ((∃ a, ((op.run host).run v).1 = .ok a) ∨ ∃ e, ((op.run host).run v).1 = .throw e) := by
  obtain ⟨hd, hp⟩ := hv
  have hb' : ∀ b ∈ v.data, IsByte b := by rw [hd]; exact hb
  have hp' : v.pos ≤ v.data.length := by rw [hd]; exact hp
  cases op with
  | seek p =>
    have h := ReadView.seek_run v p
    simp only [ReadOp.run]
    by_cases h2 : v.data.length < p
    · rw [h, if_pos h2]; exact ⟨⟨hd, hp⟩, Or.inr ⟨_, rfl⟩⟩
    · rw [h, if_neg h2]
      refine ⟨⟨hd, ?_⟩, Or.inl ⟨_, rfl⟩⟩
      rw [← hd]; simp only; omega
  | trySeek p =>
    have h := ReadView.trySeek_run v p
    simp only [ReadOp.run]
    by_cases h2 : v.data.length < p
    · rw [if_pos h2] at h
      rw [discard h]; exact ⟨⟨hd, hp⟩, Or.inl ⟨_, rfl⟩⟩
    · rw [if_neg h2] at h
      rw [discard h]
      refine ⟨⟨hd, ?_⟩, Or.inl ⟨_, rfl⟩⟩
      rw [← hd]; simp only; omega
  | read ts =>
    have h := ReadView.read_run (host := host) hb' hp' hop
    simp only [ReadOp.run]
    by_cases h2 : v.data.length < v.pos + totalTySize ts
    · rw [if_pos h2] at h
      rw [St.run_bind_throw h]; exact ⟨⟨hd, hp⟩, Or.inr ⟨_, rfl⟩⟩
    · rw [if_neg h2] at h
      rw [discard h]
      refine ⟨⟨hd, ?_⟩, Or.inl ⟨_, rfl⟩⟩
      rw [← hd]; simp only; omega
  | readRange t n =>
    have h := ReadView.readRange_run (host := host) hb' hp' hop
    simp only [ReadOp.run]
    by_cases h2 : v.data.length < v.pos + n * t.size
    · rw [if_pos h2] at h
      rw [St.run_bind_throw h]; exact ⟨⟨hd, hp⟩, Or.inr ⟨_, rfl⟩⟩
    · rw [if_neg h2] at h
      rw [discard h]
      refine ⟨⟨hd, ?_⟩, Or.inl ⟨_, rfl⟩⟩
      rw [← hd]; simp only; omega
  | readWithEndianness size e =>
    have h := ReadView.readWithEndianness_run (host := host) (e := e) hb' hp' hop
    simp only [ReadOp.run]
    by_cases h2 : v.data.length < v.pos + size
    · rw [if_pos h2] at h
      rw [St.run_bind_throw h]; exact ⟨⟨hd, hp⟩, Or.inr ⟨_, rfl⟩⟩
    · rw [if_neg h2] at h
      rw [discard h]
      refine ⟨⟨hd, ?_⟩, Or.inl ⟨_, rfl⟩⟩
      rw [← hd]; simp only; omega
  | tryRead ts =>
    obtain ⟨rs, hrs⟩ := recursiveTryRead_returns host ts (v.data.drop v.pos) (drop_isByte hb')
    have h := ReadView.tryRead_run hp' hop hrs
    simp only [ReadOp.run]
    rw [discard h]
    refine ⟨⟨hd, ?_⟩, Or.inl ⟨_, rfl⟩⟩
    rw [← hd]; simp only; omega
  | tryReadRange t n =>
    have h := ReadView.tryReadRange_run (host := host) hb' hp' hop
    simp only [ReadOp.run]
    by_cases h2 : v.data.length < v.pos + n * t.size
    · rw [if_pos h2] at h
      rw [discard h]
      refine ⟨⟨hd, ?_⟩, Or.inl ⟨_, rfl⟩⟩
      rw [← hd]
    · rw [if_neg h2] at h
      rw [discard h]
      refine ⟨⟨hd, ?_⟩, Or.inl ⟨_, rfl⟩⟩
      rw [← hd]; simp only; omega

/-- C41, read view: after any history of operations, whatever failed or threw on the way, the
cursor is inside the buffer or at its end, the buffer is unchanged, and no operation had
undefined behaviour. -/
theorem c41_read_view_cursor (host : Endian) (buf : List Nat) (hb : ∀ b ∈ buf, IsByte b)
    (ops : List ReadOp) (hops : ∀ op ∈ ops, op.Possible) :
    ∃ v, St.history (ReadOp.run host) ops (ReadView.make buf) = some v ∧
      v.data = buf ∧ v.readPosition ≤ buf.length := by
  obtain ⟨v, hv, hi⟩ := St.history_inv (inv := fun v => v.data = buf ∧ v.pos ≤ buf.length)
    (fun op v hop hv => read_step host buf hb op v hop hv) ops (ReadView.make buf) hops
    ⟨rfl, Nat.zero_le _⟩
  exact ⟨v, hv, hi.1, hi.2⟩

/-- The operations of a write view a caller may perform (everything but
`unchecked_seek`). -/
inductive WriteOp where
  | seek (p : Nat)
  | trySeek (p : Nat)
  | write (vs : List WVal)
  | writeWithEndian (o : Obj) (e : Endian)
  | tryWrite (vs : List WVal)

/-- Perform one operation, ignoring the value it returns. -/
def WriteOp.run (host : Endian) : WriteOp → St WriteView PUnit
  | .seek p => WriteView.seek p
  | .trySeek p => do let _ ← WriteView.trySeek p; pure ⟨⟩
  | .write vs => do let _ ← WriteView.write host vs; pure ⟨⟩
  | .writeWithEndian o e => do let _ ← WriteView.writeWithEndian host o e; pure ⟨⟩
  | .tryWrite vs => do let _ ← WriteView.tryWrite host vs; pure ⟨⟩

/-- The arguments are objects of possible sizes. -/
def WriteOp.Possible : WriteOp → Prop
  | .write vs => (∀ v ∈ vs, GoodVal v) ∧ totalSize vs < 2 ^ 64
  | .writeWithEndian o _ => (∀ b ∈ o, IsByte b) ∧ o.length < 2 ^ 64
  | .tryWrite vs => (∀ v ∈ vs, GoodVal v) ∧ totalSize vs < 2 ^ 64
  | _ => True

theorem write_step (host : Endian) (len : Nat) (op : WriteOp)
    (v : WriteView) (hop : op.Possible) (hv : v.data.length = len ∧ v.pos ≤ len) :
    (((op.run host).run v).2.data.length = len ∧ ((op.run host).run v).2.pos ≤ len) ∧
      ((∃ a, ((op.run host).run v).1 = .ok a) ∨ ∃ e, ((op.run host).run v).1 = .throw e) := by
  obtain ⟨hd, hp⟩ := hv
  have hp' : v.pos ≤ v.data.length := by rw [hd]; exact hp
  cases op with
  | seek p =>
    have h := WriteView.seek_run v p
    simp only [WriteOp.run]
    by_cases h2 : v.data.length < p
    · rw [h, if_pos h2]; exact ⟨⟨hd, hp⟩, Or.inr ⟨_, rfl⟩⟩
    · rw [h, if_neg h2]
      refine ⟨⟨hd, ?_⟩, Or.inl ⟨_, rfl⟩⟩
      simp only; omega
  | trySeek p =>
    have h := WriteView.trySeek_run v p
    simp only [WriteOp.run]
    by_cases h2 : v.data.length < p
    · rw [if_pos h2] at h
      rw [discard h]; exact ⟨⟨hd, hp⟩, Or.inl ⟨_, rfl⟩⟩
    · rw [if_neg h2] at h
      rw [discard h]
      refine ⟨⟨hd, ?_⟩, Or.inl ⟨_, rfl⟩⟩
      simp only; omega
  | write vs =>
    have h := WriteView.write_run (host := host) hop.1 hp' hop.2
    have hl := encodeAll_length (host := host) hop.1
    simp only [WriteOp.run]
    by_cases h2 : v.data.length < v.pos + totalSize vs
    · rw [if_pos h2] at h
      rw [St.run_bind_throw h]; exact ⟨⟨hd, hp⟩, Or.inr ⟨_, rfl⟩⟩
    · rw [if_neg h2] at h
      rw [discard h]
      refine ⟨⟨?_, ?_⟩, Or.inl ⟨_, rfl⟩⟩
      · simp only; rw [overwrite_length (by omega), hd]
      · simp only; omega
  | writeWithEndian o e =>
    have h := WriteView.writeWithEndian_run (host := host) (e := e) hop.1 hp' hop.2
    have hl := encode_length (host := host) (enc := ReadView.encOf e) hop.1
    simp only [WriteOp.run]
    by_cases h2 : v.data.length < v.pos + o.length
    · rw [if_pos h2] at h
      rw [St.run_bind_throw h]; exact ⟨⟨hd, hp⟩, Or.inr ⟨_, rfl⟩⟩
    · rw [if_neg h2] at h
      rw [discard h]
      refine ⟨⟨?_, ?_⟩, Or.inl ⟨_, rfl⟩⟩
      · simp only; rw [overwrite_length (by omega), hd]
      · simp only; omega
  | tryWrite vs =>
    have h := WriteView.tryWrite_run (host := host) hop.1 hp' hop.2
    have hl := encodeAll_length (host := host) hop.1
    have hlf := WriteView.leadingFit_le (host := host) vs (v.data.length - v.pos) hop.1
    simp only [WriteOp.run]
    by_cases h2 : v.data.length < v.pos + totalSize vs
    · rw [if_pos h2] at h
      rw [discard h]
      refine ⟨⟨?_, hp⟩, Or.inl ⟨_, rfl⟩⟩
      simp only; rw [overwrite_length (by omega), hd]
    · rw [if_neg h2] at h
      rw [discard h]
      refine ⟨⟨?_, ?_⟩, Or.inl ⟨_, rfl⟩⟩
      · simp only; rw [overwrite_length (by omega), hd]
      · simp only; omega

/-- C41, write view: after any history the cursor is inside the buffer or at its end, the
buffer has kept its size, and no operation had undefined behaviour. -/
theorem c41_write_view_cursor (host : Endian) (buf : List Nat) (ops : List WriteOp)
    (hops : ∀ op ∈ ops, op.Possible) :
    ∃ v, St.history (WriteOp.run host) ops (WriteView.make buf) = some v ∧
      v.data.length = buf.length ∧ v.writePosition ≤ buf.length := by
  obtain ⟨v, hv, hi⟩ := St.history_inv
    (inv := fun v => v.data.length = buf.length ∧ v.pos ≤ buf.length)
    (fun op v hop hv => write_step host buf.length op v hop hv) ops (WriteView.make buf) hops
    ⟨rfl, Nat.zero_le _⟩
  exact ⟨v, hv, hi.1, hi.2⟩

example : St.history (ReadOp.run .little)
    [.read [⟨2, .native⟩], .seek 9, .tryRead [⟨1, .native⟩, ⟨4, .native⟩], .trySeek 1, .read [⟨9, .native⟩]]
    (ReadView.make [1, 2, 3, 4]) = some ⟨[1, 2, 3, 4], 1⟩ := by decide
example : St.history (WriteOp.run .little)
    [.write [.single .native [7, 8]], .seek 9, .tryWrite [.single .native [1], .single .native [2, 3]],
      .trySeek 3, .writeWithEndian [5] .big] (WriteView.make [0, 0, 0, 0]) =
    some ⟨[7, 8, 1, 5], 4⟩ := by decide

/-- C42, read view: a throwing operation that throws leaves buffer and cursor as they were;
one that returns has advanced the cursor by exactly the total size of the values, and has
returned the values laid out from the cursor on. -/
theorem c42_read_view (host : Endian) (ts : List Ty) (v v' : ReadView)
    (hb : ∀ b ∈ v.data, IsByte b) (hp : v.pos ≤ v.data.length) (hT : totalTySize ts < 2 ^ 64) :
    (∀ e, (ReadView.read host ts).run v = (.throw e, v') → v' = v) ∧
    (∀ a, (ReadView.read host ts).run v = (.ok a, v') →
      a = decodeSeq host ts (v.data.drop v.pos) ∧
      v' = { v with pos := v.pos + totalTySize ts }) := by
  rw [ReadView.read_run hb hp hT]
  by_cases h : v.data.length < v.pos + totalTySize ts
  · rw [if_pos h]; constructor <;> intro x hx <;> simp_all
  · rw [if_neg h]
    constructor
    · intro x hx; simp at hx
    · intro x hx
      obtain ⟨h2, h3⟩ := Prod.mk.inj hx
      cases h2
      exact ⟨rfl, h3.symm⟩

/-- C42, range reads through a read view. -/
theorem c42_read_view_range (host : Endian) (t : Ty) (n : Nat) (v v' : ReadView)
    (hb : ∀ b ∈ v.data, IsByte b) (hp : v.pos ≤ v.data.length) (hT : n * t.size < 2 ^ 64) :
    (∀ e, (ReadView.readRange host t n).run v = (.throw e, v') → v' = v) ∧
    (∀ a, (ReadView.readRange host t n).run v = (.ok a, v') →
      a = decodeSeq host (List.replicate n t) (v.data.drop v.pos) ∧
      v' = { v with pos := v.pos + n * t.size }) := by
  rw [ReadView.readRange_run hb hp hT]
  by_cases h : v.data.length < v.pos + n * t.size
  · rw [if_pos h]; constructor <;> intro x hx <;> simp_all
  · rw [if_neg h]
    constructor
    · intro x hx; simp at hx
    · intro x hx
      obtain ⟨h2, h3⟩ := Prod.mk.inj hx
      cases h2
      exact ⟨rfl, h3.symm⟩

/-- C42, reads with a run-time endianness. -/
theorem c42_read_view_endian (host : Endian) (size : Nat) (en : Endian) (v v' : ReadView)
    (hb : ∀ b ∈ v.data, IsByte b) (hp : v.pos ≤ v.data.length) (hT : size < 2 ^ 64) :
    (∀ e, (ReadView.readWithEndianness host size en).run v = (.throw e, v') → v' = v) ∧
    (∀ a, (ReadView.readWithEndianness host size en).run v = (.ok a, v') →
      a = [intObject host size (match en with
        | .little => leValue ((v.data.drop v.pos).take size)
        | .big => beValue ((v.data.drop v.pos).take size))] ∧
      v' = { v with pos := v.pos + size }) := by
  rw [ReadView.readWithEndianness_run hb hp hT]
  by_cases h : v.data.length < v.pos + size
  · rw [if_pos h]; constructor <;> intro x hx <;> simp_all
  · rw [if_neg h]
    constructor
    · intro x hx; simp at hx
    · intro x hx
      obtain ⟨h2, h3⟩ := Prod.mk.inj hx
      cases h2
      refine ⟨?_, h3.symm⟩
      have : ((v.data.drop v.pos).take size).length = size := by
        rw [List.length_take, List.length_drop]; omega
      cases en <;> simp only [ReadView.encOf, decode, this]

/-- C42, `seek` of either view: throws iff the position is beyond the end, then changes
nothing; otherwise moves the cursor there. -/
theorem c42_seek (p : Nat) (v : ReadView) (w : WriteView) :
    (ReadView.seek p).run v =
      (if p ≤ v.data.length then (.ok ⟨⟩, { v with pos := p })
       else (.throw (.outOfRange "Cannot seek past end of buffer"), v)) ∧
    (WriteView.seek p).run w =
      (if p ≤ w.data.length then (.ok ⟨⟩, { w with pos := p })
       else (.throw (.outOfRange "Cannot seek past end of buffer"), w)) := by
  rw [ReadView.seek_run, WriteView.seek_run]
  constructor
  · by_cases h : p ≤ v.data.length
    · rw [if_neg (by omega), if_pos h]
    · rw [if_pos (by omega), if_neg h]
  · by_cases h : p ≤ w.data.length
    · rw [if_neg (by omega), if_pos h]
    · rw [if_pos (by omega), if_neg h]

/-- C42, write view: a `write` that throws leaves buffer and cursor as they were; one that
returns reports and advances by the total size, and has changed only those bytes. -/
theorem c42_write_view (host : Endian) (vs : List WVal) (v v' : WriteView)
    (hv : ∀ x ∈ vs, GoodVal x) (hp : v.pos ≤ v.data.length) (hT : totalSize vs < 2 ^ 64) :
    (∀ e, (WriteView.write host vs).run v = (.throw e, v') → v' = v) ∧
    (∀ n, (WriteView.write host vs).run v = (.ok n, v') →
      n = totalSize vs ∧ v'.pos = v.pos + totalSize vs ∧
      v'.data = v.data.take v.pos ++ encodeAll host vs ++ v.data.drop (v.pos + totalSize vs)) := by
  have hl := encodeAll_length (host := host) hv
  rw [WriteView.write_run hv hp hT]
  by_cases h : v.data.length < v.pos + totalSize vs
  · rw [if_pos h]; constructor <;> intro x hx <;> simp_all
  · rw [if_neg h]
    constructor
    · intro x hx; simp at hx
    · intro x hx
      have h1 := Prod.mk.inj hx
      obtain ⟨h2, h3⟩ := h1
      cases h2
      subst h3
      refine ⟨rfl, rfl, ?_⟩
      simp only [overwrite, hl]

/-- C42, `write_with_endian` through a write view. -/
theorem c42_write_view_endian (host : Endian) (o : Obj) (en : Endian) (v v' : WriteView)
    (ho : ∀ b ∈ o, IsByte b) (hp : v.pos ≤ v.data.length) (hT : o.length < 2 ^ 64) :
    (∀ e, (WriteView.writeWithEndian host o en).run v = (.throw e, v') → v' = v) ∧
    (∀ n, (WriteView.writeWithEndian host o en).run v = (.ok n, v') →
      n = o.length ∧ v'.pos = v.pos + o.length ∧
      v'.data = v.data.take v.pos ++ (match en with
        | .little => leBytes o.length (intValue host o)
        | .big => beBytes o.length (intValue host o)) ++ v.data.drop (v.pos + o.length)) := by
  rw [WriteView.writeWithEndian_run ho hp hT]
  by_cases h : v.data.length < v.pos + o.length
  · rw [if_pos h]; constructor <;> intro x hx <;> simp_all
  · rw [if_neg h]
    constructor
    · intro x hx; simp at hx
    · intro x hx
      obtain ⟨h2, h3⟩ := Prod.mk.inj hx
      cases h2
      subst h3
      refine ⟨rfl, rfl, ?_⟩
      cases en <;> simp [ReadView.encOf, encode, overwrite, leBytes_length, beBytes]

example : (ReadView.read .little [⟨2, .native⟩]).run ⟨[1, 2, 3], 1⟩ = (.ok [[2, 3]], ⟨[1, 2, 3], 3⟩) := by
  decide
example : (ReadView.read .little [⟨2, .native⟩]).run ⟨[1, 2, 3], 2⟩ =
    (.throw (.outOfRange "Insufficient buffer space for read"), ⟨[1, 2, 3], 2⟩) := by decide
example : (WriteView.write .little [.single .native [8, 9]]).run ⟨[1, 2, 3], 2⟩ =
    (.throw (.outOfRange "Insufficient buffer space for write"), ⟨[1, 2, 3], 2⟩) := by decide

/-- Write a list of values through a view, one `write` call each. -/
def writeEach (host : Endian) : List (Enc × Obj) → St WriteView PUnit
  | [] => pure ⟨⟩
  | x :: xs => do
    let _ ← WriteView.write host [.single x.1 x.2]
    writeEach host xs

/-- Read a list of types through a view, one `read` call each. -/
def readEach (host : Endian) : List Ty → St ReadView (List Obj)
  | [] => pure []
  | t :: ts => do
    let v ← ReadView.read host [t]
    let vs ← readEach host ts
    pure (v ++ vs)

private theorem writeEach_run (host : Endian) (xs : List (Enc × Obj)) (v : WriteView)
    (hx : ∀ p ∈ xs, (∀ b ∈ p.2, IsByte b) ∧ p.2.length < 2 ^ 64) (hp : v.pos ≤ v.data.length) :
    (v.pos + totalSize (xs.map fun p => .single p.1 p.2) ≤ v.data.length ∧
      (writeEach host xs).run v = (.ok ⟨⟩,
        { data := overwrite v.data v.pos (encodeAll host (xs.map fun p => .single p.1 p.2)),
          pos := v.pos + totalSize (xs.map fun p => .single p.1 p.2) })) ∨
    (v.data.length < v.pos + totalSize (xs.map fun p => .single p.1 p.2) ∧
      ∃ e v', (writeEach host xs).run v = (.throw e, v')) := by
  induction xs generalizing v with
  | nil =>
    left
    simp [writeEach, totalSize, encodeAll, overwrite_nil, hp]
  | cons x xs ih =>
    obtain ⟨ho, hsz⟩ := hx x (by simp)
    have hxs : ∀ p ∈ xs, (∀ b ∈ p.2, IsByte b) ∧ p.2.length < 2 ^ 64 :=
      fun p hp => hx p (by simp [hp])
    have hg : ∀ w ∈ xs.map (fun p => WVal.single p.1 p.2), GoodVal w := by
      intro w hw
      obtain ⟨p, hpm, rfl⟩ := List.mem_map.1 hw
      exact (hxs p hpm).1
    have e1 : totalSize [WVal.single x.1 x.2] = x.2.length := by simp [totalSize, sizeOfVal]
    have h1 := WriteView.write_run (host := host) (vs := [.single x.1 x.2]) (v := v)
      (by simpa [GoodVal] using ho) hp (by rw [e1]; exact hsz)
    rw [e1] at h1
    have hle := encode_length (host := host) (enc := x.1) ho
    have hla := encodeAll_length (host := host) hg
    rw [List.map_cons, totalSize_cons, encodeAll_cons]
    simp only [sizeOfVal, encodeVal, writeEach]
    by_cases h : v.data.length < v.pos + x.2.length
    · rw [if_pos h] at h1
      right
      exact ⟨by omega, _, _, St.run_bind_throw h1⟩
    · rw [if_neg h] at h1
      rw [St.run_bind_ok h1]
      have e2 : encodeAll host [WVal.single x.1 x.2] = encode host x.1 x.2 := by
        simp [encodeAll, encodeVal]
      rw [e2]
      have hlen : (overwrite v.data v.pos (encode host x.1 x.2)).length = v.data.length :=
        overwrite_length (by omega)
      rcases ih { data := overwrite v.data v.pos (encode host x.1 x.2), pos := v.pos + x.2.length }
        hxs (by simp only; omega) with ⟨hfit, hrun⟩ | ⟨hbig, e, v', hrun⟩
      · left
        simp only [hlen] at hfit
        refine ⟨by omega, ?_⟩
        rw [hrun]
        have happ := overwrite_append (buf := v.data) (pos := v.pos) (b1 := encode host x.1 x.2)
          (b2 := encodeAll host (xs.map fun p => .single p.1 p.2)) (by omega)
        rw [hle] at happ
        simp only [happ, Nat.add_assoc]
      · right
        simp only [hlen] at hbig
        exact ⟨by omega, e, v', hrun⟩

private theorem readEach_run (host : Endian) (ts : List Ty) (v : ReadView)
    (hb : ∀ b ∈ v.data, IsByte b) (hs : ∀ t ∈ ts, t.size < 2 ^ 64)
    (hfit : v.pos + totalTySize ts ≤ v.data.length) :
    (readEach host ts).run v =
      (.ok (decodeSeq host ts (v.data.drop v.pos)), { v with pos := v.pos + totalTySize ts }) := by
  induction ts generalizing v with
  | nil => simp [readEach, decodeSeq, totalTySize]
  | cons t ts ih =>
    have e0 : totalTySize (t :: ts) = t.size + totalTySize ts := by simp [totalTySize]
    have e1 : totalTySize [t] = t.size := by simp [totalTySize]
    have h1 := ReadView.read_run (host := host) (ts := [t]) hb (by omega)
      (by rw [e1]; exact hs t (by simp))
    rw [e1, if_neg (by omega)] at h1
    rw [readEach, St.run_bind_ok h1,
      St.run_bind_ok (ih { v with pos := v.pos + t.size } hb (fun u hu => hs u (by simp [hu]))
        (by simp only; omega))]
    simp [decodeSeq, e0, List.drop_drop, Nat.add_assoc]

/-- C43: values written one after another through a write view without error are read back,
in order, by reading the same types one after another through a read view from the same
position; the bytes before the first and after the last value are untouched. -/
theorem c43_writes_then_reads (host : Endian) (xs : List (Enc × Obj)) (buf : List Nat) (start : Nat)
    (w : WriteView) (hx : ∀ p ∈ xs, (∀ b ∈ p.2, IsByte b) ∧ p.2.length < 2 ^ 64)
    (hb : ∀ b ∈ buf, IsByte b) (hstart : start ≤ buf.length)
    (hok : (writeEach host xs).run ⟨buf, start⟩ = (.ok ⟨⟩, w)) :
    (readEach host (xs.map fun p => ⟨p.2.length, p.1⟩)).run ⟨w.data, start⟩ =
      (.ok (xs.map Prod.snd), ⟨w.data, w.pos⟩) ∧
    w.data.length = buf.length ∧ w.data.take start = buf.take start ∧
    w.data.drop w.pos = buf.drop w.pos := by
  have hg : ∀ v ∈ xs.map (fun p => WVal.single p.1 p.2), GoodVal v := by
    intro v hv
    obtain ⟨p, hp, rfl⟩ := List.mem_map.1 hv
    exact (hx p hp).1
  have hla := encodeAll_length (host := host) hg
  have hT : totalTySize (xs.map tyOf) = totalSize (xs.map (fun p => WVal.single p.1 p.2)) := by
    simp only [totalTySize, totalSize, List.map_map]; rfl
  rcases writeEach_run host xs ⟨buf, start⟩ hx hstart with ⟨hfit, hrun⟩ | ⟨_, e, v', hrun⟩
  · rw [hrun] at hok
    have hw := (Prod.mk.inj hok).2
    subst hw
    simp only at hfit ⊢
    have hlen : (overwrite buf start (encodeAll host (xs.map fun p => .single p.1 p.2))).length =
        buf.length := overwrite_length (by omega)
    refine ⟨?_, hlen, ?_, ?_⟩
    · have hr := readEach_run host (xs.map tyOf)
        ⟨overwrite buf start (encodeAll host (xs.map fun p => .single p.1 p.2)), start⟩
        (overwrite_isByte hb (encodeAll_isByte hg))
        (by
          intro t ht
          obtain ⟨p, hp, rfl⟩ := List.mem_map.1 ht
          exact (hx p hp).2)
        (by simp only; omega)
      have : (xs.map fun p => (⟨p.2.length, p.1⟩ : Ty)) = xs.map tyOf := rfl
      rw [this, hr, hT]
      simp only
      rw [drop_overwrite (by omega), decodeSeq_encode _ _ (fun p hp => (hx p hp).1)]
    · unfold overwrite
      rw [List.append_assoc, List.take_append, List.take_take]
      have : (buf.take start).length = start := by simp; omega
      rw [this, Nat.sub_self]; simp
    · have hd := drop_overwrite (buf := buf) (pos := start)
        (bs := encodeAll host (xs.map fun p => .single p.1 p.2)) (by omega)
      rw [← List.drop_drop, hd, List.drop_append, hla, Nat.sub_self, List.drop_zero,
        List.drop_of_length_le (by omega), List.nil_append]
  · rw [hrun] at hok
    simp at hok

/-- C43: the writes go through without error exactly when there is room for all of them. -/
theorem c43_writes_succeed_iff (host : Endian) (xs : List (Enc × Obj)) (buf : List Nat) (start : Nat)
    (hx : ∀ p ∈ xs, (∀ b ∈ p.2, IsByte b) ∧ p.2.length < 2 ^ 64) (hstart : start ≤ buf.length) :
    (∃ w, (writeEach host xs).run ⟨buf, start⟩ = (.ok ⟨⟩, w)) ↔
      start + (xs.map fun p => p.2.length).sum ≤ buf.length := by
  have e : totalSize (xs.map fun p => WVal.single p.1 p.2) = (xs.map fun p => p.2.length).sum := by
    simp only [totalSize, List.map_map]; rfl
  rcases writeEach_run host xs ⟨buf, start⟩ hx hstart with ⟨hfit, hrun⟩ | ⟨hbig, e', v', hrun⟩
  · rw [e] at hfit
    exact ⟨fun _ => hfit, fun _ => ⟨_, hrun⟩⟩
  · rw [e] at hbig
    constructor
    · rintro ⟨w, hw⟩
      rw [hrun] at hw; simp at hw
    · intro h; simp only at hbig; omega

example : (writeEach .little [(.native, [1, 2]), (.bigEndian, [3, 4]), (.native, [5])]).run
    ⟨[0, 0, 0, 0, 0, 0, 9], 1⟩ = (.ok ⟨⟩, ⟨[0, 1, 2, 4, 3, 5, 9], 6⟩) := by decide
example : (readEach .little [⟨2, .native⟩, ⟨2, .bigEndian⟩, ⟨1, .native⟩]).run
    ⟨[0, 1, 2, 4, 3, 5, 9], 1⟩ = (.ok [[1, 2], [3, 4], [5]], ⟨[0, 1, 2, 4, 3, 5, 9], 6⟩) := by decide

/-- C44: `try_read` of one type on a read view returns the value and advances by its size
when enough bytes remain, and otherwise returns `insufficient_buffer` with the cursor at
the end of the buffer. -/
theorem c44_view_try_read (host : Endian) (t : Ty) (v : ReadView)
    (hb : ∀ b ∈ v.data, IsByte b) (hp : v.pos ≤ v.data.length) (hT : t.size < 2 ^ 64) :
    (v.pos + t.size ≤ v.data.length →
      (ReadView.tryRead host [t]).run v =
        (.ok [.value (decode host t.enc ((v.data.drop v.pos).take t.size))],
          { v with pos := v.pos + t.size })) ∧
    (v.data.length < v.pos + t.size →
      (ReadView.tryRead host [t]).run v =
        (.ok [.error .insufficientBuffer], { v with pos := v.data.length })) := by
  have e1 : totalTySize [t] = t.size := by simp [totalTySize]
  constructor
  · intro h
    have hrs : recursiveTryRead host [t] (v.data.drop v.pos) =
        .ok [.value (decode host t.enc ((v.data.drop v.pos).take t.size))] := by
      simp only [recursiveTryRead, tryRead_eq (drop_isByte hb)]
      rw [if_neg (by simp; omega)]
      have : t.size ≤ v.data.length - v.pos := by omega
      simp [Result.ok, Result.index, spanFrom, this]
    rw [ReadView.tryRead_run hp (by rw [e1]; exact hT) hrs, e1]
    congr 2; omega
  · intro h
    have hrs : recursiveTryRead host [t] (v.data.drop v.pos) = .ok [.error .insufficientBuffer] := by
      simp only [recursiveTryRead, tryRead_eq (drop_isByte hb)]
      rw [if_pos (by simp; omega)]
      simp [Result.ok, Result.index, spanFrom]
    rw [ReadView.tryRead_run hp (by rw [e1]; exact hT) hrs, e1]
    congr 2; omega

example : (ReadView.tryRead .little [⟨2, .native⟩]).run ⟨[1, 2, 3], 1⟩ =
    (.ok [.value [2, 3]], ⟨[1, 2, 3], 3⟩) := by decide
example : (ReadView.tryRead .little [⟨2, .native⟩]).run ⟨[1, 2, 3], 2⟩ =
    (.ok [.error .insufficientBuffer], ⟨[1, 2, 3], 3⟩) := by decide

/-- Write values to a stream one after another. -/
def streamWriteAll : List Obj → St Stream PUnit
  | [] => pure ⟨⟩
  | o :: os => do Stream.write o; streamWriteAll os

/-- Read values of the given sizes one after another. -/
def streamReadAll : List Nat → St Stream (List Obj)
  | [] => pure []
  | n :: ns => do
    let v ← Stream.read n
    let vs ← streamReadAll ns
    pure (v :: vs)

private theorem streamWriteAll_run (os : List Obj) (s : Stream) (hs : s.failed = false) :
    (streamWriteAll os).run s = (.ok ⟨⟩, { s with data := s.data ++ os.flatten }) := by
  induction os generalizing s with
  | nil => simp [streamWriteAll]
  | cons o os ih =>
    have h1 : (Stream.write o).run s = (.ok ⟨⟩, { s with data := s.data ++ o }) := by
      simp [Stream.write, St.run, hs]
    rw [streamWriteAll, St.run_bind_ok h1, ih { s with data := s.data ++ o } hs]
    simp

private theorem streamReadAll_run (os : List Obj) (before after : List Nat) :
    (streamReadAll (os.map List.length)).run ⟨before ++ os.flatten ++ after, before.length, false⟩ =
      (.ok os, ⟨before ++ os.flatten ++ after, before.length + os.flatten.length, false⟩) := by
  induction os generalizing before with
  | nil => simp [streamReadAll]
  | cons o os ih =>
    have h1 : (Stream.read o.length).run
        ⟨before ++ (o :: os).flatten ++ after, before.length, false⟩ =
        (.ok o, ⟨before ++ (o :: os).flatten ++ after, before.length + o.length, false⟩) := by
      simp [Stream.read, St.run, List.append_assoc]
    have h2 := ih (before ++ o)
    simp only [List.length_append, List.append_assoc] at h2
    simp only [List.flatten_cons, List.append_assoc] at h1 ⊢
    rw [List.map_cons, streamReadAll, St.run_bind_ok h1, St.run_bind_ok h2]
    simp [Nat.add_assoc]

/-- C45: on a stream whose earlier contents have all been consumed, any sequence of values
written is read back, and the stream has neither failed nor any bytes left. -/
theorem c45_stream_round_trip (os : List Obj) (s : Stream) (hs : s.failed = false)
    (hdone : s.consumed = s.data.length) :
    ∃ s', (streamWriteAll os).run s = (.ok ⟨⟩, s') ∧
      ∃ s'', (streamReadAll (os.map List.length)).run s' = (.ok os, s'') ∧
        s''.failed = false ∧ s''.consumed = s''.data.length := by
  refine ⟨_, streamWriteAll_run os s hs, ?_⟩
  have h := streamReadAll_run os s.data []
  rw [List.append_nil] at h
  obtain ⟨d, c, f⟩ := s
  simp only at hs hdone h ⊢
  subst hs hdone
  exact ⟨_, h, rfl, by simp⟩

/-- C45, first in first out: values already pending in the stream are read before the ones
written later. -/
theorem c45_stream_fifo (pending os : List Obj) (before : List Nat) :
    ∃ s', (streamWriteAll os).run ⟨before ++ pending.flatten, before.length, false⟩ = (.ok ⟨⟩, s') ∧
      ∃ s'', (streamReadAll ((pending ++ os).map List.length)).run s' = (.ok (pending ++ os), s'') := by
  refine ⟨_, streamWriteAll_run os _ rfl, ?_⟩
  have h := streamReadAll_run (pending ++ os) before []
  rw [List.append_nil, List.flatten_append, ← List.append_assoc] at h
  exact ⟨_, h⟩

example : (streamWriteAll [[1, 2], [3]]).run ⟨[9], 1, false⟩ = (.ok ⟨⟩, ⟨[9, 1, 2, 3], 1, false⟩) := by
  decide
example : (streamReadAll [2, 1]).run ⟨[9, 1, 2, 3], 1, false⟩ =
    (.ok [[1, 2], [3]], ⟨[9, 1, 2, 3], 4, false⟩) := by decide

/-- C98, `try_seek`: moves the cursor exactly when the position is not beyond the end, and
otherwise reports `invalid_position_offset` and changes nothing. -/
theorem c98_try_seek (p : Nat) (v : ReadView) (w : WriteView) :
    (ReadView.trySeek p).run v =
      (if p ≤ v.data.length then (.ok (.value true), { v with pos := p })
       else (.ok (.error .invalidPositionOffset), v)) ∧
    (WriteView.trySeek p).run w =
      (if p ≤ w.data.length then (.ok (.value true), { w with pos := p })
       else (.ok (.error .invalidPositionOffset), w)) := by
  rw [ReadView.trySeek_run, WriteView.trySeek_run]
  constructor
  · by_cases h : p ≤ v.data.length
    · rw [if_neg (by omega), if_pos h]
    · rw [if_pos (by omega), if_neg h]
  · by_cases h : p ≤ w.data.length
    · rw [if_neg (by omega), if_pos h]
    · rw [if_pos (by omega), if_neg h]

/-- C98, constructors with a start offset: a view with the cursor there, or the error. -/
theorem c98_make_at (buf : List Nat) (offset : Nat) :
    ReadView.makeAt buf offset =
      (if offset ≤ buf.length then .ok ⟨buf, offset⟩
       else .throw (.outOfRange "Cannot seek past end of buffer")) ∧
    WriteView.makeAt buf offset =
      (if offset ≤ buf.length then .ok ⟨buf, offset⟩
       else .throw (.outOfRange "Cannot seek past end of buffer")) ∧
    ReadView.tryMake buf offset =
      (if offset ≤ buf.length then .ok (.value ⟨buf, offset⟩)
       else .ok (.error .invalidPositionOffset)) := by
  rw [ReadView.makeAt, WriteView.makeAt, ReadView.tryMake, ReadView.seek_run, WriteView.seek_run,
    ReadView.trySeek_run]
  simp only [ReadView.make, WriteView.make]
  by_cases h : offset ≤ buf.length
  · have h' : ¬ buf.length < offset := by omega
    simp [h, h']
  · have h' : buf.length < offset := by omega
    simp [h, h']

/-- C98, `try_read_range`: all elements and an advance by their total size, or
`insufficient_buffer` and the cursor at the end. -/
theorem c98_try_read_range (host : Endian) (t : Ty) (n : Nat) (v : ReadView)
    (hb : ∀ b ∈ v.data, IsByte b) (hp : v.pos ≤ v.data.length) (hT : n * t.size < 2 ^ 64) :
    (v.pos + n * t.size ≤ v.data.length →
      (ReadView.tryReadRange host t n).run v =
        (.ok (.value (decodeSeq host (List.replicate n t) (v.data.drop v.pos))),
          { v with pos := v.pos + n * t.size })) ∧
    (v.data.length < v.pos + n * t.size →
      (ReadView.tryReadRange host t n).run v =
        (.ok (.error .insufficientBuffer), { v with pos := v.data.length })) := by
  rw [ReadView.tryReadRange_run hb hp hT]
  exact ⟨fun h => by rw [if_neg (by omega)], fun h => by rw [if_pos h]⟩

/-- C98, `try_write`: succeeds exactly when all values fit, then behaves like `write`;
otherwise reports `insufficient_buffer`, does not move the cursor, and has changed only the
bytes of the leading values that did fit. -/
theorem c98_try_write (host : Endian) (vs : List WVal) (v : WriteView)
    (hv : ∀ x ∈ vs, GoodVal x) (hp : v.pos ≤ v.data.length) (hT : totalSize vs < 2 ^ 64) :
    (v.pos + totalSize vs ≤ v.data.length →
      (WriteView.tryWrite host vs).run v = (.ok (.value (totalSize vs)),
        ⟨overwrite v.data v.pos (encodeAll host vs), v.pos + totalSize vs⟩)) ∧
    (v.data.length < v.pos + totalSize vs →
      (WriteView.tryWrite host vs).run v = (.ok (.error .insufficientBuffer),
        ⟨overwrite v.data v.pos (encodeAll host (leadingFit (v.data.length - v.pos) vs)), v.pos⟩)) := by
  rw [WriteView.tryWrite_run hv hp hT]
  exact ⟨fun h => by rw [if_neg (by omega)], fun h => by rw [if_pos h]⟩

example : (ReadView.trySeek 3).run ⟨[1, 2, 3], 1⟩ = (.ok (.value true), ⟨[1, 2, 3], 3⟩) := by decide
example : ReadView.tryMake [1, 2] 3 = .ok (.error .invalidPositionOffset) := by decide
example : (ReadView.tryReadRange .little ⟨2, .bigEndian⟩ 2).run ⟨[9, 1, 2, 3, 4], 1⟩ =
    (.ok (.value [[2, 1], [4, 3]]), ⟨[9, 1, 2, 3, 4], 5⟩) := by decide
example : (WriteView.tryWrite .little [.single .native [1], .single .native [2, 3]]).run ⟨[0, 0, 0], 1⟩ =
    (.ok (.error .insufficientBuffer), ⟨[0, 1, 0], 1⟩) := by decide

end Wite.Props
