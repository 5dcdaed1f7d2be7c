import Verif.Model.IoBoth

/-!
# Property C215: a stream that is both read and written
-/

namespace Wite.Props

open Wite Wite.Io Wite.Io.Both

/-! ## A queue of values -/

/-- What a program does with a queue of values. -/
inductive QueueOp where
  | put (o : Obj)
  | take
  deriving DecidableEq, Repr

/-- The values taken and those left; `none` if one is taken when there is none. -/
def queueRun : List Obj → List QueueOp → Option (List Obj × List Obj)
  | q, [] => some ([], q)
  | q, .put o :: ops => queueRun (q ++ [o]) ops
  | [], .take :: _ => none
  | o :: q, .take :: ops => (queueRun q ops).map fun r => (o :: r.1, r.2)

/-- The same with a stream: a value is taken by reading as many bytes as the oldest one has. -/
def queueOps : List Obj → List QueueOp → List Both.Op
  | _, [] => []
  | q, .put o :: ops => .write o :: queueOps (q ++ [o]) ops
  | [], .take :: ops => queueOps [] ops
  | o :: q, .take :: ops => .read o.length :: queueOps q ops

/-- The values put in, in order. -/
def queuePuts : List QueueOp → List Obj
  | [] => []
  | .put o :: ops => o :: queuePuts ops
  | .take :: ops => queuePuts ops

/-- A good string stream in which these bytes wait to be read and the next are added at the end. -/
def Waiting (s : Both.Stream) (bs : List Nat) : Prop :=
  s.kind = .string ∧ s.state.good = true ∧ s.putPos = s.data.length ∧ s.getPos ≤ s.data.length ∧ s.data.drop s.getPos = bs

private theorem store_end (d o : List Nat) : store d d.length o = d ++ o := by
  simp [store]

private theorem write_waiting {s : Both.Stream} {bs : List Nat} (h : Waiting s bs) (o : Obj) :
    ∃ s', (Both.write o).run s = (.ok (), s') ∧ Waiting s' (bs ++ o) ∧ s'.data = s.data ++ o ∧ s'.mask = s.mask ∧ s'.state = s.state := by
  obtain ⟨h1, h2, h3, h4, h5⟩ := h
  refine ⟨{ s with data := store s.data s.putPos o, putPos := s.putPos + o.length }, ?_, ⟨h1, h2, ?_, ?_, ?_⟩, ?_, rfl, rfl⟩
  · simp [St.run, Both.write, h1, h2]
  · simp [h3, store_end]
  · simp only [h3, store_end, List.length_append]; omega
  · simp only [h3, store_end, List.drop_append_of_le_length h4, h5]
  · simp only [h3, store_end]

private theorem read_waiting {s : Both.Stream} {o bs : List Nat} (h : Waiting s (o ++ bs)) :
    ∃ s', (Both.read o.length).run s = (.ok o, s') ∧ Waiting s' bs ∧ s'.data = s.data ∧ s'.mask = s.mask ∧ s'.state = s.state := by
  obtain ⟨h1, h2, h3, h4, h5⟩ := h
  have hl : o.length + bs.length = s.data.length - s.getPos := by rw [← List.length_append, ← h5, List.length_drop]
  refine ⟨{ s with getPos := s.getPos + o.length }, ?_, ⟨h1, h2, h3, ?_, ?_⟩, rfl, rfl, rfl⟩
  · simp [St.run, Both.read, Both.readSome, bind, St.bind, pure, St.pure, h1, h2, h5]
  · show s.getPos + o.length ≤ s.data.length; omega
  · show s.data.drop (s.getPos + o.length) = bs
    rw [← List.drop_drop, h5, List.drop_left]

private theorem runAll_cons {op : Both.Op} {ops : List Both.Op} {s s' s'' : Both.Stream} {a b : List Obj}
    (h : op.run s = (.ok a, s')) (h' : runAll ops s' = (.ok b, s'')) : runAll (op :: ops) s = (.ok (a ++ b), s'') := by
  simp [runAll, bind, St.bind, pure, St.pure, h, h']

private theorem run_write {o : Obj} {s s' : Both.Stream} (h : (Both.write o).run s = (.ok (), s')) : (Op.write o).run s = (.ok [], s') := by
  have : Both.write o s = (.ok (), s') := h
  simp [Op.run, bind, St.bind, pure, St.pure, this]

private theorem run_read {n : Nat} {o : Obj} {s s' : Both.Stream} (h : (Both.read n).run s = (.ok o, s')) : (Op.read n).run s = (.ok [o], s') := by
  have : Both.read n s = (.ok o, s') := h
  simp [Op.run, bind, St.bind, pure, St.pure, this]

/-- C215: a string stream is a queue of values: however writing and reading alternate, as long as every value is read after it was written,
the values read are those written, in order, and those not yet read wait in the stream, which stays good. -/
theorem c215_queue_partial (q : List Obj) (ops : List QueueOp) (s : Both.Stream) (hs : Waiting s q.flatten) (outs q' : List Obj)
    (h : queueRun q ops = some (outs, q')) :
    ∃ s', (runAll (queueOps q ops)).run s = (.ok outs, s') ∧ Waiting s' q'.flatten ∧ s'.data = s.data ++ (queuePuts ops).flatten := by
  induction ops generalizing q s outs with
  | nil =>
    simp only [queueRun, Option.some.injEq, Prod.mk.injEq] at h
    obtain ⟨rfl, rfl⟩ := h
    exact ⟨s, rfl, hs, by simp [queuePuts]⟩
  | cons op ops ih =>
    cases op with
    | put o =>
      obtain ⟨s1, e1, w1, d1, -⟩ := write_waiting hs o
      have hw : Waiting s1 (q ++ [o]).flatten := by simpa using w1
      obtain ⟨s2, e2, w2, d2⟩ := ih _ _ hw outs (by simpa [queueRun] using h)
      refine ⟨s2, ?_, w2, by simp [d2, d1, queuePuts]⟩
      have : runAll (queueOps q (.put o :: ops)) s = (.ok outs, s2) := by
        rw [queueOps]
        exact runAll_cons (run_write e1) e2
      exact this
    | take =>
      cases q with
      | nil => simp [queueRun] at h
      | cons o q =>
        simp only [queueRun, Option.map_eq_some_iff, Prod.mk.injEq] at h
        obtain ⟨⟨outs', q''⟩, h, rfl, rfl⟩ := h
        obtain ⟨s1, e1, w1, d1, -⟩ := read_waiting (o := o) (bs := q.flatten) (by simpa using hs)
        obtain ⟨s2, e2, w2, d2⟩ := ih q s1 w1 outs' h
        refine ⟨s2, ?_, w2, by simp [d2, d1, queuePuts]⟩
        have : runAll (queueOps (o :: q) (.take :: ops)) s = (.ok (o :: outs'), s2) := by
          rw [queueOps]
          exact runAll_cons (run_read e1) e2
        exact this

/-! ## Any reads and writes, with exceptions -/

/-- Reads and writes on a queue of bytes: the values read, and the bytes left; `none` if too few bytes are there for a read. -/
def bytesRun : List Nat → List Both.Op → Option (List Obj × List Nat)
  | q, [] => some ([], q)
  | q, .write o :: ops => bytesRun (q ++ o) ops
  | q, .read n :: ops => if n ≤ q.length then (bytesRun (q.drop n) ops).map fun r => (q.take n :: r.1, r.2) else none
  | q, _ :: ops => bytesRun q ops

/-- C215: a string stream told to throw on `failbit` gives exactly the values a queue of bytes gives, for any reads and writes in any
order, or throws if a read comes before its bytes. -/
theorem c215_exceptions_partial (q : List Nat) (ops : List Both.Op) (hops : ∀ op ∈ ops, (∃ o, op = .write o) ∨ ∃ n, op = .read n)
    (s : Both.Stream) (hs : Waiting s q) (hm : s.mask.fail = true) :
    (∃ outs q' s', bytesRun q ops = some (outs, q') ∧ (runAll ops).run s = (.ok outs, s') ∧ Waiting s' q') ∨
    (bytesRun q ops = none ∧ ((runAll ops).run s).1 = .throw Ios.failure) := by
  induction ops generalizing q s with
  | nil => exact .inl ⟨[], q, s, rfl, rfl, hs⟩
  | cons op ops ih =>
    have hops' : ∀ op ∈ ops, (∃ o, op = .write o) ∨ ∃ n, op = .read n := fun op h => hops op (by simp [h])
    rcases hops op (by simp) with ⟨o, rfl⟩ | ⟨n, rfl⟩
    · obtain ⟨s1, e1, w1, -, m1, -⟩ := write_waiting hs o
      have r1 := run_write e1
      rcases ih _ hops' s1 w1 (m1 ▸ hm) with ⟨outs, q', s2, h, e2, w2⟩ | ⟨h, e2⟩
      · exact .inl ⟨outs, q', s2, by simpa [bytesRun] using h, runAll_cons r1 e2, w2⟩
      · refine .inr ⟨by simpa [bytesRun] using h, ?_⟩
        simp only [St.run, runAll, bind, St.bind, r1] at e2 ⊢
        revert e2
        cases runAll ops s1 with
        | mk a b => cases a <;> simp
    · by_cases hn : n ≤ q.length
      · obtain ⟨s1, e1, w1, -, m1, -⟩ := read_waiting (o := q.take n) (bs := q.drop n) (by rwa [List.take_append_drop])
        rw [List.length_take, Nat.min_eq_left hn] at e1
        have r1 := run_read e1
        rcases ih _ hops' s1 w1 (m1 ▸ hm) with ⟨outs, q', s2, h, e2, w2⟩ | ⟨h, e2⟩
        · exact .inl ⟨q.take n :: outs, q', s2, by simp [bytesRun, hn, h], runAll_cons r1 e2, w2⟩
        · refine .inr ⟨by simp [bytesRun, hn, h], ?_⟩
          simp only [St.run, runAll, bind, St.bind, r1] at e2 ⊢
          revert e2
          cases runAll ops s1 with
          | mk a b => cases a <;> simp
      · refine .inr ⟨by simp [bytesRun, hn], ?_⟩
        obtain ⟨h1, h2, h3, h4, h5⟩ := hs
        have hlt : q.length < n := by omega
        have hne : ¬ (q.take n).length = n := by rw [List.length_take]; omega
        have : ∃ t, Both.readSome n s = (.throw Ios.failure, t) := by
          simp only [Both.readSome, h2, if_true, h1, h5]
          rw [if_neg (by simp), if_neg hne]
          simp [Both.Stream.setState, Ios.Bits.or, Ios.Bits.meets, hm]
        obtain ⟨t, ht⟩ := this
        simp [St.run, runAll, Op.run, Both.read, bind, St.bind, ht]

/-! ## A read that comes too early -/

private theorem early {s : Both.Stream} (n : Nat) (hg : s.state.good = true) (hm : s.mask = .none) (hk : s.kind = .file → s.last ≠ .output)
    (hn : (s.data.drop s.getPos).length < n) :
    ∃ t, (Both.read n).run s = (.ok (s.data.drop s.getPos ++ List.replicate (n - (s.data.drop s.getPos).length) 0), t) ∧ t.kind = s.kind ∧
      t.data = s.data ∧ t.state = ⟨true, true, false⟩ ∧ t.mask = .none ∧ t.getPos = s.getPos + (s.data.drop s.getPos).length ∧
      (s.kind = .string → t.putPos = s.putPos) ∧ t.last = .neither := by
  have hst : s.state = .none := by
    revert hg; cases s.state with | mk a b c => cases a <;> cases b <;> cases c <;> simp [Ios.Bits.good, Ios.Bits.none]
  have ht : (s.data.drop s.getPos).take n = s.data.drop s.getPos := List.take_of_length_le (by omega)
  have hne : ¬ (s.data.drop s.getPos).length = n := by omega
  have hub : ¬ (s.kind = .file ∧ s.last = .output) := fun h => hk h.1 h.2
  have hr : (List.replicate n 0).drop (s.data.drop s.getPos).length = List.replicate (n - (s.data.drop s.getPos).length) 0 := by
    rw [List.drop_replicate]
  cases hkd : s.kind with
  | string =>
    refine ⟨{ s with getPos := s.getPos + (s.data.drop s.getPos).length, last := .neither, state := ⟨true, true, false⟩ }, ?_, ?_⟩
    · simp only [St.run, Both.read, Both.readSome, bind, St.bind, hg, if_true, hub, if_false, ht, hne, hkd, Both.Stream.setState, hm, hst]
      simp [Ios.Bits.good, Ios.Bits.or, Ios.Bits.meets, Ios.Bits.none, pure, St.pure]
    · simp [hkd, hm]
  | file =>
    refine ⟨{ s with getPos := s.getPos + (s.data.drop s.getPos).length, putPos := s.getPos + (s.data.drop s.getPos).length, last := .neither,
                     state := ⟨true, true, false⟩ }, ?_, ?_⟩
    · simp only [St.run, Both.read, Both.readSome, bind, St.bind, hg, if_true, hub, if_false, ht, hne, hkd, Both.Stream.setState, hm, hst]
      simp [Ios.Bits.good, Ios.Bits.or, Ios.Bits.meets, Ios.Bits.none, pure, St.pure, hk hkd]
    · simp [hkd, hm]

/-- The zeros that reads of a failed stream return. -/
def zerosRead : List Both.Op → List Obj
  | [] => []
  | .read n :: ops => List.replicate n 0 :: zerosRead ops
  | _ :: ops => zerosRead ops

private theorem stuck (ops : List Both.Op) (hops : .clear ∉ ops) (s : Both.Stream) (hf : s.state.fail = true) (hm : s.mask = .none) :
    ∃ t, runAll ops s = (.ok (zerosRead ops), t) ∧ t.data = s.data ∧ t.getPos = s.getPos ∧ t.putPos = s.putPos ∧ t.state.fail = true := by
  induction ops generalizing s with
  | nil => exact ⟨s, rfl, rfl, rfl, rfl, hf⟩
  | cons op ops ih =>
    have hops' : Both.Op.clear ∉ ops := fun h => hops (by simp [h])
    have hg : s.state.good = false := by simp [Ios.Bits.good, hf]
    have key : ∀ (a : List Obj) (s1 : Both.Stream), op.run s = (.ok a, s1) → s1.data = s.data → s1.getPos = s.getPos → s1.putPos = s.putPos →
        s1.state.fail = true → s1.mask = .none → zerosRead (op :: ops) = a ++ zerosRead ops →
        ∃ t, runAll (op :: ops) s = (.ok (zerosRead (op :: ops)), t) ∧ t.data = s.data ∧ t.getPos = s.getPos ∧ t.putPos = s.putPos ∧
          t.state.fail = true := by
      intro a s1 e d g p f m z
      obtain ⟨t, e2, d2, g2, p2, f2⟩ := ih hops' s1 f m
      exact ⟨t, by rw [z]; exact runAll_cons e e2, by rw [d2, d], by rw [g2, g], by rw [p2, p], f2⟩
    cases op with
    | write o =>
      exact key [] s (by simp [Op.run, Both.write, hg, bind, St.bind, pure, St.pure]) rfl rfl rfl hf hm rfl
    | read n =>
      refine key [List.replicate n 0] { s with state := s.state.or ⟨false, true, false⟩ } ?_ rfl rfl rfl (by simp [Ios.Bits.or]) hm rfl
      simp [Op.run, Both.read, Both.readSome, hg, bind, St.bind, pure, St.pure, Both.Stream.setState, Ios.Bits.meets, Ios.Bits.none, hm]
    | clear => exact absurd (by simp) hops
    | seekg p =>
      refine key [] { s with state := { s.state with eof := false }.or ⟨false, true, false⟩ } ?_ rfl rfl rfl (by simp [Ios.Bits.or]) hm rfl
      simp [Op.run, Both.seekg, Ios.Bits.failed, hf, bind, St.bind, pure, St.pure, Both.Stream.setState, Ios.Bits.meets, Ios.Bits.none, hm]
    | seekp p =>
      exact key [] s (by simp [Op.run, Both.seekp, Ios.Bits.failed, hf, bind, St.bind, pure, St.pure]) rfl rfl rfl hf hm rfl

/-- C215 is false: after a read that came before its bytes were written, and with the exception mask streams have by default, whatever is
written is lost and whatever is read is zero, wherever the stream is positioned, until the user calls `clear()`; nothing reports it. -/
theorem c215_refuted_early (n : Nat) (ops : List Both.Op) (hops : .clear ∉ ops) (s : Both.Stream) (hg : s.state.good = true)
    (hm : s.mask = .none) (hk : s.kind = .file → s.last ≠ .output) (hn : (s.data.drop s.getPos).length < n) :
    ∃ v t, (runAll (.read n :: ops)).run s = (.ok (v :: zerosRead ops), t) ∧ t.data = s.data := by
  obtain ⟨t, e, -, d, st, m, -⟩ := early n hg hm hk hn
  obtain ⟨t2, e2, d2, -⟩ := stuck ops hops t (by rw [st]) m
  exact ⟨_, t2, runAll_cons (run_read e) e2, by rw [d2, d]⟩

/-- C215 is false: if the user calls `clear()` only, the bytes that were there too early are lost: the next read begins with what was
written after them. -/
theorem c215_refuted_rest (n : Nat) (o : Obj) (s : Both.Stream) (bs : List Nat) (hs : Waiting s bs) (hm : s.mask = .none)
    (hn : bs.length < n) :
    ∃ t, (runAll [.read n, .clear, .write o, .read o.length]).run s = (.ok [bs ++ List.replicate (n - bs.length) 0, o], t) := by
  obtain ⟨h1, h2, h3, h4, h5⟩ := hs
  obtain ⟨t, e, k, d, st, m, g, p, l⟩ := early n h2 hm (by simp [h1]) (by rwa [h5])
  have hw : Waiting { t with state := .none } [] := by
    refine ⟨k.trans h1, rfl, by show t.putPos = t.data.length; rw [p h1, d, h3], ?_, ?_⟩
    · show t.getPos ≤ t.data.length
      rw [g, d, List.length_drop]; omega
    · show t.data.drop t.getPos = []
      rw [g, d, List.length_drop]
      exact List.drop_eq_nil_of_le (by omega)
  obtain ⟨s1, e1, w1, -⟩ := write_waiting hw o
  obtain ⟨s2, e2, w2, -⟩ := read_waiting (o := o) (bs := []) (by simpa using w1)
  refine ⟨s2, ?_⟩
  have hc : (Op.clear).run t = (.ok [], { t with state := .none }) := rfl
  rw [h5] at e
  exact runAll_cons (run_read e) (runAll_cons hc (runAll_cons (run_write e1) (runAll_cons (run_read e2) rfl)))

/-- C215: `clear()` and `seekg` to where the read began undo a read that came too early, on a string stream entirely. -/
theorem c215_recover_partial (n : Nat) (s : Both.Stream) (bs : List Nat) (hs : Waiting s bs) (hm : s.mask = .none) (hl : s.last = .neither)
    (hn : bs.length < n) :
    (runAll [.read n, .clear, .seekg s.getPos]).run s = (.ok [bs ++ List.replicate (n - bs.length) 0], s) := by
  obtain ⟨h1, h2, h3, h4, h5⟩ := hs
  obtain ⟨t, e, k, d, st, m, g, p, l⟩ := early n h2 hm (by simp [h1]) (by rwa [h5])
  have hst : s.state = .none := by
    revert h2; cases s.state with | mk a b c => cases a <;> cases b <;> cases c <;> simp [Ios.Bits.good, Ios.Bits.none]
  have hc : (Op.clear).run t = (.ok [], { t with state := .none }) := rfl
  have hk : (Op.seekg s.getPos).run { t with state := .none } = (.ok [], s) := by
    simp [Op.run, Both.seekg, Both.Stream.reaches, Ios.Bits.meets, Ios.Bits.failed, Ios.Bits.none, bind, St.bind, pure, St.pure, k, h1, d, h4]
    obtain ⟨a1, a2, a3, a4, a5, a6, a7⟩ := s
    simp only at *
    rw [m, l, p h1, h1, hl, hst, hm]
    rfl
  rw [h5] at e
  exact runAll_cons (run_read e) (runAll_cons hc (runAll_cons hk rfl))

/-! ## Streams with contents, files -/

/-- C215 is false for a `std::stringstream` made with a text: what is written goes over the text, so it is read first and the beginning of
the text is lost. -/
theorem c215_refuted_text (text : List Nat) (o : Obj) (ho : o.length ≤ text.length) (mask : Ios.Bits) :
    ∃ t, (runAll [.write o, .read text.length]).run ⟨.string, text, 0, 0, .neither, .none, mask⟩ = (.ok [o ++ text.drop o.length], t) := by
  have hl : (o ++ text.drop o.length).length = text.length := by simp; omega
  have hw : (Op.write o).run ⟨.string, text, 0, 0, .neither, .none, mask⟩ =
      (.ok [], ⟨.string, o ++ text.drop o.length, 0, o.length, .neither, .none, mask⟩) := by
    simp [Op.run, Both.write, store, Ios.Bits.good, Ios.Bits.none, bind, St.bind, pure, St.pure]
  have hr : ∃ t, (Op.read text.length).run ⟨.string, o ++ text.drop o.length, 0, o.length, .neither, .none, mask⟩ =
      (.ok [o ++ text.drop o.length], t) := by
    have ht : (o ++ text.drop o.length).take text.length = o ++ text.drop o.length := List.take_of_length_le (by omega)
    have hm : min o.length text.length + (text.length - o.length) = text.length := by omega
    simp [Op.run, Both.read, Both.readSome, Ios.Bits.good, Ios.Bits.none, bind, St.bind, pure, St.pure, ho]
    exact ht
  obtain ⟨t, hr⟩ := hr
  exact ⟨t, runAll_cons hw (runAll_cons hr rfl)⟩

/-- C215 is false for a `std::fstream`: to read directly after writing is undefined, and so is to write directly after a read that did not come
to the end of the file. -/
theorem c215_refuted_file (o : Obj) (n : Nat) (ops : List Both.Op) (s : Both.Stream) (hk : s.kind = .file) (hg : s.state.good = true)
    (hl : s.last = .neither) :
    ((runAll (.write o :: .read n :: ops)).run s).1 = .ub ∧
    (n ≤ (s.data.drop s.getPos).length → ((runAll (.read n :: .write o :: ops)).run s).1 = .ub) := by
  have ub : ∀ (a b : Both.Op) (s' : Both.Stream), a.run s = (.ok [], s') ∨ (∃ v, a.run s = (.ok [v], s')) → b.run s' = (.ub, s') →
      ((runAll (a :: b :: ops)).run s).1 = .ub := by
    intro a b s' ha hb
    rcases ha with ha | ⟨v, ha⟩ <;> simp [St.run, runAll, bind, St.bind, ha, hb]
  constructor
  · refine ub _ _ { s with data := store s.data s.putPos o, putPos := s.putPos + o.length, getPos := s.putPos + o.length, last := .output }
      (.inl ?_) ?_
    · simp [Op.run, Both.write, hg, hk, hl, bind, St.bind, pure, St.pure]
    · simp [Op.run, Both.read, Both.readSome, hg, hk, bind, St.bind]
  · intro hn
    have ht : ((s.data.drop s.getPos).take n).length = n := by rw [List.length_take]; omega
    refine ub _ _ { s with getPos := s.getPos + n, putPos := s.getPos + n, last := .input } (.inr ⟨(s.data.drop s.getPos).take n, ?_⟩) ?_
    · simp only [Op.run, Both.read, Both.readSome, hg, hk, hl, bind, St.bind, pure, St.pure, ht, if_true]
      rw [List.length_drop] at hn
      simp
      omega
    · simp [Op.run, Both.write, hg, hk, bind, St.bind]

/-! ## An array of records -/

/-- What a program does with an array of records. -/
inductive RecordOp where
  | put (i : Nat) (o : Obj)
  | get (i : Nat)
  deriving DecidableEq, Repr

/-- The values got, and the array afterwards, which grows if something is put at its end; `none` if there is no such record. -/
def recordRun : List Obj → List RecordOp → Option (List Obj × List Obj)
  | rs, [] => some ([], rs)
  | rs, .put i o :: ops => if i ≤ rs.length then recordRun (rs.take i ++ o :: rs.drop (i + 1)) ops else none
  | rs, .get i :: ops =>
    match rs[i]? with
    | none => none
    | some o => (recordRun rs ops).map fun r => (o :: r.1, r.2)

/-- The same with a stream and records of `n` bytes: it is positioned before every call. -/
def recordOps (n : Nat) : List RecordOp → List Both.Op
  | [] => []
  | .put i o :: ops => .seekp (n * i) :: .write o :: recordOps n ops
  | .get i :: ops => .seekg (n * i) :: .read n :: recordOps n ops

private theorem flatten_take (n : Nat) : ∀ (i : Nat) (rs : List Obj), (∀ r ∈ rs, r.length = n) → rs.flatten.take (n * i) = (rs.take i).flatten ∧
    rs.flatten.drop (n * i) = (rs.drop i).flatten
  | 0, rs, _ => by simp
  | i + 1, [], _ => by simp
  | i + 1, r :: rs, h => by
    have hr := h r (by simp)
    have e : n * (i + 1) = r.length + n * i := by rw [hr, Nat.mul_succ]; omega
    obtain ⟨h1, h2⟩ := flatten_take n i rs (fun x hx => h x (by simp [hx]))
    simp [e, List.take_append, List.drop_append, h1, h2, List.take_of_length_le, List.drop_eq_nil_of_le]

private theorem flatten_length (n : Nat) : ∀ (rs : List Obj), (∀ r ∈ rs, r.length = n) → rs.flatten.length = n * rs.length
  | [], _ => by simp
  | r :: rs, h => by
    have := flatten_length n rs (fun x hx => h x (by simp [hx]))
    simp [this, h r (by simp), Nat.mul_succ]; omega

private theorem store_record (n i : Nat) (rs : List Obj) (h : ∀ r ∈ rs, r.length = n) (o : Obj) (ho : o.length = n) (hi : i ≤ rs.length) :
    store rs.flatten (n * i) o = (rs.take i ++ o :: rs.drop (i + 1)).flatten := by
  have e : n * i + o.length = n * (i + 1) := by rw [ho, Nat.mul_succ]
  have hl : n * i - rs.flatten.length = 0 := by
    rw [flatten_length n rs h]
    have := Nat.mul_le_mul_left n hi
    omega
  simp only [store, e, (flatten_take n i rs h).1, (flatten_take n (i + 1) rs h).2, hl, List.replicate_zero, List.append_nil,
    List.flatten_append, List.flatten_cons, List.append_assoc]

/-- C215: a good stream, on a string or a file, whose contents are records of one size is an array of them, if it is positioned before every
read and write: what is put in place of a record or behind the last is what is got from there, and the others stay what they were. -/
theorem c215_records_partial (n : Nat) (rs : List Obj) (ops : List RecordOp) (s : Both.Stream) (hg : s.state.good = true)
    (hd : s.data = rs.flatten) (hr : ∀ r ∈ rs, r.length = n) (hops : ∀ i o, .put i o ∈ ops → o.length = n) (outs rs' : List Obj)
    (h : recordRun rs ops = some (outs, rs')) :
    ∃ s', (runAll (recordOps n ops)).run s = (.ok outs, s') ∧ s'.data = rs'.flatten ∧ s'.state.good = true := by
  induction ops generalizing rs s outs with
  | nil =>
    simp only [recordRun, Option.some.injEq, Prod.mk.injEq] at h
    obtain ⟨rfl, rfl⟩ := h
    exact ⟨s, rfl, hd, hg⟩
  | cons op ops ih =>
    have hops' : ∀ i o, RecordOp.put i o ∈ ops → o.length = n := fun i o h => hops i o (by simp [h])
    have hst : s.state = .none := by
      revert hg; cases s.state with | mk a b c => cases a <;> cases b <;> cases c <;> simp [Ios.Bits.good, Ios.Bits.none]
    cases op with
    | put i o =>
      have ho := hops i o (by simp)
      simp only [recordRun] at h
      split at h
      · rename_i hi
        have hle : n * i ≤ s.data.length := by rw [hd, flatten_length n rs hr]; exact Nat.mul_le_mul_left n hi
        have hr' : ∀ r ∈ rs.take i ++ o :: rs.drop (i + 1), r.length = n := by
          intro r hm
          simp only [List.mem_append, List.mem_cons] at hm
          rcases hm with hm | rfl | hm
          · exact hr r (List.mem_of_mem_take hm)
          · exact ho
          · exact hr r (List.mem_of_mem_drop hm)
        have step : ∃ s1 s2, (Op.seekp (n * i)).run s = (.ok [], s1) ∧ (Op.write o).run s1 = (.ok [], s2) ∧
            s2.data = store s.data (n * i) o ∧ s2.state.good = true := by
          cases hk : s.kind with
          | string =>
            refine ⟨{ s with putPos := n * i }, { s with data := store s.data (n * i) o, putPos := n * i + o.length }, ?_, ?_, rfl, hg⟩
            · simp [Op.run, Both.seekp, Both.Stream.reaches, Ios.Bits.failed, Ios.Bits.none, hst, hk, hle, bind, St.bind, pure, St.pure]
            · simp [Op.run, Both.write, hg, hk, bind, St.bind, pure, St.pure]
          | file =>
            refine ⟨{ s with getPos := n * i, putPos := n * i, last := .neither },
              { s with data := store s.data (n * i) o, putPos := n * i + o.length, getPos := n * i + o.length, last := .output }, ?_, ?_, rfl, hg⟩
            · simp [Op.run, Both.seekp, Both.Stream.reaches, Ios.Bits.failed, Ios.Bits.none, hst, hk, bind, St.bind, pure, St.pure]
            · simp [Op.run, Both.write, hg, hk, bind, St.bind, pure, St.pure]
        obtain ⟨s1, s2, e1, e2, d2, g2⟩ := step
        obtain ⟨s3, e3, d3, g3⟩ := ih _ s2 g2 (by rw [d2, hd, store_record n i rs hr o ho hi]) hr' hops' outs h
        exact ⟨s3, runAll_cons e1 (runAll_cons e2 e3), d3, g3⟩
      · simp at h
    | get i =>
      simp only [recordRun] at h
      cases hi : rs[i]? with
      | none => simp [hi] at h
      | some o =>
        simp only [hi, Option.map_eq_some_iff, Prod.mk.injEq] at h
        obtain ⟨⟨outs', rs''⟩, h, rfl, rfl⟩ := h
        obtain ⟨hlt, ho⟩ := List.getElem?_eq_some_iff.1 hi
        have hle : n * i ≤ s.data.length := by rw [hd, flatten_length n rs hr]; exact Nat.mul_le_mul_left n (by omega)
        have hol : o.length = n := hr o (by rw [← ho]; exact List.getElem_mem hlt)
        have hgot : (s.data.drop (n * i)).take n = o := by
          rw [hd, (flatten_take n i rs hr).2, List.drop_eq_getElem_cons hlt, ho, List.flatten_cons, List.take_left' hol]
        have step : ∃ s1 s2, (Op.seekg (n * i)).run s = (.ok [], s1) ∧ (Op.read n).run s1 = (.ok [o], s2) ∧
            s2.data = s.data ∧ s2.state.good = true := by
          cases hk : s.kind with
          | string =>
            refine ⟨{ s with getPos := n * i }, { s with getPos := n * i + o.length }, ?_, ?_, rfl, hg⟩
            · have : ({ s with state := { s.state with eof := false }, getPos := n * i } : Both.Stream) = { s with getPos := n * i } := by
                rw [hst]; rfl
              simp [Op.run, Both.seekg, Both.Stream.reaches, Ios.Bits.failed, Ios.Bits.none, Ios.Bits.meets, hst, hk, hle, bind, St.bind, pure, St.pure]
            · simp [Op.run, Both.read, Both.readSome, hg, hk, hgot, hol, bind, St.bind, pure, St.pure]
          | file =>
            refine ⟨{ s with getPos := n * i, putPos := n * i, last := .neither },
              { s with putPos := n * i + o.length, getPos := n * i + o.length, last := .input }, ?_, ?_, rfl, hg⟩
            · simp [Op.run, Both.seekg, Both.Stream.reaches, Ios.Bits.failed, Ios.Bits.none, Ios.Bits.meets, hst, hk, bind, St.bind, pure, St.pure]
            · simp [Op.run, Both.read, Both.readSome, hg, hk, hgot, hol, bind, St.bind, pure, St.pure]
        obtain ⟨s1, s2, e1, e2, d2, g2⟩ := step
        obtain ⟨s3, e3, d3, g3⟩ := ih _ s2 g2 (by rw [d2, hd]) hr hops' outs' h
        exact ⟨s3, runAll_cons e1 (runAll_cons e2 e3), d3, g3⟩

/-- C215 is false for a string stream positioned behind its end: what is written then, and everything later, is lost, until the user calls
`clear()`. -/
theorem c215_refuted_gap (p : Nat) (ops : List Both.Op) (hops : .clear ∉ ops) (s : Both.Stream) (hk : s.kind = .string)
    (hg : s.state.good = true) (hm : s.mask = .none) (hp : s.data.length < p) :
    ∃ t, (runAll (.seekp p :: ops)).run s = (.ok (zerosRead ops), t) ∧ t.data = s.data := by
  have hst : s.state = .none := by
    revert hg; cases s.state with | mk a b c => cases a <;> cases b <;> cases c <;> simp [Ios.Bits.good, Ios.Bits.none]
  have e1 : (Op.seekp p).run s = (.ok [], { s with state := ⟨false, true, false⟩ }) := by
    have : ¬ p ≤ s.data.length := by omega
    simp [Op.run, Both.seekp, Both.Stream.reaches, Both.Stream.setState, Ios.Bits.failed, Ios.Bits.none, Ios.Bits.meets, Ios.Bits.or, hst, hk, hm,
      this, bind, St.bind, pure, St.pure]
  obtain ⟨t, e2, d2, -⟩ := stuck ops hops { s with state := ⟨false, true, false⟩ } rfl hm
  exact ⟨t, runAll_cons e1 e2, d2⟩

/-- C215: a file is extended with zeros up to where something is written behind its end. -/
theorem c215_file_gap (p a m : Nat) (o : Obj) (s : Both.Stream) (hk : s.kind = .file) (hg : s.state.good = true)
    (ha : s.data.length ≤ a) (hp : a + m ≤ p) :
    ∃ t, (runAll [.seekp p, .write o, .seekg a, .read m]).run s = (.ok [List.replicate m 0], t) ∧
      t.data = s.data ++ List.replicate (p - s.data.length) 0 ++ o := by
  have hst : s.state = .none := by
    revert hg; cases s.state with | mk a b c => cases a <;> cases b <;> cases c <;> simp [Ios.Bits.good, Ios.Bits.none]
  have hd : store s.data p o = s.data ++ List.replicate (p - s.data.length) 0 ++ o := by
    rw [store, List.take_of_length_le (by omega), List.drop_eq_nil_of_le (by omega), List.append_nil]
  have hgot : ((store s.data p o).drop a).take m = List.replicate m 0 := by
    rw [hd, List.append_assoc, List.drop_append, List.drop_eq_nil_of_le ha, List.nil_append, List.drop_append_of_le_length (by simp; omega),
      List.drop_replicate, List.take_append_of_le_length (by simp; omega), List.take_replicate]
    congr 1
    omega
  have e1 : (Op.seekp p).run s = (.ok [], { s with getPos := p, putPos := p, last := .neither }) := by
    simp [Op.run, Both.seekp, Both.Stream.reaches, Ios.Bits.failed, Ios.Bits.none, hst, hk, bind, St.bind, pure, St.pure]
  have e2 : (Op.write o).run { s with getPos := p, putPos := p, last := .neither } =
      (.ok [], { s with data := store s.data p o, getPos := p + o.length, putPos := p + o.length, last := .output }) := by
    simp [Op.run, Both.write, hg, hk, bind, St.bind, pure, St.pure]
  have e3 : (Op.seekg a).run { s with data := store s.data p o, getPos := p + o.length, putPos := p + o.length, last := .output } =
      (.ok [], { s with data := store s.data p o, getPos := a, putPos := a, last := .neither }) := by
    simp [Op.run, Both.seekg, Both.Stream.reaches, Ios.Bits.failed, Ios.Bits.none, Ios.Bits.meets, hst, hk, bind, St.bind, pure, St.pure]
  have e4 : (Op.read m).run { s with data := store s.data p o, getPos := a, putPos := a, last := .neither } =
      (.ok [List.replicate m 0], { s with data := store s.data p o, getPos := a + m, putPos := a + m, last := .input }) := by
    simp [Op.run, Both.read, Both.readSome, hg, hk, hgot, bind, St.bind, pure, St.pure]
  exact ⟨_, runAll_cons e1 (runAll_cons e2 (runAll_cons e3 (runAll_cons e4 rfl))), hd⟩

/-! ## Examples -/

example : queueRun [[1, 2]] [.put [3], .take, .put [4, 5], .take, .take] = some ([[1, 2], [3], [4, 5]], []) ∧
    ((runAll (queueOps [[1, 2]] [.put [3], .take, .put [4, 5], .take, .take])).run ⟨.string, [9, 1, 2], 1, 3, .neither, .none, .none⟩).1 =
      .ok [[1, 2], [3], [4, 5]] := by decide +kernel

example : Waiting ⟨.string, [9, 1, 2], 1, 3, .neither, .none, .none⟩ [[1, 2]].flatten := by unfold Waiting; decide

/-- A read that comes too early, and what follows. -/
example : ((runAll [.write [7], .read 2, .write [8, 9], .read 2]).run ⟨.string, [], 0, 0, .neither, .none, .none⟩).1 = .ok [[7, 0], [0, 0]] ∧
    ((runAll [.write [7], .read 2, .clear, .seekg 0, .write [8, 9], .read 2]).run ⟨.string, [], 0, 0, .neither, .none, .none⟩).1 =
      .ok [[7, 0], [7, 8]] := by decide +kernel

/-- Records in a file. -/
example : recordRun [[1, 2], [3, 4]] [.get 1, .put 0 [5, 6], .put 2 [7, 8], .get 0, .get 2] = some ([[3, 4], [5, 6], [7, 8]], [[5, 6], [3, 4], [7, 8]]) ∧
    ((runAll (recordOps 2 [.get 1, .put 0 [5, 6], .put 2 [7, 8], .get 0, .get 2])).run ⟨.file, [1, 2, 3, 4], 0, 0, .neither, .none, .none⟩).1 =
      .ok [[3, 4], [5, 6], [7, 8]] := by decide +kernel

example : ((runAll [.write [5], .read 2]).run ⟨.string, [1, 2, 3], 0, 0, .neither, .none, .none⟩).1 = .ok [[5, 2]] ∧
    ((runAll [.write [5], .read 2]).run ⟨.file, [1, 2, 3], 0, 0, .neither, .none, .none⟩).1 = .ub := by decide +kernel

example : bytesRun [1] [.write [2, 3], .read 2, .read 2] = none ∧ bytesRun [1] [.write [2, 3], .read 2, .read 1] = some ([[1, 2], [3]], []) := by decide +kernel

end Wite.Props
