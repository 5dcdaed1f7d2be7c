import Verif.Model.IoThreads
import Verif.Lemmas.Io
import Mathlib.Tactic.ByContra

/-!
# C219: threads that use different parts of one buffer

Every access of a byte is a step of its own and the schedule is any list of threads, so the theorems hold for every interleaving.
-/

namespace Wite.Props

open Wite Wite.Spec Wite.Io Wite.Io.Threads

/-- The bytes that a call may store into. -/
def Stores : Call → Nat → Prop
  | .writeAt pos vs, i => pos ≤ i ∧ i < pos + totalSize vs
  | .tryWriteAt pos v, i => pos ≤ i ∧ i < pos + sizeOfVal v
  | _, _ => False

/-- The bytes that a call may look at. -/
def Loads : Call → Nat → Prop
  | .readAt pos ts, i => pos ≤ i ∧ i < pos + totalTySize ts
  | .tryReadAt pos t, i => pos ≤ i ∧ i < pos + t.size
  | _, _ => False

/-- The number of bytes that a call may access. -/
def accesses : Call → Nat
  | .writeAt _ vs => totalSize vs
  | .readAt _ ts => totalTySize ts
  | .tryWriteAt _ v => sizeOfVal v
  | .tryReadAt _ t => t.size

/-- The values to write are values of their types. -/
def ValuesOk : Call → Prop
  | .writeAt _ vs => ∀ v ∈ vs, GoodVal v
  | .tryWriteAt _ v => GoodVal v
  | _ => True

/-- The threads that are given, about to start. -/
def startThreads (host : Endian) (buf : List Nat) (prog : Nat → List Call) : World :=
  ⟨buf, fun t => calls host buf.length (prog t), []⟩

/-! ## A program alone does what `Io.lean` says -/

private theorem run_bind {α β : Type} (p : Prog α) (f : α → Prog β) (m : List Nat) :
    (p.bind f).run m = St.bind (fun m => p.run m) (fun a m => (f a).run m) m := by
  induction p generalizing m with
  | ret o => cases o <;> rfl
  | load i k ih =>
    simp only [Prog.bind, Prog.run, St.bind]
    cases m[i]? with
    | none => rfl
    | some b => exact ih b m
  | store i b k ih =>
    simp only [Prog.bind, Prog.run, St.bind]
    by_cases h : i < m.length
    · simp only [if_pos h]; exact ih _
    · simp only [if_neg h]

/-- On a buffer of `n` bytes the program is this call. -/
private def Same {α : Type} (n : Nat) (p : Prog α) (x : St (List Nat) α) : Prop :=
  ∀ m : List Nat, m.length = n → p.run m = x m ∧ (x m).2.length = n

private theorem Same.bind {α β : Type} {n : Nat} {p : Prog α} {x : St (List Nat) α} {f : α → Prog β} {g : α → St (List Nat) β}
    (h : Same n p x) (hf : ∀ a, Same n (f a) (g a)) : Same n (p.bind f) (St.bind x g) := by
  intro m hm
  obtain ⟨h1, h2⟩ := h m hm
  rw [run_bind]
  unfold St.bind
  dsimp only
  rw [h1]
  revert h2
  rcases x m with ⟨o, m'⟩
  intro h2
  cases o with
  | ok a => exact hf a m' h2
  | throw e => exact ⟨rfl, h2⟩
  | ub => exact ⟨rfl, h2⟩
  | terminate => exact ⟨rfl, h2⟩
  | diverge => exact ⟨rfl, h2⟩

private theorem Same.ret {α : Type} (n : Nat) (o : Outcome α) : Same n (.ret o) (fun m => (o, m)) := fun _ hm => ⟨rfl, hm⟩

private theorem run_loads (k i : Nat) (m : List Nat) (h : i + k ≤ m.length) : (loads k i).run m = (.ok ((m.drop i).take k), m) := by
  induction k generalizing i with
  | zero => simp [loads, pure, Prog.run]
  | succ k ih =>
    have hi : i < m.length := by omega
    simp only [loads, Prog.run, List.getElem?_eq_getElem hi]
    rw [run_bind]
    simp only [St.bind, ih (i + 1) (by omega)]
    rw [List.drop_eq_getElem_cons hi, List.take_succ_cons]
    rfl

private theorem run_stores (bs : List Nat) (i : Nat) (m : List Nat) (h : i + bs.length ≤ m.length) :
    (stores bs i).run m = (.ok ⟨⟩, m.take i ++ bs ++ m.drop (i + bs.length)) := by
  induction bs generalizing i m with
  | nil => simp [stores, pure, Prog.run]
  | cons b bs ih =>
    have hi : i < m.length := by simp only [List.length_cons] at h; omega
    simp only [stores, Prog.run, if_pos hi]
    rw [ih (i + 1) (m.set i b) (by simp only [List.length_set, List.length_cons] at h ⊢; omega)]
    congr 1
    rw [List.take_add_one, List.getElem?_set_self hi, List.take_set_of_le (by omega), List.drop_set_of_lt (by omega)]
    simp only [Option.toList, List.append_assoc, List.cons_append, List.nil_append, List.length_cons]
    congr 4; omega

private theorem same_writeMem (n pos : Nat) (bs : List Nat) : Same n (Threads.writeMem n pos bs) (Io.writeMem pos bs) := by
  intro m hm
  unfold Threads.writeMem Io.writeMem
  by_cases h : pos + bs.length ≤ n
  · rw [if_pos h, if_pos (by omega), run_stores _ _ _ (by omega)]
    refine ⟨rfl, ?_⟩
    simp; omega
  · rw [if_neg h, if_neg (by omega)]
    exact ⟨rfl, hm⟩

private theorem same_writeSingle (host : Endian) (n : Nat) (enc : Enc) (o : Obj) (pos : Nat) :
    Same n (Threads.writeSingle host n enc o pos) (Io.writeSingle host enc o pos) :=
  (same_writeMem n pos _).bind fun _ => Same.ret n _

private theorem same_writeRangeLoop (host : Endian) (n : Nat) (os : List Obj) (written pos : Nat) :
    Same n (Threads.writeRangeLoop host n os written pos) (Io.writeRangeLoop host os written pos) := by
  induction os generalizing written pos with
  | nil => exact Same.ret n _
  | cons o os ih => exact (same_writeSingle host n .native o pos).bind fun w => ih _ _

private theorem same_uncheckedWrite (host : Endian) (n pos : Nat) (v : WVal) :
    Same n (Threads.uncheckedWrite host n pos v) (Io.uncheckedWrite host pos v) := by
  cases v with
  | single enc o => exact same_writeSingle host n enc o pos
  | range k elems => exact same_writeRangeLoop host n elems 0 pos

private theorem same_recursiveUnsafeWrite (host : Endian) (n pos : Nat) (vs : List WVal) :
    Same n (Threads.recursiveUnsafeWrite host n pos vs) (Io.recursiveUnsafeWrite host pos vs) := by
  induction vs generalizing pos with
  | nil => exact Same.ret n _
  | cons v vs ih => exact (same_uncheckedWrite host n pos v).bind fun out => (ih _).bind fun rest => Same.ret n _

private theorem same_writeAt (host : Endian) (n pos : Nat) (vs : List WVal) :
    Same n (Threads.writeAt host n pos vs) (Io.writeAt host pos vs) := by
  intro m hm
  unfold Threads.writeAt
  have e : Io.writeAt host pos vs m =
      (if (pos + byteCountVals vs) % sizeMod < pos then
        (St.throw (.invalidArgument "Buffer read position exceeds allowed value") : St (List Nat) Nat)
      else if (pos + byteCountVals vs) % sizeMod > m.length then St.throw (.outOfRange "Insufficient buffer space for write")
      else (Io.recursiveUnsafeWrite host pos vs).bind fun k => St.pure ((pos + k) % sizeMod)) m := rfl
  rw [e, hm]
  by_cases h1 : (pos + byteCountVals vs) % sizeMod < pos
  · simp only [if_pos h1]; exact ⟨rfl, hm⟩
  · simp only [if_neg h1]
    by_cases h2 : (pos + byteCountVals vs) % sizeMod > n
    · simp only [if_pos h2]; exact ⟨rfl, hm⟩
    · simp only [if_neg h2]
      exact ((same_recursiveUnsafeWrite host n pos vs).bind fun k => Same.ret n _) m hm

private theorem same_tryWriteAt (host : Endian) (n pos : Nat) (v : WVal) :
    Same n (Threads.tryWriteAt host n pos v) (Io.tryWriteAt host pos v) := by
  intro m hm
  unfold Threads.tryWriteAt
  have e : Io.tryWriteAt host pos v m =
      (if (pos + valueSize v) % sizeMod < pos then (St.pure (.error .invalidPositionOffset) : St (List Nat) (Result Nat WriteError))
      else if pos ≥ m.length then St.pure (.error .insufficientBuffer)
      else (Io.tryWriteOne host pos v).bind fun r =>
        match r with
        | .error e => St.pure (.error e)
        | .value n => St.pure (.value ((pos + n) % sizeMod))) m := rfl
  rw [e, hm]
  by_cases h1 : (pos + valueSize v) % sizeMod < pos
  · simp only [if_pos h1]; exact ⟨rfl, hm⟩
  · simp only [if_neg h1]
    by_cases h2 : pos ≥ n
    · simp only [if_pos h2]; exact ⟨rfl, hm⟩
    · simp only [if_neg h2]
      have e2 : Io.tryWriteOne host pos v m =
          (if m.length < pos then (St.ub : St (List Nat) (Result Nat WriteError))
          else if m.length - pos < valueSize v then St.pure (.error .insufficientBuffer)
          else (Io.uncheckedWrite host pos v).bind fun n => St.pure (.value n)) m := rfl
      by_cases h3 : n - pos < valueSize v
      · simp only [if_pos h3]
        unfold St.bind
        rw [e2, hm, if_neg (by omega), if_pos h3]
        exact ⟨rfl, hm⟩
      · simp only [if_neg h3]
        obtain ⟨a, b⟩ := same_uncheckedWrite host n pos v m hm
        have e3 : Prog.run (do let k ← Threads.uncheckedWrite host n pos v; pure (Result.value ((pos + k) % sizeMod) : Result Nat WriteError)) m =
            St.bind (fun m => (Threads.uncheckedWrite host n pos v).run m)
              (fun k m => (Prog.ret (.ok (Result.value ((pos + k) % sizeMod) : Result Nat WriteError))).run m) m := run_bind _ _ m
        rw [e3]
        unfold St.bind
        rw [e2, hm, if_neg (by omega), if_neg h3]
        unfold St.bind
        dsimp only
        rw [a]
        revert b
        rcases Io.uncheckedWrite host pos v m with ⟨o, m'⟩
        intro b
        cases o <;> exact ⟨rfl, b⟩

private theorem run_recursiveRead (host : Endian) (n : Nat) (ts : List Ty) (off : Nat) (m : List Nat) (hm : m.length = n) (ho : off ≤ n) :
    (Threads.recursiveRead host n ts off).run m = (Io.recursiveRead host ts (m.drop off), m) := by
  induction ts generalizing off with
  | nil => rfl
  | cons t ts ih =>
    have e : (Threads.recursiveRead host n (t :: ts) off).run m =
        St.bind (fun m => (Threads.readMem n off t.size).run m)
          (fun bs m => ((Threads.recursiveRead host n ts (off + t.size)).bind fun vs =>
            Prog.ret (.ok (bytesOf host t.enc bs :: vs))).run m) m := run_bind _ _ m
    rw [e]
    unfold Threads.readMem Io.recursiveRead Io.uncheckedRead Io.readMem Io.spanFrom
    by_cases h : off + t.size ≤ n
    · rw [if_pos h]
      unfold St.bind
      dsimp only
      rw [run_loads _ _ _ (by omega)]
      dsimp only
      rw [run_bind]
      unfold St.bind
      dsimp only
      rw [ih (off + t.size) h]
      rw [if_pos (by simp; omega)]
      simp only [List.drop_zero, Outcome.bind_ok, Outcome.pure_eq, Nat.zero_add]
      rw [if_pos (by simp; omega)]
      simp only [Outcome.bind_ok, List.drop_drop]
      cases Io.recursiveRead host ts (m.drop (off + t.size)) <;> rfl
    · rw [if_neg h, if_neg (by simp; omega)]
      rfl

private theorem same_readAt (host : Endian) (n pos : Nat) (ts : List Ty) :
    Same n (Threads.readAt host n ts pos) (fun m => (Io.readAt host ts pos m, m)) := by
  intro m hm
  refine ⟨?_, hm⟩
  unfold Threads.readAt Io.readAt Io.spanFrom Io.read
  dsimp only
  rw [hm]
  by_cases h1 : (pos + byteCountTys ts) % sizeMod < pos
  · simp only [if_pos h1]; rfl
  · simp only [if_neg h1]
    by_cases h2 : pos > n
    · simp only [if_pos h2]; rfl
    · simp only [if_neg h2, if_pos (show pos ≤ n by omega), Outcome.bind_ok, List.length_drop, hm]
      by_cases h3 : byteCountTys ts > n - pos
      · simp only [if_pos h3]; rfl
      · simp only [if_neg h3]
        exact run_recursiveRead host n ts pos m hm (by omega)

private theorem same_tryReadAt (host : Endian) (n pos : Nat) (t : Ty) :
    Same n (Threads.tryReadAt host n t pos) (fun m => (Io.tryReadAt host t pos m, m)) := by
  intro m hm
  refine ⟨?_, hm⟩
  unfold Threads.tryReadAt Io.tryReadAt Io.spanFrom Io.tryRead
  dsimp only
  rw [hm]
  by_cases h1 : (pos + t.size) % sizeMod < pos
  · simp only [if_pos h1]; rfl
  · simp only [if_neg h1]
    by_cases h2 : pos ≥ n
    · simp only [if_pos h2]; rfl
    · simp only [if_neg h2, if_pos (show pos ≤ n by omega), Outcome.bind_ok, List.length_drop, hm]
      by_cases h3 : n - pos < t.size
      · simp only [if_pos h3]; rfl
      · simp only [if_neg h3]
        have e : Prog.run (do let bs ← Threads.readMem n pos t.size; pure (Result.value (bytesOf host t.enc bs) : Result Obj ReadError)) m =
            St.bind (fun m => (Threads.readMem n pos t.size).run m)
              (fun bs m => (Prog.ret (.ok (Result.value (bytesOf host t.enc bs) : Result Obj ReadError))).run m) m := run_bind _ _ m
        rw [e]
        unfold Threads.readMem Io.uncheckedRead Io.readMem
        rw [if_pos (by omega), if_pos (by simp; omega)]
        unfold St.bind
        dsimp only
        rw [run_loads _ _ _ (by omega)]
        rfl

private theorem same_call (host : Endian) (n : Nat) (c : Call) : Same n (c.prog host n) (c.alone host) := by
  cases c with
  | writeAt pos vs => exact (same_writeAt host n pos vs).bind fun k => Same.ret n _
  | tryWriteAt pos v => exact (same_tryWriteAt host n pos v).bind fun k => Same.ret n _
  | readAt pos ts =>
    intro m hm
    exact ((same_readAt host n pos ts).bind (g := fun os => fun m => (Outcome.ok (Res.values os), m)) fun k => Same.ret n _) m hm
  | tryReadAt pos t =>
    intro m hm
    exact ((same_tryReadAt host n pos t).bind (g := fun os => fun m => (Outcome.ok (Res.value os), m)) fun k => Same.ret n _) m hm

/-! ## Which bytes a program accesses -/

/-- At most `k` accesses to a buffer of `n` bytes, the loads from `R` and the stores to `W`. -/
private def Within {α : Type} (n : Nat) (R W : Nat → Prop) : Nat → Prog α → Prop
  | _, .ret _ => True
  | 0, .load _ _ => False
  | 0, .store _ _ _ => False
  | k + 1, .load i f => i < n ∧ R i ∧ ∀ b, Within n R W k (f b)
  | k + 1, .store i _ p => i < n ∧ W i ∧ Within n R W k p

section
variable {α β : Type} {n : Nat} {R W : Nat → Prop}

private theorem within_ret (k : Nat) (o : Outcome α) : Within n R W k (.ret o) := by cases k <;> exact trivial

private theorem Within.mono {R' W' : Nat → Prop} (hR : ∀ i, R i → R' i) (hW : ∀ i, W i → W' i) :
    ∀ {k k' : Nat} {p : Prog α}, k ≤ k' → Within n R W k p → Within n R' W' k' p := by
  intro k k' p hk h
  induction p generalizing k k' with
  | ret o => exact within_ret _ _
  | load i f ih =>
    cases k with
    | zero => exact h.elim
    | succ k =>
      cases k' with
      | zero => omega
      | succ k' => exact ⟨h.1, hR _ h.2.1, fun b => ih b (by omega) (h.2.2 b)⟩
  | store i b p ih =>
    cases k with
    | zero => exact h.elim
    | succ k =>
      cases k' with
      | zero => omega
      | succ k' => exact ⟨h.1, hW _ h.2.1, ih (by omega) h.2.2⟩

private theorem Within.bind {k l : Nat} {p : Prog α} {f : α → Prog β} (h : Within n R W k p) (hf : ∀ a, Within n R W l (f a)) :
    Within n R W (k + l) (p.bind f) := by
  induction p generalizing k with
  | ret o =>
    cases o with
    | ok a => exact (hf a).mono (fun _ h => h) (fun _ h => h) (by omega)
    | throw e => exact within_ret _ _
    | ub => exact within_ret _ _
    | terminate => exact within_ret _ _
    | diverge => exact within_ret _ _
  | load i g ih =>
    cases k with
    | zero => exact h.elim
    | succ k =>
      rw [show k + 1 + l = (k + l) + 1 by omega]
      exact ⟨h.1, h.2.1, fun b => ih b (h.2.2 b)⟩
  | store i b p ih =>
    cases k with
    | zero => exact h.elim
    | succ k =>
      rw [show k + 1 + l = (k + l) + 1 by omega]
      exact ⟨h.1, h.2.1, ih h.2.2⟩

private theorem Within.attempt {k : Nat} {p : Prog α} (h : Within n R W k p) : Within n R W k p.attempt := by
  induction p generalizing k with
  | ret o => exact within_ret _ _
  | load i g ih =>
    cases k with
    | zero => exact h.elim
    | succ k => exact ⟨h.1, h.2.1, fun b => ih b (h.2.2 b)⟩
  | store i b p ih =>
    cases k with
    | zero => exact h.elim
    | succ k => exact ⟨h.1, h.2.1, ih h.2.2⟩

private theorem run_attempt {k : Nat} {p : Prog α} (h : Within n R W k p) (m : List Nat) (hm : m.length = n) :
    p.attempt.run m = (.ok (p.run m).1, (p.run m).2) := by
  induction p generalizing k m with
  | ret o => rfl
  | load i g ih =>
    cases k with
    | zero => exact h.elim
    | succ k =>
      have hi : i < m.length := by rw [hm]; exact h.1
      simp only [Prog.attempt, Prog.run, List.getElem?_eq_getElem hi]
      exact ih _ (h.2.2 _) m hm
  | store i b p ih =>
    cases k with
    | zero => exact h.elim
    | succ k =>
      have hi : i < m.length := by rw [hm]; exact h.1
      simp only [Prog.attempt, Prog.run, if_pos hi]
      exact ih h.2.2 _ (by simpa using hm)

private theorem within_loads (k i : Nat) (hn : i + k ≤ n) (h : ∀ j, i ≤ j → j < i + k → R j) : Within n R W k (loads k i) := by
  induction k generalizing i with
  | zero => exact within_ret _ _
  | succ k ih =>
    refine ⟨by omega, h i (by omega) (by omega), fun b => ?_⟩
    exact (ih (i + 1) (by omega) fun j h1 h2 => h j (by omega) (by omega)).bind (l := 0) fun bs => within_ret _ _

private theorem within_stores (bs : List Nat) (i : Nat) (hn : i + bs.length ≤ n) (h : ∀ j, i ≤ j → j < i + bs.length → W j) :
    Within n R W bs.length (stores bs i) := by
  induction bs generalizing i with
  | nil => exact within_ret _ _
  | cons b bs ih =>
    simp only [List.length_cons] at hn h
    exact ⟨by omega, h i (by omega) (by omega), ih (i + 1) (by omega) fun j h1 h2 => h j (by omega) (by omega)⟩

private theorem within_readMem (pos k : Nat) (h : ∀ j, pos ≤ j → j < pos + k → R j) : Within n R W k (Threads.readMem n pos k) := by
  unfold Threads.readMem
  by_cases hn : pos + k ≤ n
  · rw [if_pos hn]; exact within_loads k pos hn h
  · rw [if_neg hn]; exact within_ret _ _

private theorem within_writeMem (pos : Nat) (bs : List Nat) (h : ∀ j, pos ≤ j → j < pos + bs.length → W j) :
    Within n R W bs.length (Threads.writeMem n pos bs) := by
  unfold Threads.writeMem
  by_cases hn : pos + bs.length ≤ n
  · rw [if_pos hn]; exact within_stores bs pos hn h
  · rw [if_neg hn]; exact within_ret _ _

private theorem within_writeSingle (host : Endian) (enc : Enc) (o : Obj) (pos : Nat) (h : ∀ j, pos ≤ j → j < pos + o.length → W j) :
    Within n R W o.length (Threads.writeSingle host n enc o pos) := by
  have e : (bytesOf host enc o).length = o.length := bytesOf_length host enc o
  have := (within_writeMem (n := n) (R := R) (W := W) pos (bytesOf host enc o) (by rw [e]; exact h)).bind (l := 0)
    (f := fun _ => Prog.ret (.ok o.length)) fun _ => within_ret _ _
  rw [e] at this
  exact this

private theorem within_writeRangeLoop (host : Endian) (z : Nat) (os : List Obj) (written pos : Nat) (hz : ∀ o ∈ os, o.length = z)
    (h : ∀ j, pos ≤ j → j < pos + os.length * z → W j) :
    Within n R W (os.length * z) (Threads.writeRangeLoop host n os written pos) := by
  induction os generalizing written pos with
  | nil => exact within_ret _ _
  | cons o os ih =>
    have ho := hz o List.mem_cons_self
    have e : (o :: os).length * z = o.length + os.length * z := by rw [List.length_cons, Nat.add_mul, ho]; omega
    rw [e] at h ⊢
    exact (within_writeSingle host .native o pos fun j h1 h2 => h j h1 (by omega)).bind fun w =>
      ih _ _ (fun o ho => hz o (List.mem_cons_of_mem _ ho)) fun j h1 h2 => h j (by omega) (by omega)

private theorem within_uncheckedWrite (host : Endian) (pos : Nat) (v : WVal) (hv : GoodVal v)
    (h : ∀ j, pos ≤ j → j < pos + sizeOfVal v → W j) : Within n R W (sizeOfVal v) (Threads.uncheckedWrite host n pos v) := by
  cases v with
  | single enc o => exact within_writeSingle host enc o pos h
  | range z elems => exact within_writeRangeLoop host z elems 0 pos (fun o ho => (hv o ho).1) h

private theorem valueSize_le_sizeOfVal (v : WVal) : valueSize v ≤ sizeOfVal v := by
  cases v with
  | single enc o => exact Nat.le_refl _
  | range z elems => exact Nat.mod_le _ _

private theorem within_recursiveUnsafeWrite (host : Endian) (pos : Nat) (vs : List WVal) (hv : ∀ v ∈ vs, GoodVal v)
    (h : ∀ j, pos ≤ j → j < pos + totalSize vs → W j) :
    Within n R W (totalSize vs) (Threads.recursiveUnsafeWrite host n pos vs) := by
  induction vs generalizing pos with
  | nil => exact within_ret _ _
  | cons v vs ih =>
    have e : totalSize (v :: vs) = sizeOfVal v + totalSize vs := by simp [totalSize]
    rw [e] at h ⊢
    have hle := valueSize_le_sizeOfVal v
    exact (within_uncheckedWrite host pos v (hv v List.mem_cons_self) fun j h1 h2 => h j h1 (by omega)).bind fun w =>
      (ih (pos + valueSize v) (fun v hm => hv v (List.mem_cons_of_mem _ hm)) fun j h1 h2 => h j (by omega) (by omega)).bind (l := 0)
        fun _ => within_ret _ _

private theorem within_recursiveRead (host : Endian) (ts : List Ty) (off : Nat) (h : ∀ j, off ≤ j → j < off + totalTySize ts → R j) :
    Within n R W (totalTySize ts) (Threads.recursiveRead host n ts off) := by
  induction ts generalizing off with
  | nil => exact within_ret _ _
  | cons t ts ih =>
    have e : totalTySize (t :: ts) = t.size + totalTySize ts := by simp [totalTySize]
    rw [e] at h ⊢
    exact (within_readMem off t.size fun j h1 h2 => h j h1 (by omega)).bind fun w =>
      (ih (off + t.size) fun j h1 h2 => h j (by omega) (by omega)).bind (l := 0) fun _ => within_ret _ _

end

private theorem within_call (host : Endian) (n : Nat) (c : Call) (hc : ValuesOk c) :
    Within n (Loads c) (Stores c) (accesses c) (c.prog host n) := by
  cases c with
  | writeAt pos vs =>
    refine Within.bind (l := 0) ?_ fun _ => within_ret _ _
    unfold Threads.writeAt
    by_cases h1 : (pos + byteCountVals vs) % sizeMod < pos
    · rw [if_pos h1]; exact within_ret _ _
    · rw [if_neg h1]
      by_cases h2 : (pos + byteCountVals vs) % sizeMod > n
      · rw [if_pos h2]; exact within_ret _ _
      · rw [if_neg h2]
        exact (within_recursiveUnsafeWrite host pos vs hc fun j h1 h2 => ⟨h1, h2⟩).bind (l := 0) fun _ => within_ret _ _
  | readAt pos ts =>
    refine Within.bind (l := 0) ?_ fun _ => within_ret _ _
    unfold Threads.readAt
    by_cases h1 : (pos + byteCountTys ts) % sizeMod < pos
    · rw [if_pos h1]; exact within_ret _ _
    · rw [if_neg h1]
      by_cases h2 : pos > n
      · rw [if_pos h2]; exact within_ret _ _
      · rw [if_neg h2]
        by_cases h3 : byteCountTys ts > n - pos
        · rw [if_pos h3]; exact within_ret _ _
        · rw [if_neg h3]
          exact within_recursiveRead host ts pos fun j h1 h2 => ⟨h1, h2⟩
  | tryWriteAt pos v =>
    refine Within.bind (l := 0) ?_ fun _ => within_ret _ _
    unfold Threads.tryWriteAt
    by_cases h1 : (pos + valueSize v) % sizeMod < pos
    · rw [if_pos h1]; exact within_ret _ _
    · rw [if_neg h1]
      by_cases h2 : pos ≥ n
      · rw [if_pos h2]; exact within_ret _ _
      · rw [if_neg h2]
        by_cases h3 : n - pos < valueSize v
        · rw [if_pos h3]; exact within_ret _ _
        · rw [if_neg h3]
          exact (within_uncheckedWrite host pos v hc fun j h1 h2 => ⟨h1, h2⟩).bind (l := 0) fun _ => within_ret _ _
  | tryReadAt pos t =>
    refine Within.bind (l := 0) ?_ fun _ => within_ret _ _
    unfold Threads.tryReadAt
    by_cases h1 : (pos + t.size) % sizeMod < pos
    · rw [if_pos h1]; exact within_ret _ _
    · rw [if_neg h1]
      by_cases h2 : pos ≥ n
      · rw [if_pos h2]; exact within_ret _ _
      · rw [if_neg h2]
        by_cases h3 : n - pos < t.size
        · rw [if_pos h3]; exact within_ret _ _
        · rw [if_neg h3]
          exact (within_readMem pos t.size fun j h1 h2 => ⟨h1, h2⟩).bind (l := 0) fun _ => within_ret _ _

private theorem within_calls (host : Endian) (n : Nat) (cs : List Call) (hc : ∀ c ∈ cs, ValuesOk c) :
    Within n (fun i => ∃ c ∈ cs, Loads c i) (fun i => ∃ c ∈ cs, Stores c i) (cs.map accesses).sum (calls host n cs) := by
  induction cs with
  | nil => exact within_ret _ _
  | cons c cs ih =>
    refine Within.bind ((within_call host n c (hc c List.mem_cons_self)).attempt.mono ?_ ?_ (Nat.le_refl _)) fun r => ?_
    · exact fun i h => ⟨c, List.mem_cons_self, h⟩
    · exact fun i h => ⟨c, List.mem_cons_self, h⟩
    · refine (Within.bind (l := 0) (ih fun c h => hc c (List.mem_cons_of_mem _ h)) fun rs => within_ret _ _).mono ?_ ?_ (Nat.le_refl _)
      · exact fun i ⟨c, h, hi⟩ => ⟨c, List.mem_cons_of_mem _ h, hi⟩
      · exact fun i ⟨c, h, hi⟩ => ⟨c, List.mem_cons_of_mem _ h, hi⟩

private theorem run_calls (host : Endian) (n : Nat) (cs : List Call) (hc : ∀ c ∈ cs, ValuesOk c) (m : List Nat) (hm : m.length = n) :
    (calls host n cs).run m = (.ok (St.outcomes (Call.alone host) cs m).1, (St.outcomes (Call.alone host) cs m).2) := by
  induction cs generalizing m with
  | nil => rfl
  | cons c cs ih =>
    obtain ⟨h1, h2⟩ := same_call host n c m hm
    simp only [calls]
    rw [run_bind]
    unfold St.bind
    dsimp only
    rw [run_attempt (within_call host n c (hc c List.mem_cons_self)) m hm, h1]
    dsimp only
    rw [run_bind]
    unfold St.bind
    dsimp only
    rw [ih (fun c h => hc c (List.mem_cons_of_mem _ h)) _ h2]
    rfl

/-! ## Threads -/

section
variable {n : Nat} {m0 : List Nat} {p0 : Nat → Prog (List (Outcome Res))} {R W : Nat → Nat → Prop} {K : Nat → Nat}

private structure Inv (n : Nat) (m0 : List Nat) (p0 : Nat → Prog (List (Outcome Res))) (R W : Nat → Nat → Prop) (K cnt : Nat → Nat)
    (w : World) : Prop where
  len : w.mem.length = n
  each : ∀ t, ∃ mt : List Nat, mt.length = n ∧ (w.thread t).run mt = (p0 t).run m0 ∧
    (∀ i, R t i ∨ W t i → w.mem[i]? = mt[i]?) ∧ Within n (R t) (W t) (K t - cnt t) (w.thread t)
  rest : ∀ i : Nat, (∀ t, ¬ W t i) → w.mem[i]? = m0[i]?
  log : ∀ e ∈ w.log, e.2.2 < n ∧ (e.2.1 = true → W e.1 e.2.2) ∧ (e.2.1 = false → R e.1 e.2.2)

private theorem inv_step (hd : ∀ t u i, t ≠ u → W t i → ¬ R u i ∧ ¬ W u i) {cnt : Nat → Nat} {w : World} (h : Inv n m0 p0 R W K cnt w)
    (t : Nat) : Inv n m0 p0 R W K (fun u => cnt u + if u = t then 1 else 0) (w.step t) := by
  obtain ⟨mt, hmt, hrun, hagree, hw⟩ := h.each t
  unfold World.step
  cases hp : w.thread t with
  | ret o =>
    refine ⟨h.len, fun u => ?_, h.rest, h.log⟩
    obtain ⟨mu, a, b, c, d⟩ := h.each u
    refine ⟨mu, a, b, c, ?_⟩
    by_cases hu : u = t
    · subst hu; rw [hp]; exact within_ret _ _
    · simpa [hu] using d
  | load i k =>
    rw [hp] at hw hrun
    cases hk : K t - cnt t with
    | zero => rw [hk] at hw; exact hw.elim
    | succ l =>
      rw [hk] at hw
      obtain ⟨hi, hR, hw⟩ := hw
      have hi' : i < w.mem.length := by rw [h.len]; exact hi
      have hb : w.mem[i]? = some w.mem[i] := List.getElem?_eq_getElem hi'
      dsimp only
      rw [hb]
      dsimp only
      refine ⟨h.len, fun u => ?_, h.rest, ?_⟩
      · by_cases hu : u = t
        · subst hu
          refine ⟨mt, hmt, ?_, hagree, ?_⟩
          · rw [← hrun]
            have := hagree i (Or.inl hR)
            rw [hb] at this
            simp only [Prog.run, ← this, if_true]
          · simp only [if_true]
            rw [show K u - (cnt u + 1) = l by omega]
            exact hw _
        · simp only [if_neg hu, Nat.add_zero]
          exact h.each u
      · intro e he
        rcases List.mem_cons.mp he with rfl | he
        · exact ⟨hi, (fun h => by cases h), fun _ => hR⟩
        · exact h.log e he
  | store i b k =>
    rw [hp] at hw hrun
    cases hk : K t - cnt t with
    | zero => rw [hk] at hw; exact hw.elim
    | succ l =>
      rw [hk] at hw
      obtain ⟨hi, hW, hw⟩ := hw
      have hi' : i < w.mem.length := by rw [h.len]; exact hi
      dsimp only
      rw [if_pos hi']
      refine ⟨by simpa using h.len, fun u => ?_, ?_, ?_⟩
      · by_cases hu : u = t
        · subst hu
          refine ⟨mt.set i b, by simpa using hmt, ?_, ?_, ?_⟩
          · rw [← hrun]
            simp only [Prog.run, if_true, if_pos (show i < mt.length by omega)]
          · intro j hj
            by_cases hij : i = j
            · subst hij
              rw [List.getElem?_set_self hi', List.getElem?_set_self (by omega)]
            · rw [List.getElem?_set_ne hij, List.getElem?_set_ne hij]
              exact hagree j hj
          · simp only [if_true]
            rw [show K u - (cnt u + 1) = l by omega]
            exact hw
        · simp only [if_neg hu, Nat.add_zero]
          obtain ⟨mu, a, b', c, d⟩ := h.each u
          refine ⟨mu, a, b', fun j hj => ?_, d⟩
          have hij : i ≠ j := by
            rintro rfl
            have := hd t u i (Ne.symm hu) hW
            exact hj.elim this.1 this.2
          rw [List.getElem?_set_ne hij]
          exact c j hj
      · intro j hj
        have hij : i ≠ j := by
          rintro rfl
          exact hj t hW
        dsimp only
        rw [List.getElem?_set_ne hij]
        exact h.rest j hj
      · intro e he
        rcases List.mem_cons.mp he with rfl | he
        · exact ⟨hi, fun _ => hW, fun h => by cases h⟩
        · exact h.log e he

private theorem inv_run (hd : ∀ t u i, t ≠ u → W t i → ¬ R u i ∧ ¬ W u i) (s : List Nat) {cnt : Nat → Nat} {w : World}
    (h : Inv n m0 p0 R W K cnt w) : Inv n m0 p0 R W K (fun u => cnt u + s.count u) (w.run s) := by
  induction s generalizing cnt w with
  | nil => simpa [World.run] using h
  | cons t s ih =>
    have := ih (inv_step hd h t)
    have e : (fun u => cnt u + (t :: s).count u) = fun u => (cnt u + if u = t then 1 else 0) + s.count u := by
      funext u
      rw [List.count_cons]
      by_cases hu : u = t
      · subst hu; simp; omega
      · simp [hu, Ne.symm hu]
    rw [e]
    exact this

end

/-- No thread stores into a byte that another one accesses. -/
def Apart (prog : Nat → List Call) : Prop :=
  ∀ t u, t ≠ u → ∀ c ∈ prog t, ∀ d ∈ prog u, ∀ i, Stores c i → ¬ Loads d i ∧ ¬ Stores d i

private theorem inv_start (host : Endian) (buf : List Nat) (prog : Nat → List Call) (hv : ∀ t, ∀ c ∈ prog t, ValuesOk c)
    (ha : Apart prog) (schedule : List Nat) :
    Inv buf.length buf (fun t => calls host buf.length (prog t)) (fun t i => ∃ c ∈ prog t, Loads c i) (fun t i => ∃ c ∈ prog t, Stores c i)
      (fun t => ((prog t).map accesses).sum) (fun t => 0 + schedule.count t) ((startThreads host buf prog).run schedule) := by
  refine inv_run ?_ schedule ⟨rfl, fun t => ⟨buf, rfl, rfl, fun _ _ => rfl, within_calls host _ _ (hv t)⟩, fun _ _ => rfl, ?_⟩
  · rintro t u i htu ⟨c, hc, hi⟩
    exact ⟨fun ⟨d, hd, hj⟩ => (ha t u htu c hc d hd i hi).1 hj, fun ⟨d, hd, hj⟩ => (ha t u htu c hc d hd i hi).2 hj⟩
  · intro e he
    cases he

/-- Threads that keep to different parts of a buffer, or only read the parts they share, never race, whatever the interleaving of their
accesses: when two threads access one byte, both look at it. -/
theorem c219_race (host : Endian) (buf : List Nat) (prog : Nat → List Call) (hv : ∀ t, ∀ c ∈ prog t, ValuesOk c) (ha : Apart prog)
    (schedule : List Nat) :
    let w := (startThreads host buf prog).run schedule
    (∀ e ∈ w.log, e.2.2 < buf.length) ∧
      ∀ e ∈ w.log, ∀ f ∈ w.log, e.1 ≠ f.1 → e.2.2 = f.2.2 → e.2.1 = false ∧ f.2.1 = false := by
  have h := inv_start host buf prog hv ha schedule
  refine ⟨fun e he => (h.log e he).1, fun e he f hf hne hi => ?_⟩
  have hE := (h.log e he).2
  have hF := (h.log f hf).2
  have key : ∀ e f : Nat × Bool × Nat, e.1 ≠ f.1 → e.2.2 = f.2.2 →
      ((e.2.1 = true → ∃ c ∈ prog e.1, Stores c e.2.2) ∧ (e.2.1 = false → ∃ c ∈ prog e.1, Loads c e.2.2)) →
      ((f.2.1 = true → ∃ c ∈ prog f.1, Stores c f.2.2) ∧ (f.2.1 = false → ∃ c ∈ prog f.1, Loads c f.2.2)) → e.2.1 = false := by
    intro e f hne hi hE hF
    cases hb : e.2.1 with
    | false => rfl
    | true =>
      obtain ⟨c, hc, hs⟩ := hE.1 hb
      cases hb' : f.2.1 with
      | false =>
        obtain ⟨d, hd, hl⟩ := hF.2 hb'
        exact ((ha _ _ hne c hc d hd _ hs).1 (hi ▸ hl)).elim
      | true =>
        obtain ⟨d, hd, hl⟩ := hF.1 hb'
        exact ((ha _ _ hne c hc d hd _ hs).2 (hi ▸ hl)).elim
  exact ⟨key e f hne hi hE hF, key f e (Ne.symm hne) hi.symm hF hE⟩

/-- And each of them gets from every call what it gets when it has the buffer to itself, and leaves behind what it then leaves; the bytes
that nobody writes stay as they were. -/
theorem c219_alone (host : Endian) (buf : List Nat) (prog : Nat → List Call) (hv : ∀ t, ∀ c ∈ prog t, ValuesOk c) (ha : Apart prog)
    (schedule : List Nat) :
    let w := (startThreads host buf prog).run schedule
    w.mem.length = buf.length ∧ (∀ i : Nat, (∀ t, ∀ c ∈ prog t, ¬ Stores c i) → w.mem[i]? = buf[i]?) ∧
      ∀ t o, w.thread t = .ret o →
        o = .ok (St.outcomes (Call.alone host) (prog t) buf).1 ∧
          ∀ c ∈ prog t, ∀ i : Nat, Loads c i ∨ Stores c i → w.mem[i]? = (St.outcomes (Call.alone host) (prog t) buf).2[i]? := by
  have h := inv_start host buf prog hv ha schedule
  refine ⟨h.len, fun i hi => h.rest i fun t ⟨c, hc, hs⟩ => hi t c hc hs, fun t o ho => ?_⟩
  obtain ⟨mt, -, hrun, hagree, -⟩ := h.each t
  rw [ho, run_calls host _ _ (hv t) buf rfl] at hrun
  simp only [Prog.run, Prod.mk.injEq] at hrun
  refine ⟨hrun.1, fun c hc i hi => ?_⟩
  rw [hagree i (hi.elim (fun h => Or.inl ⟨c, hc, h⟩) fun h => Or.inr ⟨c, hc, h⟩), hrun.2]

/-- No thread waits for another: it is done after as many turns as its calls have bytes, whatever the others do. -/
theorem c219_finish (host : Endian) (buf : List Nat) (prog : Nat → List Call) (hv : ∀ t, ∀ c ∈ prog t, ValuesOk c) (ha : Apart prog)
    (schedule : List Nat) (t : Nat) (hs : ((prog t).map accesses).sum ≤ schedule.count t) :
    ∃ o, ((startThreads host buf prog).run schedule).thread t = .ret o := by
  obtain ⟨mt, -, -, -, hw⟩ := (inv_start host buf prog hv ha schedule).each t
  rw [show ((prog t).map accesses).sum - (0 + schedule.count t) = 0 by omega] at hw
  cases hp : ((startThreads host buf prog).run schedule).thread t with
  | ret o => exact ⟨o, rfl⟩
  | load i k => rw [hp] at hw; exact hw.elim
  | store i b k => rw [hp] at hw; exact hw.elim

/-! ## Threads that do not keep apart -/

/-- Whatever it finds in the buffer, the program accesses byte `i`; `s` says whether it stores. -/
private def Must {α : Type} (s : Bool) (i : Nat) : Prog α → Prop
  | .ret _ => False
  | .load j k => (s = false ∧ i = j) ∨ ∀ b, Must s i (k b)
  | .store j _ k => (s = true ∧ i = j) ∨ Must s i k

private theorem Must.bind {α β : Type} {s : Bool} {i : Nat} {p : Prog α} (f : α → Prog β) (h : Must s i p) : Must s i (p.bind f) := by
  induction p with
  | ret o => exact h.elim
  | load j k ih => exact h.imp (fun h => h) fun h b => ih b (h b)
  | store j b k ih => exact h.imp (fun h => h) ih

private theorem Must.attempt {α : Type} {s : Bool} {i : Nat} {p : Prog α} (h : Must s i p) : Must s i p.attempt := by
  induction p with
  | ret o => exact h.elim
  | load j k ih => exact h.imp (fun h => h) fun h b => ih b (h b)
  | store j b k ih => exact h.imp (fun h => h) ih

private theorem must_loads (k j i : Nat) (h1 : j ≤ i) (h2 : i < j + k) : Must false i (loads k j) := by
  induction k generalizing j with
  | zero => omega
  | succ k ih =>
    by_cases h : i = j
    · exact Or.inl ⟨rfl, h⟩
    · exact Or.inr fun b => (ih (j + 1) (by omega) (by omega)).bind _

private theorem must_stores (bs : List Nat) (j i : Nat) (h1 : j ≤ i) (h2 : i < j + bs.length) : Must true i (stores bs j) := by
  induction bs generalizing j with
  | nil => simp at h2; omega
  | cons b bs ih =>
    simp only [List.length_cons] at h2
    by_cases h : i = j
    · exact Or.inl ⟨rfl, h⟩
    · exact Or.inr (ih (j + 1) (by omega) (by omega))

private def Meets (n t : Nat) (s : Bool) (i : Nat) (w : World) : Prop :=
  w.mem.length = n ∧ (∃ K, Within n (fun _ => True) (fun _ => True) K (w.thread t)) ∧ (Must s i (w.thread t) ∨ (t, s, i) ∈ w.log)

private theorem meets_step {n t : Nat} {s : Bool} {i : Nat} {w : World} (h : Meets n t s i w) (u : Nat) : Meets n t s i (w.step u) := by
  obtain ⟨hlen, ⟨K, hw⟩, hm⟩ := h
  unfold World.step
  cases hp : w.thread u with
  | ret o => exact ⟨hlen, ⟨K, hw⟩, hm⟩
  | load j k =>
    dsimp only
    by_cases hu : t = u
    · subst hu
      rw [hp] at hw hm
      cases K with
      | zero => exact hw.elim
      | succ K =>
        rw [List.getElem?_eq_getElem (show j < w.mem.length by rw [hlen]; exact hw.1)]
        refine ⟨hlen, ⟨K, by simpa using hw.2.2 _⟩, ?_⟩
        simp only [if_true]
        rcases hm with (⟨rfl, rfl⟩ | hm) | hm
        · exact Or.inr List.mem_cons_self
        · exact Or.inl (hm _)
        · exact Or.inr (List.mem_cons_of_mem _ hm)
    · cases w.mem[j]? with
      | none => exact ⟨hlen, ⟨K, by simpa [hu] using hw⟩, by simpa [hu] using hm⟩
      | some b => exact ⟨hlen, ⟨K, by simpa [hu] using hw⟩, by simpa [hu] using hm⟩
  | store j b k =>
    dsimp only
    by_cases hu : t = u
    · subst hu
      rw [hp] at hw hm
      cases K with
      | zero => exact hw.elim
      | succ K =>
        rw [if_pos (show j < w.mem.length by rw [hlen]; exact hw.1)]
        refine ⟨by simpa using hlen, ⟨K, by simpa using hw.2.2⟩, ?_⟩
        simp only [if_true]
        rcases hm with (⟨rfl, rfl⟩ | hm) | hm
        · exact Or.inr List.mem_cons_self
        · exact Or.inl hm
        · exact Or.inr (List.mem_cons_of_mem _ hm)
    · by_cases hj : j < w.mem.length
      · rw [if_pos hj]
        exact ⟨by simpa using hlen, ⟨K, by simpa [hu] using hw⟩, by simpa [hu] using hm⟩
      · rw [if_neg hj]
        exact ⟨hlen, ⟨K, by simpa [hu] using hw⟩, by simpa [hu] using hm⟩

private theorem meets_run {n t : Nat} {s : Bool} {i : Nat} (schedule : List Nat) {w : World} (h : Meets n t s i w) :
    Meets n t s i (w.run schedule) := by
  induction schedule generalizing w with
  | nil => exact h
  | cons u schedule ih => exact ih (meets_step h u)

private theorem meets_done (host : Endian) (buf : List Nat) (prog : Nat → List Call) (t : Nat) (hv : ∀ c ∈ prog t, ValuesOk c) {s : Bool}
    {i : Nat} (hm : Must s i (calls host buf.length (prog t))) (schedule : List Nat) {o : Outcome (List (Outcome Res))}
    (ho : ((startThreads host buf prog).run schedule).thread t = .ret o) : (t, s, i) ∈ ((startThreads host buf prog).run schedule).log := by
  obtain ⟨-, -, h⟩ := meets_run schedule (w := startThreads host buf prog) (n := buf.length) (t := t) (s := s) (i := i)
    ⟨rfl, ⟨_, (within_calls host buf.length (prog t) hv).mono (fun _ _ => trivial) (fun _ _ => trivial) (Nat.le_refl _)⟩, Or.inl hm⟩
  rw [ho] at h
  exact h.resolve_left fun h => h

private theorem must_tryWriteAt (host : Endian) (n pos : Nat) (enc : Enc) (o : Obj) (cs : List Call) (hfit : pos + o.length ≤ n)
    (hn : n < sizeMod) {i : Nat} (h1 : pos ≤ i) (h2 : i < pos + o.length) :
    Must true i (calls host n (.tryWriteAt pos (.single enc o) :: cs)) := by
  refine Must.bind _ (Must.attempt (Must.bind _ ?_))
  unfold Threads.tryWriteAt
  have hs : valueSize (.single enc o) = o.length := rfl
  rw [hs, Nat.mod_eq_of_lt (by omega), if_neg (by omega), if_neg (by omega), if_neg (by omega)]
  refine Must.bind _ (Must.bind _ ?_)
  unfold Threads.writeMem
  have e : (bytesOf host enc o).length = o.length := bytesOf_length host enc o
  rw [if_pos (by omega)]
  exact must_stores _ _ _ h1 (by omega)

private theorem must_tryReadAt (host : Endian) (n pos : Nat) (ty : Ty) (cs : List Call) (hfit : pos + ty.size ≤ n)
    (hn : n < sizeMod) {i : Nat} (h1 : pos ≤ i) (h2 : i < pos + ty.size) :
    Must false i (calls host n (.tryReadAt pos ty :: cs)) := by
  refine Must.bind _ (Must.attempt (Must.bind _ ?_))
  unfold Threads.tryReadAt
  rw [Nat.mod_eq_of_lt (by omega), if_neg (by omega), if_neg (by omega), if_neg (by omega)]
  refine Must.bind _ ?_
  unfold Threads.readMem
  rw [if_pos (by omega)]
  exact must_loads _ _ _ h1 (by omega)

/-- Threads have to keep apart: where one writes a value over a byte that another one reads or writes, every run in which both come to their
end has a race for that byte, in whatever order they come to it. -/
theorem c219_overlap (host : Endian) (buf : List Nat) (hn : buf.length < 2 ^ 64) (prog : Nat → List Call) (t u : Nat)
    (hvt : ∀ c ∈ prog t, ValuesOk c) (hvu : ∀ c ∈ prog u, ValuesOk c) (pos : Nat) (enc : Enc) (o : Obj) (cs : List Call)
    (ht : prog t = .tryWriteAt pos (.single enc o) :: cs) (hfit : pos + o.length ≤ buf.length) (i : Nat) (hi : pos ≤ i)
    (hi' : i < pos + o.length) (schedule : List Nat) {a b : Outcome (List (Outcome Res))}
    (ha : ((startThreads host buf prog).run schedule).thread t = .ret a)
    (hb : ((startThreads host buf prog).run schedule).thread u = .ret b) :
    (∀ pos' ty ds, prog u = .tryReadAt pos' ty :: ds → pos' + ty.size ≤ buf.length → pos' ≤ i → i < pos' + ty.size →
      (t, true, i) ∈ ((startThreads host buf prog).run schedule).log ∧ (u, false, i) ∈ ((startThreads host buf prog).run schedule).log) ∧
    ∀ pos' enc' o' ds, prog u = .tryWriteAt pos' (.single enc' o') :: ds → pos' + o'.length ≤ buf.length → pos' ≤ i →
      i < pos' + o'.length →
      (t, true, i) ∈ ((startThreads host buf prog).run schedule).log ∧ (u, true, i) ∈ ((startThreads host buf prog).run schedule).log := by
  have h1 : (t, true, i) ∈ ((startThreads host buf prog).run schedule).log :=
    meets_done host buf prog t hvt (by rw [ht]; exact must_tryWriteAt host _ pos enc o cs hfit hn hi hi') schedule ha
  refine ⟨fun pos' ty ds hu h3 h4 h5 => ⟨h1, ?_⟩, fun pos' enc' o' ds hu h3 h4 h5 => ⟨h1, ?_⟩⟩
  · exact meets_done host buf prog u hvu (by rw [hu]; exact must_tryReadAt host _ pos' ty ds h3 hn h4 h5) schedule hb
  · exact meets_done host buf prog u hvu (by rw [hu]; exact must_tryWriteAt host _ pos' enc' o' ds h3 hn h4 h5) schedule hb

/-! ## A concrete case -/

/-- Two threads: one writes two bytes and reads them back, the other writes a big-endian value behind them and finds no room for another. -/
private def twoThreads : Nat → List Call
  | 0 => [.writeAt 0 [.single .native [1, 2]], .tryReadAt 0 ⟨2, .native⟩]
  | 1 => [.tryWriteAt 2 (.single .bigEndian [3, 4]), .writeAt 3 [.single .native [9, 9]]]
  | _ => []

example : ((startThreads .little [0, 0, 0, 0] twoThreads).run [1, 0, 0, 1, 0, 0, 1, 1, 0]).mem = [1, 2, 4, 3] := by decide +kernel

example : ((startThreads .little [0, 0, 0, 0] twoThreads).run [1, 0, 0, 1, 0, 0, 1, 1, 0]).log =
    [(0, false, 1), (0, false, 0), (1, true, 3), (0, true, 1), (0, true, 0), (1, true, 2)] := by decide +kernel

/-- A reader between the two stores of a writer gets half of the old value and half of the new. -/
example : (match ((startThreads .little [0, 0] fun
      | 0 => [.tryWriteAt 0 (.single .native [1, 2])]
      | 1 => [.tryReadAt 0 ⟨2, .native⟩]
      | _ => []).run [0, 1, 1, 0]).thread 1 with
    | .ret (.ok [.ok (.value (.value o))]) => o
    | _ => []) = [1, 0] := by decide +kernel

end Wite.Props
