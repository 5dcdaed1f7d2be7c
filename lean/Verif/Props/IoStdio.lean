import Verif.Lemmas.IoStdio

/-!
# C135-C140: files through C streams
-/

namespace Wite.Props

open Wite.Io Wite.Io.Stdio

theorem stringsOk3 {env : Env} (h : env.StringsOk) :
    env.pathFails 0 = false ∧ env.pathFails 1 = false ∧ env.pathFails 2 = false := ⟨h 0, h 1, h 2⟩

theorem done_same (s : Sys) (fs : Fs) : SameHandles s (s.done fs) := ⟨rfl, rfl⟩

theorem fresh_next {s : Sys} (h : s.Fresh) : s.opened s.next = none := h _ (Nat.le_refl _)

theorem sizeSeen_sizable {env : Env} {p : Path} {c : List Nat} (h : env.Sizable p c) (pos : Nat) :
    sizeSeen env p c.length pos = c.length := by
  obtain ⟨h1, h2, h3⟩ := h
  have : c.length < 2 ^ 64 := by omega
  simp only [sizeSeen, h1, h2, if_true]
  exact Nat.mod_eq_of_lt this

theorem canOpen_content {env : Env} {p : Path} {s : Sys} (h : CanOpen env .read p s) :
    ∃ c, s.fs p = some c := Option.isSome_iff_exists.mp (h.2.2 rfl)

theorem read_no_path {env : Env} {path : Path} {count : Option Nat} {s : Sys}
    (h : env.pathFails 0 = true ∨ env.pathFails 1 = true) :
    (read env path count).run s = (.throw .badAlloc, s) := by
  unfold Stdio.read
  rcases h with h | h <;> simp [h]

theorem read_no_path2 {env : Env} {path : Path} {count : Option Nat} {s : Sys}
    (h0 : env.pathFails 0 = false) (h1 : env.pathFails 1 = false) (h2 : env.pathFails 2 = true) :
    (read env path count).run s = (.terminate, s) := by
  unfold Stdio.read getReadFilePointer getFilePointer
  simp only [h0, h1, h2, Bool.or_self, Bool.false_eq_true, if_false, if_true]
  rfl

theorem tryRead_no_path {env : Env} {path : Path} {out : Range} {s : Sys}
    (h : env.pathFails 0 = true ∨ env.pathFails 1 = true ∨ env.pathFails 2 = true) :
    (tryRead env path out).run s = (.terminate, s) := by
  unfold Stdio.tryRead getReadFilePointer getFilePointer
  by_cases h0 : (env.pathFails 0 || env.pathFails 1) = true
  · simp [h0]
  · have h2 : env.pathFails 2 = true := by
      simp only [Bool.or_eq_true, not_or] at h0
      tauto
    simp only [h0, h2, if_true]
    rfl

/-! ## C135: handles -/

/-- A small system for the examples: `long` goes up to 100, at most 2 handles, room for 4 bytes, every file may
be opened, file `[7]` is a pipe. -/
def tiny : Env where
  longMax := 100
  maxOpen := 2
  room := 4
  may := fun _ _ => true
  seekable := fun p => p ≠ [7]
  seekFar := true
  accept := 1000
  deliver := 1000
  pathFails := fun _ => false

/-- Its files: `[1]` has three bytes, `[2]` six, `[7]` two, `[8]` a hundred and one. -/
def tinySys : Sys where
  fs := fun p => if p = [1] then some [10, 11, 12] else if p = [2] then some [1, 2, 3, 4, 5, 6]
    else if p = [7] then some [20, 21] else if p = [8] then some (List.replicate 101 9) else none
  opened := fun _ => none
  used := 0
  next := 0

theorem tinySys_fresh : tinySys.Fresh := fun _ _ => rfl


theorem keeps_writeN (env : Env) (path : Path) (count : Nat) (r : Range) (s : Sys) (hf : s.Fresh) :
    KeepsHandles (writeN env path count r) s ∧ KeepsHandles (tryWriteN env path count r) s := by
  by_cases hp : env.pathFails 0 = true
  · obtain ⟨h1, h2⟩ := write_no_path (path := path) (s := s) hp count r
    exact ⟨fun _ => by rw [h1]; exact ⟨rfl, rfl⟩, fun _ => by rw [h2]; exact ⟨rfl, rfl⟩⟩
  · have hp' : env.pathFails 0 = false := by simpa using hp
    by_cases ho : CanOpen env .write (cString path) s
    · by_cases hn : count ≤ r.data.length
      · exact ⟨fun _ => by rw [writeN_open (fresh_next hf) hp' ho hn]; exact done_same _ _,
          fun _ => by rw [tryWriteN_open (fresh_next hf) hp' ho hn]; exact done_same _ _⟩
      · obtain ⟨h1, h2⟩ := writeN_over hp' ho hn
        constructor <;> intro h
        · rw [h1] at h; rcases h with ⟨a, h⟩ | ⟨e, h⟩ <;> exact absurd h (by simp)
        · rw [h2] at h; rcases h with ⟨a, h⟩ | ⟨e, h⟩ <;> exact absurd h (by simp)
    · obtain ⟨h1, h2, -, -⟩ := write_closed hp' ho count r
      exact ⟨fun _ => by rw [h1]; exact ⟨rfl, rfl⟩, fun _ => by rw [h2]; exact ⟨rfl, rfl⟩⟩

/-- C135 for the functions that write and for `try_read`: however the call ends, unless the program is
terminated or the call is undefined, the same handles are open as before, whatever the system does. -/
theorem c135_others_partial (env : Env) (path : Path) (count : Nat) (r : Range) (s : Sys) (hf : s.Fresh) :
    KeepsHandles (tryRead env path r) s ∧
    KeepsHandles (writeN env path count r) s ∧ KeepsHandles (write env path r) s ∧
    KeepsHandles (tryWriteN env path count r) s ∧ KeepsHandles (tryWrite env path r) s := by
  refine ⟨fun _ => ?_, (keeps_writeN env path count r s hf).1, ?_, (keeps_writeN env path count r s hf).2, ?_⟩
  · by_cases hp : env.pathFails 0 = true ∨ env.pathFails 1 = true ∨ env.pathFails 2 = true
    · rw [tryRead_no_path hp]; exact ⟨rfl, rfl⟩
    · simp only [not_or, Bool.not_eq_true] at hp
      by_cases ho : CanOpen env .read (cString path) s
      · obtain ⟨c, hc⟩ := canOpen_content ho
        rw [tryRead_open (fresh_next hf) hp ho hc]
        exact done_same _ _
      · rw [tryRead_closed hp ho]; exact ⟨rfl, rfl⟩
  · rw [write_eq]; exact (keeps_writeN env path r.elems r s hf).1
  · rw [tryWrite_eq]; exact (keeps_writeN env path r.elems r s hf).2

example : ((tryWrite tiny [3] ⟨2, 1, [5, 6]⟩).run tinySys).1 = .ok true ∧
    ((tryWrite tiny [3] ⟨2, 1, [5, 6]⟩).run tinySys).2.used = 0 ∧
    ((tryWrite tiny [3] ⟨2, 1, [5, 6]⟩).run tinySys).2.fs [3] = some [5, 6] := by decide

/-- C135 for `read`: if it returns, or reports that the file cannot be opened, the same handles are open as
before. -/
theorem c135_read_partial (env : Env) (path : Path) (count : Option Nat) (s : Sys) (hf : s.Fresh)
    (hend : (∃ a, ((read env path count).run s).1 = .ok a) ∨
      ∃ m, ((read env path count).run s).1 = .throw (.invalidArgument m)) :
    SameHandles s ((read env path count).run s).2 := by
  by_cases hp : env.pathFails 0 = true ∨ env.pathFails 1 = true
  · rw [read_no_path hp]; exact ⟨rfl, rfl⟩
  · simp only [not_or, Bool.not_eq_true] at hp
    by_cases hp2 : env.pathFails 2 = true
    · rw [read_no_path2 hp.1 hp.2 hp2]; exact ⟨rfl, rfl⟩
    · simp only [Bool.not_eq_true] at hp2
      have hp3 := And.intro hp.1 (And.intro hp.2 hp2)
      by_cases ho : CanOpen env .read (cString path) s
      · obtain ⟨c, hc⟩ := canOpen_content ho
        rw [read_open (fresh_next hf) hp3 ho hc] at hend ⊢
        simp only at hend ⊢
        split at hend
        · rcases hend with ⟨a, h⟩ | ⟨m, h⟩ <;> exact absurd h (by simp)
        · split at hend
          · rcases hend with ⟨a, h⟩ | ⟨m, h⟩ <;> exact absurd h (by simp)
          · rename_i h1 h2
            rw [if_neg h1, if_neg h2]
            exact done_same _ _
      · rw [read_closed hp3 ho]; exact ⟨rfl, rfl⟩

example : ((read tiny [1] none).run tinySys).1 = .ok [10, 11, 12] ∧
    ((read tiny [1] none).run tinySys).2.used = 0 := by decide
example : ((read tiny [3] none).run tinySys).1 = .throw (.invalidArgument "cannot read invalid path") := by
  decide

/-- C135 for `read` of a file whose size can be told: a handle stays open exactly if there is no memory for
the bytes wanted. -/
theorem c135_read_iff_partial (env : Env) (path : Path) (count : Option Nat) (s : Sys) (c : List Nat)
    (hf : s.Fresh) (hs : env.StringsOk) (ho : CanOpen env .read (cString path) s)
    (hc : s.fs (cString path) = some c) (hz : env.Sizable (cString path) c) :
    SameHandles s ((read env path count).run s).2 ↔
      min (count.getD c.length) c.length ≤ env.room := by
  have hw : wanted count c.length < 2 ^ 63 := by
    have := hz.2.2
    cases count <;> simp only [wanted] <;> omega
  have hz0 := sizeSeen_sizable hz 0
  have hm : min (count.getD c.length) c.length = wanted count c.length := by
    cases count <;> simp [wanted]
  rw [hm]
  by_cases hr : env.room < wanted count c.length
  · rw [read_open_room (fresh_next hf) (stringsOk3 hs) ho hc (by rw [hz0]; exact hw) (by rw [hz0]; exact hr)]
    constructor
    · intro h
      have := h.2
      simp [Sys.afterOpen] at this
    · intro h; omega
  · rw [read_open_ok (fresh_next hf) (stringsOk3 hs) ho hc (by rw [hz0]) hw (by omega)]
    exact ⟨fun _ => by omega, fun _ => done_same _ _⟩

example : ((read tiny [2] (some 4)).run tinySys).2.used = 0 ∧
    ((read tiny [2] (some 5)).run tinySys).2.used = 1 := by decide

/-- C135 is false: for every file that can be opened and is too large for the memory, `read` throws
`std::bad_alloc` and the handle it has opened stays open. -/
theorem c135_refuted_leak (env : Env) (path : Path) (s : Sys) (c : List Nat)
    (hf : s.Fresh) (hs : env.StringsOk) (ho : CanOpen env .read (cString path) s)
    (hc : s.fs (cString path) = some c) (hz : env.Sizable (cString path) c) (hbig : env.room < c.length) :
    ((read env path none).run s).1 = .throw .badAlloc ∧
    ((read env path none).run s).2.opened s.next = some ⟨cString path, 0, .read⟩ ∧
    ((read env path none).run s).2.used = s.used + 1 ∧
    ((read env path none).run s).2.fs = s.fs := by
  have hz0 := sizeSeen_sizable hz 0
  rw [read_open_room (fresh_next hf) (stringsOk3 hs) ho hc (by rw [hz0]; exact hz.2.2) (by rw [hz0]; exact hbig)]
  simp [Sys.afterOpen]

example : ((read tiny [2] none).run tinySys).1 = .throw .badAlloc ∧
    ((read tiny [2] none).run tinySys).2.used = 1 := by decide

theorem afterOpen_fresh {s : Sys} (hf : s.Fresh) (mode : Mode) (p : Path) : (s.afterOpen mode p).Fresh := by
  intro i hi
  simp only [Sys.afterOpen] at hi ⊢
  rw [if_neg (by omega)]
  exact hf i (by omega)

/-- C135 is false: a program that keeps trying to read a file too large for the memory, catching the
exception, soon cannot open any file: every `try_write` returns false, every `write` and `read` of any file
reports an invalid path, every `try_read` reports that the file is missing. -/
theorem c135_refuted_exhausted (env : Env) (path : Path) (s : Sys) (c : List Nat)
    (hf : s.Fresh) (hs : env.StringsOk) (hu : s.used ≤ env.maxOpen)
    (hmay : env.may .read (cString path) = true)
    (hc : s.fs (cString path) = some c) (hz : env.Sizable (cString path) c) (hbig : env.room < c.length) :
    ∃ s', St.history (fun _ : Unit => read env path none) (List.replicate (env.maxOpen - s.used) ()) s = some s' ∧
      s'.fs = s.fs ∧
      ∀ (p : Path) (r : Range) (count : Option Nat),
        (tryWrite env p r).run s' = (.ok false, s') ∧
        (write env p r).run s' = (.throw (.invalidArgument "cannot write to invalid path"), s') ∧
        (read env p count).run s' = (.throw (.invalidArgument "cannot read invalid path"), s') ∧
        (tryRead env p r).run s' = (.ok (.error .fileNotFound, r), s') := by
  obtain ⟨n, hn⟩ : ∃ n, n = env.maxOpen - s.used := ⟨_, rfl⟩
  rw [← hn]
  induction n generalizing s with
  | zero =>
    refine ⟨s, rfl, rfl, fun p r count => ?_⟩
    have hno : ∀ mode q, ¬ CanOpen env mode q s := fun mode q h => by
      have := h.1
      omega
    obtain ⟨-, -, h3, h4⟩ := write_closed (hs 0) (hno .write (cString p)) 0 r
    exact ⟨h4, h3, read_closed (stringsOk3 hs) (hno .read _), tryRead_closed (stringsOk3 hs) (hno .read _)⟩
  | succ n ih =>
    have ho : CanOpen env .read (cString path) s := ⟨by omega, hmay, fun _ => by rw [hc]; rfl⟩
    have hz0 := sizeSeen_sizable hz 0
    have hrun := read_open_room (count := none) (fresh_next hf) (stringsOk3 hs) ho hc
      (by rw [hz0]; exact hz.2.2) (by rw [hz0]; exact hbig)
    obtain ⟨s', h1, h2, h3⟩ := ih (s.afterOpen .read (cString path)) (afterOpen_fresh hf _ _)
      (by have := ho.1; simp only [Sys.afterOpen]; omega) (by simpa [Sys.afterOpen] using hc)
      (by simp only [Sys.afterOpen]; omega)
    refine ⟨s', ?_, by simpa [Sys.afterOpen] using h2, h3⟩
    rw [List.replicate_succ]
    simp only [St.history]
    have hrun' : (read env path none) s = (.throw .badAlloc, s.afterOpen .read (cString path)) := hrun
    rw [hrun']
    exact h1

example : ∃ s', St.history (fun _ : Unit => read tiny [2] none) [(), ()] tinySys = some s' ∧
    ((read tiny [1] none).run s').1 = .throw (.invalidArgument "cannot read invalid path") := by
  obtain ⟨s', h, -, h2⟩ := c135_refuted_exhausted tiny [2] tinySys [1, 2, 3, 4, 5, 6] tinySys_fresh
    (fun _ => rfl) (by decide) rfl rfl (by unfold Env.Sizable; decide) (by decide)
  exact ⟨s', h, by rw [(h2 [1] ⟨0, 1, []⟩ none).2.2.1]⟩

/-! ## C136: files whose size cannot be told -/

/-- C136 for files whose size `ftell` can say, when there is memory and the system delivers what is asked
for: `read` returns the whole content or the prefix asked for, `try_read` fills the range with the beginning
of the file, shortening it if the file is shorter. -/
theorem c136_partial (env : Env) (path : Path) (s : Sys) (c : List Nat) (k : Nat) (out : Range)
    (hf : s.Fresh) (hs : env.StringsOk) (ho : CanOpen env .read (cString path) s)
    (hc : s.fs (cString path) = some c) (hz : env.Sizable (cString path) c)
    (hr : c.length ≤ env.room) (hd : c.length ≤ env.deliver) (hout : out.Ok) (hw : out.width = 1) :
    ((read env path none).run s).1 = .ok c ∧
    ((read env path (some k)).run s).1 = .ok (c.take k) ∧
    ((tryRead env path out).run s).1 =
      .ok (.value (min out.elems c.length), ⟨min out.elems c.length, 1, c.take out.elems⟩) := by
  obtain ⟨-, hdl⟩ := hout
  rw [hw, Nat.mul_one] at hdl
  have hz3 := hz.2.2
  refine ⟨?_, ?_, ?_⟩
  · rw [read_open_ok (fresh_next hf) (stringsOk3 hs) ho hc (n := c.length)
      (by rw [sizeSeen_sizable hz]; rfl) hz3 hr]
    simp [List.take_of_length_le hd]
  · rw [read_open_ok (fresh_next hf) (stringsOk3 hs) ho hc (n := min k c.length)
      (by rw [sizeSeen_sizable hz]; rfl) (by omega) (by omega)]
    have : (c.take (min k c.length)).take env.deliver = c.take k := by
      rw [List.take_take]
      by_cases hk : k ≤ c.length
      · congr 1; omega
      · rw [List.take_of_length_le (by omega), List.take_of_length_le (by omega)]
    simp [this]
  · rw [tryRead_open (fresh_next hf) (stringsOk3 hs) ho hc, sizeSeen_sizable hz]
    simp only
    by_cases hl : c.length < out.elems
    · simp only [hl, if_true, Range.shrink, hw, Nat.mul_one]
      rw [List.take_of_length_le (Nat.le_refl _), List.take_of_length_le hd,
        List.take_of_length_le (Nat.le_of_lt hl)]
      have : min out.elems c.length = c.length := by omega
      rw [this, List.drop_eq_nil_of_le (by simp), List.append_nil]
    · simp only [hl, if_false]
      have h1 : (c.take out.elems).take env.deliver = c.take out.elems :=
        List.take_of_length_le (by simp; omega)
      rw [h1, List.drop_eq_nil_of_le (by simp; omega), List.append_nil, hw]
      have : min out.elems c.length = out.elems := by omega
      rw [this]

example : ((tryRead tiny [1] ⟨5, 1, [0, 0, 0, 0, 0]⟩).run tinySys).1 =
    .ok (.value 3, ⟨3, 1, [10, 11, 12]⟩) := by decide
example : ((tryRead tiny [1] ⟨2, 1, [0, 0]⟩).run tinySys).1 = .ok (.value 2, ⟨2, 1, [10, 11]⟩) := by decide

/-- C136 is false: every file longer than a `long` can say (2 GiB where `long` has 32 bits), on a system that
can go to the end of it, makes `read` throw `std::length_error`, however much memory there is, and the handle
stays open. -/
theorem c136_refuted_large_throws (env : Env) (path : Path) (s : Sys) (c : List Nat)
    (hf : s.Fresh) (hs : env.StringsOk) (ho : CanOpen env .read (cString path) s)
    (hc : s.fs (cString path) = some c) (hl : env.longMax < c.length) (hfar : env.seekFar = true)
    (hseek : env.seekable (cString path) = true) :
    ((read env path none).run s).1 =
      .throw (.lengthError "cannot create std::vector larger than max_size()") ∧
    ((read env path none).run s).2.used = s.used + 1 := by
  have hz : sizeSeen env (cString path) c.length 0 = 2 ^ 64 - 1 := by
    simp [sizeSeen, hseek, hfar, show ¬ c.length ≤ env.longMax by omega]
  rw [read_open_huge (fresh_next hf) (stringsOk3 hs) ho hc (by rw [hz, wanted]; decide)]
  exact ⟨rfl, rfl⟩

example : ((read { tiny with room := 1000 } [8] none).run tinySys).1 =
    .throw (.lengthError "cannot create std::vector larger than max_size()") := by decide +kernel

/-- C136 is false: where `fseek` refuses to go further than a `long` can say, `read` of every such file
returns no bytes at all, and `try_read` empties the caller's range and reports success. -/
theorem c136_refuted_large_empty (env : Env) (path : Path) (s : Sys) (c : List Nat) (count : Option Nat)
    (out : Range)
    (hf : s.Fresh) (hs : env.StringsOk) (ho : CanOpen env .read (cString path) s)
    (hc : s.fs (cString path) = some c) (hl : env.longMax < c.length) (hfar : env.seekFar = false)
    (hseek : env.seekable (cString path) = true) :
    c ≠ [] ∧ ((read env path count).run s).1 = .ok [] ∧
    (0 < out.elems → ((tryRead env path out).run s).1 = .ok (.value 0, ⟨0, out.width, []⟩)) := by
  have hz : sizeSeen env (cString path) c.length 0 = 0 := by
    simp [sizeSeen, hseek, hfar, show ¬ c.length ≤ env.longMax by omega]
  refine ⟨by rintro rfl; simp at hl, ?_, ?_⟩
  · rw [read_open_ok (fresh_next hf) (stringsOk3 hs) ho hc (n := 0)
      (by rw [hz]; cases count <;> simp [wanted]) (by decide) (by omega)]
    simp
  · intro he
    rw [tryRead_open (fresh_next hf) (stringsOk3 hs) ho hc, hz]
    simp [he, Range.shrink]

example : ((read { tiny with room := 1000, seekFar := false } [8] none).run tinySys).1 = .ok [] := by
  decide +kernel

/-- C136 is false: a file that cannot be positioned (a pipe, a terminal) makes `read` throw
`std::length_error`, and the handle stays open. -/
theorem c136_refuted_pipe (env : Env) (path : Path) (s : Sys) (c : List Nat)
    (hf : s.Fresh) (hs : env.StringsOk) (ho : CanOpen env .read (cString path) s)
    (hc : s.fs (cString path) = some c) (hseek : env.seekable (cString path) = false) :
    ((read env path none).run s).1 =
      .throw (.lengthError "cannot create std::vector larger than max_size()") ∧
    ((read env path none).run s).2.used = s.used + 1 := by
  have hz : sizeSeen env (cString path) c.length 0 = 2 ^ 64 - 1 := by simp [sizeSeen, hseek]
  rw [read_open_huge (fresh_next hf) (stringsOk3 hs) ho hc (by rw [hz, wanted]; decide)]
  exact ⟨rfl, rfl⟩

example : ((read tiny [7] none).run tinySys).1 =
    .throw (.lengthError "cannot create std::vector larger than max_size()") ∧
    ((read tiny [7] none).run tinySys).2.used = 1 := by decide +kernel

/-- What `read` with a count and `try_read` do with such a file: they deliver what there is, and if that is
less than asked for, the rest is zero bytes or what the range held before, reported as read. -/
theorem c136_pipe_partial (env : Env) (path : Path) (s : Sys) (c : List Nat) (k : Nat) (out : Range)
    (hf : s.Fresh) (hs : env.StringsOk) (ho : CanOpen env .read (cString path) s)
    (hc : s.fs (cString path) = some c) (hseek : env.seekable (cString path) = false)
    (hk : k ≤ env.room) (hk2 : k < 2 ^ 63) (hd : c.length ≤ env.deliver)
    (hout : out.Ok) (hw : out.width = 1) (hsz : out.elems < 2 ^ 64) :
    ((read env path (some k)).run s).1 = .ok (c.take k ++ List.replicate (k - c.length) 0) ∧
    ((tryRead env path out).run s).1 =
      .ok (.value out.elems, ⟨out.elems, 1, c.take out.elems ++ out.data.drop c.length⟩) := by
  obtain ⟨-, hdl⟩ := hout
  rw [hw, Nat.mul_one] at hdl
  have hz : sizeSeen env (cString path) c.length 0 = 2 ^ 64 - 1 := by simp [sizeSeen, hseek]
  have htk : ∀ n, (c.take n).take env.deliver = c.take n := fun n =>
    List.take_of_length_le (by simp; omega)
  constructor
  · rw [read_open_ok (fresh_next hf) (stringsOk3 hs) ho hc (n := k)
      (by rw [hz]; exact Nat.min_eq_left (by omega)) hk2 hk]
    simp only [htk, List.length_take]
    congr 3
    omega
  · rw [tryRead_open (fresh_next hf) (stringsOk3 hs) ho hc, hz]
    simp only
    rw [if_neg (by omega)]
    simp only [htk, List.length_take, hw]
    congr 4
    by_cases h : c.length ≤ out.elems
    · congr 1; omega
    · rw [List.drop_eq_nil_of_le (by omega), List.drop_eq_nil_of_le (by omega)]

example : ((read tiny [7] (some 1)).run tinySys).1 = .ok [20] := by decide +kernel

/-- C136 is false: `try_read` from a file that cannot be positioned reports the size of the caller's range
although the file has fewer bytes, and `read` with a count returns bytes that are not in the file. -/
theorem c136_refuted_short_pipe (env : Env) (path : Path) (s : Sys) (c : List Nat) (k : Nat) (out : Range)
    (hf : s.Fresh) (hs : env.StringsOk) (ho : CanOpen env .read (cString path) s)
    (hc : s.fs (cString path) = some c) (hseek : env.seekable (cString path) = false)
    (hk : k ≤ env.room) (hk2 : k < 2 ^ 63) (hd : c.length ≤ env.deliver)
    (hout : out.Ok) (hw : out.width = 1) (hsz : out.elems < 2 ^ 64)
    (hshort : c.length < k) (hshort2 : c.length < out.elems) :
    (∃ r, ((read env path (some k)).run s).1 = .ok r ∧ r.length = k ∧ ¬ r <+: c) ∧
    (∃ r, ((tryRead env path out).run s).1 = .ok (.value out.elems, r) ∧ ¬ r.data <+: c) := by
  obtain ⟨h1, h2⟩ := c136_pipe_partial env path s c k out hf hs ho hc hseek hk hk2 hd hout hw hsz
  obtain ⟨-, hdl⟩ := hout
  rw [hw, Nat.mul_one] at hdl
  refine ⟨⟨_, h1, by simp; omega, fun hp => ?_⟩, ⟨_, h2, fun hp => ?_⟩⟩
  · have := hp.length_le
    simp at this; omega
  · have := hp.length_le
    simp at this; omega

example : ((read tiny [7] (some 4)).run tinySys).1 = .ok [20, 21, 0, 0] ∧
    ((tryRead tiny [7] ⟨3, 1, [1, 2, 3]⟩).run tinySys).1 = .ok (.value 3, ⟨3, 1, [20, 21, 3]⟩) := by
  decide +kernel

/-! ## C137: ranges whose elements are wider than a byte -/

/-- C137 for ranges of bytes: when the system accepts everything, the file holds exactly the bytes of the range
afterwards, and no other file has changed. -/
theorem c137_write_partial (env : Env) (path : Path) (s : Sys) (r : Range)
    (hf : s.Fresh) (hs : env.StringsOk) (ho : CanOpen env .write (cString path) s)
    (hok : r.Ok) (hw : r.width = 1) (ha : r.data.length ≤ env.accept) :
    ∃ s', (write env path r).run s = (.ok (), s') ∧ (tryWrite env path r).run s = (.ok true, s') ∧
      s'.fs (cString path) = some r.data ∧ ∀ q, q ≠ cString path → s'.fs q = s.fs q := by
  obtain ⟨-, hdl⟩ := hok
  rw [hw, Nat.mul_one] at hdl
  refine ⟨_, writeN_open (fresh_next hf) (hs 0) ho (by omega),
    tryWriteN_open (fresh_next hf) (hs 0) ho (by omega), ?_, ?_⟩
  · simp only [Sys.done, Fs.put, if_true]
    rw [List.take_of_length_le (l := r.data) (by omega), List.take_of_length_le ha]
  · intro q hq
    simp [Sys.done, Fs.put, hq]

/-- C137 for ranges of bytes: what was written is what `read` and `try_read` give back. -/
theorem c137_round_trip_partial (env : Env) (path : Path) (s : Sys) (r out : Range)
    (hf : s.Fresh) (hs : env.StringsOk) (ho : CanOpen env .write (cString path) s)
    (hmay : env.may .read (cString path) = true)
    (hok : r.Ok) (hw : r.width = 1) (ha : r.data.length ≤ env.accept) (hd : r.data.length ≤ env.deliver)
    (hz : env.Sizable (cString path) r.data) (hroom : r.data.length ≤ env.room)
    (hout : out.Ok) (hw2 : out.width = 1) (hsame : out.elems = r.elems) :
    ∃ s', (write env path r).run s = (.ok (), s') ∧
      ((read env path none).run s').1 = .ok r.data ∧
      ((tryRead env path out).run s').1 = .ok (.value r.elems, r) := by
  have hdl := hok.2
  rw [hw, Nat.mul_one] at hdl
  have hput : (r.data.take r.elems).take env.accept = r.data := by
    rw [List.take_of_length_le (l := r.data) (by omega), List.take_of_length_le (by omega)]
  refine ⟨_, writeN_open (fresh_next hf) (hs 0) ho (by omega), ?_⟩
  rw [hput]
  have hf' : (s.done (s.fs.put (cString path) r.data)).Fresh := fun i hi => hf i (by
    simp only [Sys.done] at hi; omega)
  have hc' : (s.done (s.fs.put (cString path) r.data)).fs (cString path) = some r.data := by
    simp [Sys.done, Fs.put]
  have ho' : CanOpen env .read (cString path) (s.done (s.fs.put (cString path) r.data)) :=
    ⟨ho.1, hmay, fun _ => by rw [hc']; rfl⟩
  obtain ⟨h1, -, h3⟩ := c136_partial env path _ r.data 0 out hf' hs ho' hc' hz hroom hd hout hw2
  refine ⟨h1, ?_⟩
  rw [h3]
  have h4 : min out.elems r.data.length = r.elems := by omega
  have h5 : r.data.take out.elems = r.data := List.take_of_length_le (by omega)
  rw [h4, h5, ← hw]

example : ((read tiny [1] none).run ((write tiny [1] ⟨2, 1, [8, 9]⟩).run tinySys).2).1 = .ok [8, 9] := by
  decide +kernel

/-- C137 is false for every range with elements wider than a byte (a `std::vector<std::uint32_t>`, a
`std::wstring`) unless it is empty: `write` returns normally and `try_write` reports success, but only as many
bytes are in the file as the range has elements. -/
theorem c137_refuted_write (env : Env) (path : Path) (s : Sys) (r : Range)
    (hf : s.Fresh) (hs : env.StringsOk) (ho : CanOpen env .write (cString path) s)
    (hok : r.Ok) (hw : 1 < r.width) (hne : 0 < r.elems) (ha : r.data.length ≤ env.accept) :
    ∃ s', (write env path r).run s = (.ok (), s') ∧ (tryWrite env path r).run s = (.ok true, s') ∧
      s'.fs (cString path) = some (r.data.take r.elems) ∧ r.data.take r.elems ≠ r.data := by
  obtain ⟨-, hdl⟩ := hok
  have hlt : r.elems < r.data.length := by
    rw [hdl]
    calc r.elems = r.elems * 1 := (Nat.mul_one _).symm
      _ < r.elems * r.width := Nat.mul_lt_mul_of_pos_left hw hne
  refine ⟨_, writeN_open (fresh_next hf) (hs 0) ho (by omega),
    tryWriteN_open (fresh_next hf) (hs 0) ho (by omega), ?_, ?_⟩
  · simp only [Sys.done, Fs.put, if_true]
    rw [List.take_of_length_le (l := r.data.take r.elems) (by simp; omega)]
  · intro h
    have := congrArg List.length h
    simp at this; omega

example : ((tryWrite tiny [3] ⟨2, 4, [1, 0, 0, 0, 2, 0, 0, 0]⟩).run tinySys).1 = .ok true ∧
    ((tryWrite tiny [3] ⟨2, 4, [1, 0, 0, 0, 2, 0, 0, 0]⟩).run tinySys).2.fs [3] = some [1, 0] := by
  decide +kernel

/-- C137 is false: `try_read` into a range of wider elements, from a file that has enough bytes for all of
it, reports the full size but fills only as many bytes as the range has elements; the others keep what they
held. -/
theorem c137_refuted_read (env : Env) (path : Path) (s : Sys) (c : List Nat) (out : Range)
    (hf : s.Fresh) (hs : env.StringsOk) (ho : CanOpen env .read (cString path) s)
    (hc : s.fs (cString path) = some c) (hz : env.Sizable (cString path) c)
    (hd : c.length ≤ env.deliver) (hout : out.Ok) (hw : 1 < out.width) (hne : 0 < out.elems)
    (henough : out.data.length ≤ c.length) :
    ((tryRead env path out).run s).1 =
      .ok (.value out.elems, { out with data := c.take out.elems ++ out.data.drop out.elems }) ∧
    out.elems < out.data.length := by
  obtain ⟨-, hdl⟩ := hout
  have hlt : out.elems < out.data.length := by
    rw [hdl]
    calc out.elems = out.elems * 1 := (Nat.mul_one _).symm
      _ < out.elems * out.width := Nat.mul_lt_mul_of_pos_left hw hne
  refine ⟨?_, hlt⟩
  rw [tryRead_open (fresh_next hf) (stringsOk3 hs) ho hc, sizeSeen_sizable hz]
  simp only
  rw [if_neg (by omega)]
  have h1 : (c.take out.elems).take env.deliver = c.take out.elems :=
    List.take_of_length_le (by simp; omega)
  have h2 : (c.take out.elems).length = out.elems := by simp; omega
  rw [h1, h2]

example : ((tryRead tiny [2] ⟨3, 2, [0, 0, 0, 0, 0, 0]⟩).run tinySys).1 =
    .ok (.value 3, ⟨3, 2, [1, 2, 3, 0, 0, 0]⟩) := by decide +kernel

/-- C137 is false: `try_read` into a range with more elements than the file has bytes resizes it to as many
elements as the file has bytes, of which only the bytes of the file are filled. -/
theorem c137_refuted_shrunk (env : Env) (path : Path) (s : Sys) (c : List Nat) (out : Range)
    (hf : s.Fresh) (hs : env.StringsOk) (ho : CanOpen env .read (cString path) s)
    (hc : s.fs (cString path) = some c) (hz : env.Sizable (cString path) c)
    (hd : c.length ≤ env.deliver) (hout : out.Ok) (hshort : c.length < out.elems) :
    ∃ r', ((tryRead env path out).run s).1 = .ok (.value c.length, r') ∧ r'.Ok ∧ r'.elems = c.length ∧
      r'.width = out.width ∧ r'.data.take c.length = c ∧
      r'.data.drop c.length = (out.data.drop c.length).take (c.length * (out.width - 1)) := by
  obtain ⟨hw, hdl⟩ := hout
  have hmul : c.length * out.width = c.length + c.length * (out.width - 1) := by
    obtain ⟨k, hk⟩ : ∃ k, out.width = k + 1 := ⟨out.width - 1, by omega⟩
    rw [hk]; simp [Nat.mul_add, Nat.add_comm]
  have hle : c.length * out.width ≤ out.data.length := by
    rw [hdl]; exact Nat.mul_le_mul_right _ (by omega)
  rw [tryRead_open (fresh_next hf) (stringsOk3 hs) ho hc, sizeSeen_sizable hz]
  simp only
  rw [if_pos hshort]
  simp only [Range.shrink]
  have h1 : (c.take c.length).take env.deliver = c := by rw [List.take_length]; exact List.take_of_length_le hd
  rw [h1]
  refine ⟨_, rfl, ⟨hw, ?_⟩, rfl, rfl, by simp, ?_⟩
  · simp; omega
  · simp only [List.drop_left, List.drop_take]
    congr 1
    omega

example : ((tryRead tiny [2] ⟨8, 2, List.replicate 16 9⟩).run tinySys).1 =
    .ok (.value 6, ⟨6, 2, [1, 2, 3, 4, 5, 6, 9, 9, 9, 9, 9, 9]⟩) := by decide +kernel

/-- C137 is false: writing a range of wider elements and reading it into a range of as many elements gives back
only the first bytes; what follows is what the range held before. -/
theorem c137_refuted_round_trip (env : Env) (path : Path) (s : Sys) (r out : Range)
    (hf : s.Fresh) (hs : env.StringsOk) (ho : CanOpen env .write (cString path) s)
    (hmay : env.may .read (cString path) = true)
    (hok : r.Ok) (hsame : out.elems = r.elems)
    (ha : r.data.length ≤ env.accept) (hd : r.data.length ≤ env.deliver)
    (hz : env.Sizable (cString path) r.data) (hdiff : out.data.drop r.elems ≠ r.data.drop r.elems) :
    ∃ s', (write env path r).run s = (.ok (), s') ∧
      ∃ r', ((tryRead env path out).run s').1 = .ok (.value r.elems, r') ∧
        r'.data = r.data.take r.elems ++ out.data.drop r.elems ∧ r'.data ≠ r.data := by
  have hdl := hok.2
  have hle : r.elems ≤ r.data.length := by
    rw [hdl]
    exact Nat.le_mul_of_pos_right _ hok.1
  have hput : (r.data.take r.elems).take env.accept = r.data.take r.elems :=
    List.take_of_length_le (by simp; omega)
  refine ⟨_, writeN_open (fresh_next hf) (hs 0) ho hle, ?_⟩
  rw [hput]
  have hf' : (s.done (s.fs.put (cString path) (r.data.take r.elems))).Fresh := fun i hi => hf i (by
    simp only [Sys.done] at hi; omega)
  have hc' : (s.done (s.fs.put (cString path) (r.data.take r.elems))).fs (cString path) =
      some (r.data.take r.elems) := by
    simp [Sys.done, Fs.put]
  have ho' : CanOpen env .read (cString path) (s.done (s.fs.put (cString path) (r.data.take r.elems))) :=
    ⟨ho.1, hmay, fun _ => by rw [hc']; rfl⟩
  have hlen : (r.data.take r.elems).length = r.elems := by simp; omega
  have hz' : env.Sizable (cString path) (r.data.take r.elems) := by
    refine ⟨hz.1, ?_, ?_⟩
    · rw [hlen]; have := hz.2.1; omega
    · rw [hlen]; have := hz.2.2; omega
  refine ⟨⟨out.elems, out.width, r.data.take r.elems ++ out.data.drop r.elems⟩, ?_, rfl, ?_⟩
  · rw [tryRead_open (fresh_next hf') (stringsOk3 hs) ho' hc', sizeSeen_sizable hz']
    simp only
    rw [if_neg (by omega)]
    have h1 : ((r.data.take r.elems).take out.elems).take env.deliver = r.data.take r.elems := by
      rw [hsame, List.take_take (i := r.elems) (j := r.elems), Nat.min_self]
      exact List.take_of_length_le (by simp; omega)
    rw [h1, hlen, hsame]
  · simp only
    intro h
    apply hdiff
    have := congrArg (List.drop r.elems) h
    rw [List.drop_append_of_le_length (by omega), List.drop_eq_nil_of_le (by omega), List.nil_append] at this
    exact this

example : ((tryRead tiny [3] ⟨2, 2, [0, 0, 0, 0]⟩).run ((write tiny [3] ⟨2, 2, [1, 2, 3, 4]⟩).run tinySys).2).1 =
    .ok (.value 2, ⟨2, 2, [1, 2, 0, 0]⟩) := by decide +kernel

/-! ## C138: paths with a NUL character -/

/-- C138 is false: every function that writes treats a path with a NUL character as the part before it: the
file of that name is emptied and overwritten. -/
theorem c138_refuted_write (env : Env) (a b : Path) (count : Nat) (r : Range) (h : 0 ∉ a) :
    writeN env (a ++ 0 :: b) count r = writeN env a count r ∧ write env (a ++ 0 :: b) r = write env a r ∧
    tryWriteN env (a ++ 0 :: b) count r = tryWriteN env a count r ∧
    tryWrite env (a ++ 0 :: b) r = tryWrite env a r ∧
    ∀ s : Sys, s.Fresh → env.StringsOk → CanOpen env .write a s → r.Ok → r.width = 1 →
      r.data.length ≤ env.accept →
      ∃ s', (tryWrite env (a ++ 0 :: b) r).run s = (.ok true, s') ∧ s'.fs a = some r.data := by
  have e := cString_append_nul a b h
  have e2 := cString_of_no_nul h
  have hg : ∀ k, getWriteFilePointer env k (a ++ 0 :: b) = getWriteFilePointer env k a := fun k => by
    simp [getWriteFilePointer, getFilePointer, e, e2]
  refine ⟨by simp [writeN, hg], by simp [Stdio.write, hg], by simp [tryWriteN, hg], by simp [Stdio.tryWrite, hg], ?_⟩
  intro s hf hs ho hok hw ha
  obtain ⟨s', -, h2, h3, -⟩ := c137_write_partial env (a ++ 0 :: b) s r hf hs (by rw [e]; exact ho) hok hw ha
  rw [e] at h3
  exact ⟨s', h2, h3⟩

example : ((write tiny [1, 0, 5] ⟨1, 1, [8]⟩).run tinySys).2.fs [1] = some [8] := by decide +kernel

/-- C138 is false: `read` and `try_read` return the content of the file named by the part before the NUL. -/
theorem c138_refuted_read (env : Env) (a b : Path) (count : Option Nat) (out : Range) (h : 0 ∉ a) :
    read env (a ++ 0 :: b) count = read env a count ∧ tryRead env (a ++ 0 :: b) out = tryRead env a out := by
  have e := cString_append_nul a b h
  have e2 := cString_of_no_nul h
  exact ⟨by simp [Stdio.read, e, e2], by simp [Stdio.tryRead, e, e2]⟩

example : ((read tiny [1, 0, 5] none).run tinySys).1 = .ok [10, 11, 12] := by decide +kernel

/-- C138 for paths without NUL characters: a call that writes changes no file but the one named. -/
theorem c138_partial (env : Env) (path : Path) (count : Nat) (r : Range) (s : Sys) (hf : s.Fresh)
    (h : 0 ∉ path) (q : Path) (hq : q ≠ path) :
    (((writeN env path count r).run s).1 ≠ .ub → ((writeN env path count r).run s).2.fs q = s.fs q) ∧
    (((tryWriteN env path count r).run s).1 ≠ .ub → ((tryWriteN env path count r).run s).2.fs q = s.fs q) ∧
    (((write env path r).run s).1 ≠ .ub → ((write env path r).run s).2.fs q = s.fs q) ∧
    (((tryWrite env path r).run s).1 ≠ .ub → ((tryWrite env path r).run s).2.fs q = s.fs q) := by
  have key : ∀ count, (((writeN env path count r).run s).1 ≠ .ub →
        ((writeN env path count r).run s).2.fs q = s.fs q) ∧
      (((tryWriteN env path count r).run s).1 ≠ .ub →
        ((tryWriteN env path count r).run s).2.fs q = s.fs q) := by
    intro count
    have e := cString_of_no_nul h
    by_cases hp : env.pathFails 0 = true
    · obtain ⟨h1, h2⟩ := write_no_path (path := path) (s := s) hp count r
      rw [h1, h2]; simp
    · have hp' : env.pathFails 0 = false := by simpa using hp
      by_cases ho : CanOpen env .write (cString path) s
      · by_cases hn : count ≤ r.data.length
        · rw [writeN_open (fresh_next hf) hp' ho hn, tryWriteN_open (fresh_next hf) hp' ho hn, e]
          simp [Sys.done, Fs.put, hq]
        · obtain ⟨h1, h2⟩ := writeN_over hp' ho hn
          rw [h1, h2]; simp
      · obtain ⟨h1, h2, -, -⟩ := write_closed hp' ho count r
        rw [h1, h2]; simp
  exact ⟨(key count).1, (key count).2, (key r.elems).1, (key r.elems).2⟩

example : ((write tiny [3] ⟨1, 1, [8]⟩).run tinySys).2.fs [1] = some [10, 11, 12] := by decide +kernel

/-! ## C139: the functions on handles -/

/-- C139: `file_size` of a file whose size and position a `long` can say is its length, wherever the handle
stands, and leaves everything as it was. -/
theorem c139_file_size_partial (env : Env) (id : Nat) (s : Sys) (h : Handle) (c : List Nat)
    (ho : s.opened id = some h) (hc : s.fs h.path = some c) (hz : env.Sizable h.path c)
    (hp : h.pos ≤ env.longMax) :
    (fileSize env id).run s = (.ok c.length, s) := by
  rw [fileSize_run env ho hc, sizeSeen_sizable hz]
  have : posAfter env h.path c.length h.pos = h.pos := by simp [posAfter, hp]
  rw [this, moveTo_self ho]

example : ((fileSize tiny 0).run { tinySys with opened := fun _ => some ⟨[2], 4, .read⟩ }).1 = .ok 6 := by
  decide +kernel

/-- C139 is false: a handle standing further than a `long` can say is moved to the end of the file by
`file_size`, which returns 2^64 - 1. -/
theorem c139_refuted_file_size (env : Env) (id : Nat) (s : Sys) (h : Handle) (c : List Nat)
    (ho : s.opened id = some h) (hc : s.fs h.path = some c) (hseek : env.seekable h.path = true)
    (hfar : env.seekFar = true) (hp : env.longMax < h.pos) (hin : h.pos < c.length) :
    ∃ s', (fileSize env id).run s = (.ok (2 ^ 64 - 1), s') ∧
      s'.opened id = some { h with pos := c.length } ∧ s'.opened id ≠ s.opened id := by
  have h1 : ¬ c.length ≤ env.longMax := by omega
  have h2 : ¬ h.pos ≤ env.longMax := by omega
  refine ⟨s.moveTo id h (posAfter env h.path c.length h.pos), ?_, ?_, ?_⟩
  · rw [fileSize_run env ho hc]
    have : sizeSeen env h.path c.length h.pos = 2 ^ 64 - 1 := by simp [sizeSeen, hseek, h1, hfar]
    rw [this]
  · simp [posAfter, hseek, h2, hfar]
  · rw [ho]
    simp only [posAfter, hseek, h2, hfar, moveTo_opened]
    simp only [not_false_eq_true, or_true, and_self, if_true]
    intro hh
    have := congrArg Handle.pos (Option.some.inj hh)
    simp at this; omega

example : ((fileSize { tiny with longMax := 3 } 0).run { tinySys with opened := fun _ => some ⟨[2], 4, .read⟩ }).2.opened 0
    = some ⟨[2], 6, .read⟩ := by decide +kernel

/-- C139 is false: a file that cannot be positioned has 2^64 - 1 bytes according to `file_size`. -/
theorem c139_refuted_unseekable (env : Env) (id : Nat) (s : Sys) (h : Handle) (c : List Nat)
    (ho : s.opened id = some h) (hc : s.fs h.path = some c) (hseek : env.seekable h.path = false) :
    (fileSize env id).run s = (.ok (2 ^ 64 - 1), s) := by
  rw [fileSize_run env ho hc]
  have h1 : sizeSeen env h.path c.length h.pos = 2 ^ 64 - 1 := by simp [sizeSeen, hseek]
  have h2 : posAfter env h.path c.length h.pos = h.pos := by simp [posAfter, hseek]
  rw [h1, h2, moveTo_self ho]

example : ((fileSize tiny 0).run { tinySys with opened := fun _ => some ⟨[7], 0, .read⟩ }).1 =
    .ok 18446744073709551615 := by decide +kernel

/-- C139: pieces read one after another from a handle are the file's bytes from where the handle stood,
and the handle stands behind them afterwards; no file changes. -/
theorem c139_reads_partial (env : Env) (id : Nat) (ns : List Nat) (s : Sys) (h : Handle) (c : List Nat)
    (ho : s.opened id = some h) (hc : s.fs h.path = some c) (hm : h.mode = .read)
    (hd : c.length ≤ env.deliver) (hfit : h.pos + ns.sum ≤ c.length) :
    ∃ s', (readPieces env id ns).run s = (.ok ((c.drop h.pos).take ns.sum), s') ∧ s'.fs = s.fs ∧
      s'.opened id = some { h with pos := h.pos + ns.sum } ∧ ∀ j, j ≠ id → s'.opened j = s.opened j := by
  induction ns generalizing s h with
  | nil => exact ⟨s, by simp [readPieces], rfl, by simp [ho], fun _ _ => rfl⟩
  | cons n ns ih =>
    simp only [List.sum_cons] at hfit
    have hg : gotten env h c n = (c.drop h.pos).take n := by
      simp only [gotten, hm, if_true]
      exact List.take_of_length_le (by simp; omega)
    have hgl : ((c.drop h.pos).take n).length = n := by simp; omega
    obtain ⟨s', h1, h2, h3, h4⟩ := ih (s.moveTo id h (h.pos + n)) { h with pos := h.pos + n }
      (moveTo_opened _ _ _ _) hc hm (by simp only; omega)
    refine ⟨s', ?_, h2, ?_, ?_⟩
    · simp only [readPieces]
      rw [St.run_bind, unsafeRead_run env ho hc]
      simp only [hg, hgl]
      rw [St.run_bind, h1]
      simp only [St.run_pure]
      congr 2
      rw [List.drop_eq_nil_of_le (as := List.replicate n 0) (by simp), List.append_nil, List.sum_cons, List.take_add, List.drop_drop]
    · rw [h3]
      simp [Nat.add_assoc]
    · intro j hj
      rw [h4 j hj]
      simp [Sys.moveTo, hj]

example : ((readPieces tiny 0 [2, 1, 2]).run { tinySys with opened := fun _ => some ⟨[2], 1, .read⟩ }).1 =
    .ok [2, 3, 4, 5, 6] := by decide +kernel

theorem overwrite_end (c bs : List Nat) : overwrite c c.length bs = c ++ bs := by
  unfold overwrite
  by_cases h : bs = []
  · simp [h]
  · simp [h]

/-- C139: a buffer written anywhere in a file replaces the bytes it covers and no others; a gap before it is
filled with zeros. -/
theorem c139_write_at_partial (env : Env) (id : Nat) (b : List Nat) (s : Sys) (h : Handle) (c : List Nat)
    (ho : s.opened id = some h) (hc : s.fs h.path = some c) (hm : h.mode = .write) (hne : b ≠ [])
    (ha : b.length ≤ env.accept) :
    ∃ s' c', (unsafeWrite env id b.length ⟨b.length, 1, b⟩).run s = (.ok (), s') ∧ s'.fs h.path = some c' ∧
      (∀ q, q ≠ h.path → s'.fs q = s.fs q) ∧ c'.length = max c.length (h.pos + b.length) ∧
      (∀ i, i < b.length → c'[h.pos + i]? = b[i]?) ∧
      (∀ i, i < h.pos → i < c.length → c'[i]? = c[i]?) ∧
      (∀ i, i < h.pos → c.length ≤ i → c'[i]? = some 0) ∧
      (∀ i, h.pos + b.length ≤ i → c'[i]? = c[i]?) := by
  have hrun := unsafeWrite_run env ho hc hm b.length ⟨b.length, 1, b⟩ (Nat.le_refl _)
  simp only [List.take_length, List.take_of_length_le ha] at hrun
  refine ⟨_, overwrite c h.pos b, hrun, by simp [Fs.put], fun q hq => by simp [Fs.put, hq], ?_, ?_, ?_, ?_, ?_⟩
  all_goals simp only [overwrite, hne, if_false]
  · simp; omega
  · intro i hi
    rw [List.getElem?_append_left (by simp; omega), List.getElem?_append_right (by simp; omega)]
    congr 1
    simp; omega
  · intro i hi hic
    rw [List.append_assoc, List.append_assoc, List.getElem?_append_left (by simp; omega), List.getElem?_take]
    simp [hi]
  · intro i hi hic
    rw [List.append_assoc, List.getElem?_append_left (by simp; omega), List.getElem?_append_right (by simp; omega)]
    rw [List.getElem?_replicate]
    simp; omega
  · intro i hi
    by_cases hl : h.pos ≤ c.length
    · rw [List.getElem?_append_right (by simp; omega), List.getElem?_drop]
      congr 1
      simp; omega
    · rw [List.getElem?_eq_none (by simp; omega), List.getElem?_eq_none (by omega)]

example :
    ((unsafeWrite tiny 0 2 ⟨2, 1, [8, 9]⟩).run { tinySys with opened := fun _ => some ⟨[2], 3, .write⟩ }).2.fs [2] =
      some [1, 2, 3, 8, 9, 6] ∧
    ((unsafeWrite tiny 0 2 ⟨2, 1, [8, 9]⟩).run { tinySys with opened := fun _ => some ⟨[2], 7, .write⟩ }).2.fs [2] =
      some [1, 2, 3, 4, 5, 6, 0, 8, 9] := by decide +kernel

/-- C139: buffers written one after another to a handle standing at the end of its file are appended, and no
other file changes. -/
theorem c139_writes_partial (env : Env) (id : Nat) (bs : List (List Nat)) (s : Sys) (h : Handle) (c : List Nat)
    (ho : s.opened id = some h) (hc : s.fs h.path = some c) (hm : h.mode = .write)
    (hpos : h.pos = c.length) (ha : ∀ b ∈ bs, b.length ≤ env.accept) :
    ∃ s', (writePieces env id bs).run s = (.ok (), s') ∧ s'.fs h.path = some (c ++ bs.flatten) ∧
      (∀ q, q ≠ h.path → s'.fs q = s.fs q) ∧
      s'.opened id = some { h with pos := c.length + bs.flatten.length } ∧
      ∀ j, j ≠ id → s'.opened j = s.opened j := by
  induction bs generalizing s h c with
  | nil => exact ⟨s, by simp [writePieces], by simp [hc], fun _ _ => rfl, by simp [ho, ← hpos], fun _ _ => rfl⟩
  | cons b bs ih =>
    have hb : b.take env.accept = b := List.take_of_length_le (ha b (by simp))
    have hrun := unsafeWrite_run env ho hc hm b.length ⟨b.length, 1, b⟩ (Nat.le_refl _)
    simp only [List.take_length, hb] at hrun
    obtain ⟨s', h1, h2, h3, h4, h5⟩ := ih
      { s.moveTo id h (h.pos + b.length) with fs := s.fs.put h.path (overwrite c h.pos b) }
      { h with pos := h.pos + b.length } (c ++ b) (moveTo_opened _ _ _ _)
      (by simp [Fs.put, hpos, overwrite_end]) hm (by simp [hpos]) (fun b' hb' => ha b' (by simp [hb']))
    refine ⟨s', ?_, ?_, ?_, ?_, ?_⟩
    · simp only [writePieces]
      rw [St.run_bind, hrun]
      exact h1
    · rw [h2]; simp
    · intro q hq
      rw [h3 q hq]
      simp [Fs.put, hq]
    · rw [h4]
      simp [Nat.add_assoc]
    · intro j hj
      rw [h5 j hj]
      simp [Sys.moveTo, hj]

example : ((writePieces tiny 0 [[7], [8, 9]]).run
    { tinySys with opened := fun _ => some ⟨[1], 3, .write⟩ }).2.fs [1] = some [10, 11, 12, 7, 8, 9] := by
  decide +kernel

/-! ## C140: no memory for the path -/

/-- C140 is false for the functions that write: if the string for `fopen` cannot be allocated the program is
terminated, by `write`, which reports other failures by exceptions, as by `try_write`. -/
theorem c140_refuted_write (env : Env) (path : Path) (count : Nat) (r : Range) (s : Sys)
    (h : env.pathFails 0 = true) :
    ((writeN env path count r).run s).1 = .terminate ∧ ((write env path r).run s).1 = .terminate ∧
    ((tryWriteN env path count r).run s).1 = .terminate ∧ ((tryWrite env path r).run s).1 = .terminate := by
  obtain ⟨h1, h2⟩ := write_no_path (path := path) (s := s) h count r
  obtain ⟨h3, h4⟩ := write_no_path (path := path) (s := s) h r.elems r
  rw [h1, h2, write_eq, tryWrite_eq, h3, h4]
  exact ⟨rfl, rfl, rfl, rfl⟩

example : ((write { tiny with pathFails := fun k => k = 0 } [3] ⟨1, 1, [8]⟩).run tinySys).1 = .terminate := by
  decide +kernel

/-- C140 is false for `try_read` and `read`: `try_read` terminates the program whichever of the three strings
made from the path fails, `read` if it is the last. -/
theorem c140_refuted_read (env : Env) (path : Path) (count : Option Nat) (out : Range) (s : Sys) :
    (env.pathFails 0 = true ∨ env.pathFails 1 = true ∨ env.pathFails 2 = true →
      ((tryRead env path out).run s).1 = .terminate) ∧
    (env.pathFails 0 = false → env.pathFails 1 = false → env.pathFails 2 = true →
      ((read env path count).run s).1 = .terminate) :=
  ⟨fun h => by rw [tryRead_no_path h], fun h0 h1 h2 => by rw [read_no_path2 h0 h1 h2]⟩

example : ((read { tiny with pathFails := fun k => k = 2 } [1] none).run tinySys).1 = .terminate := by
  decide +kernel

/-- C140 for `read` when one of the first two strings fails: `std::bad_alloc`, and nothing has changed. -/
theorem c140_read_partial (env : Env) (path : Path) (count : Option Nat) (s : Sys)
    (h : env.pathFails 0 = true ∨ env.pathFails 1 = true) :
    (read env path count).run s = (.throw .badAlloc, s) := read_no_path h

example : ((read { tiny with pathFails := fun k => k = 1 } [1] none).run tinySys).1 = .throw .badAlloc := by
  decide +kernel

end Wite.Props
