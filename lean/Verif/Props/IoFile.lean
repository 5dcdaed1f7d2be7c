import Verif.Model.IoFile

/-!
# Properties C46–C49: files
-/

namespace Wite.Props

open Wite.Io Wite.Io.File

/-- An operating system that opens the files asked for and transfers everything. -/
def CompleteOs (os : Os) (n : Nat) : Prop :=
  os.openWrite = true ∧ os.openRead = true ∧ n ≤ os.accept ∧ n ≤ os.deliver

/-- C46: what was written is read back; the previous content is gone; other files are as
they were. -/
theorem c46_write_then_read (os : Os) (path : Nat) (bytes : List Nat) (fs : Fs)
    (hos : CompleteOs os bytes.length) :
    ∃ fs', (File.write os path bytes).run fs = (.ok ⟨⟩, fs') ∧
      File.read os path none fs' = .ok bytes ∧
      fs' path = some bytes ∧ ∀ p, p ≠ path → fs' p = fs p := by
  obtain ⟨h1, h2, h3, h4⟩ := hos
  refine ⟨(fs.put path []).put path ((bytes.take bytes.length).take os.accept), ?_, ?_, ?_, ?_⟩
  · simp [File.write, writeN, St.run, openWrite, h1, unsafeWrite]
  · simp [File.read, openRead, h2, Fs.put, fileSize, unsafeRead, List.take_of_length_le h3,
      List.take_of_length_le h4]
  · simp [Fs.put, List.take_of_length_le h3]
  · intro p hp; simp [Fs.put, hp]

/-- C46 with an explicit count not exceeding the size: the first `count` bytes are stored. -/
theorem c46_write_count (os : Os) (path count : Nat) (bytes : List Nat) (fs : Fs)
    (hos : CompleteOs os count) (hc : count ≤ bytes.length) :
    ∃ fs', (writeN os path count bytes).run fs = (.ok ⟨⟩, fs') ∧
      (tryWriteN os path count bytes).run fs = (.ok true, fs') ∧
      fs' path = some (bytes.take count) ∧ ∀ p, p ≠ path → fs' p = fs p := by
  obtain ⟨h1, h2, h3, h4⟩ := hos
  refine ⟨(fs.put path []).put path ((bytes.take count).take os.accept), ?_, ?_, ?_, ?_⟩
  · simp [writeN, St.run, openWrite, h1, unsafeWrite, hc]
  · simp [tryWriteN, St.run, openWrite, h1, unsafeWrite, hc]
  · have : min os.accept count = count := by omega
    simp [Fs.put, List.take_take, this]
  · intro p hp; simp [Fs.put, hp]

/-- C46: a path that cannot be opened is reported, and no file is changed. -/
theorem c46_unopenable (os : Os) (path : Nat) (bytes : List Nat) (fs : Fs)
    (hos : os.openWrite = false) :
    (File.write os path bytes).run fs =
      (.throw (.invalidArgument "cannot write to invalid path"), fs) ∧
    (File.tryWrite os path bytes).run fs = (.ok false, fs) := by
  simp [File.write, writeN, File.tryWrite, tryWriteN, St.run, openWrite, hos]

/-- A concrete complete operating system and file system with one file. -/
def goodOs : Os := ⟨true, true, 100, 100⟩
/-- A file system in which file 5 holds three bytes. -/
def oneFile : Fs := fun p => if p = 5 then some [1, 2, 3] else none

example : CompleteOs goodOs 2 := by simp [CompleteOs, goodOs]
example : ((File.write goodOs 5 [7, 8]).run oneFile).2 5 = some [7, 8] := by decide

/-- C47: reading with a count returns the first `min count size` bytes, reading without a
count returns the whole content, provided the operating system delivers what is asked for;
`try_read` shortens the caller's range to the file and fills it, or fills the whole of a
range shorter than the file. -/
theorem c47_read_prefix (os : Os) (path : Nat) (content out : List Nat) (count : Nat) (fs : Fs)
    (hos : CompleteOs os content.length) (hf : fs path = some content) :
    File.read os path (some count) fs = .ok (content.take (min count content.length)) ∧
    File.read os path none fs = .ok content ∧
    File.tryRead os path fs out =
      (.value (min out.length content.length), content.take (min out.length content.length)) := by
  obtain ⟨h1, h2, h3, h4⟩ := hos
  have key : ∀ o : List Nat, o.length ≤ content.length →
      unsafeRead os content o = content.take o.length := by
    intro o ho
    have e1 : min os.deliver o.length = o.length := by omega
    have e2 : min o.length content.length = o.length := by omega
    simp [unsafeRead, List.take_take, e1, e2]
  refine ⟨?_, ?_, ?_⟩
  · simp only [File.read, openRead, h2, hf, if_true, fileSize]
    rw [key _ (by rw [List.length_replicate]; exact Nat.min_le_right _ _)]; simp
  · simp only [File.read, openRead, h2, hf, if_true, fileSize]
    rw [key _ (by simp)]; simp
  · have hfs : fileSize content = content.length := rfl
    simp only [File.tryRead, openRead, h2, hf, if_true]
    rw [hfs]
    by_cases h : content.length < out.length
    · have e : min out.length content.length = content.length := by omega
      have e' : min content.length out.length = content.length := by omega
      rw [if_pos h, key _ (by rw [List.length_take]; omega), e]; simp [e']
    · have e : min out.length content.length = out.length := by omega
      have e' : min out.length content.length = out.length := by omega
      rw [if_neg h, key _ (by omega), e]; simp [e']

/-- C47: a missing file is reported. -/
theorem c47_missing_file (os : Os) (path : Nat) (count : Option Nat) (out : List Nat) (fs : Fs)
    (hf : fs path = none) :
    File.read os path count fs = .throw (.invalidArgument "cannot read invalid path") ∧
    File.tryRead os path fs out = (.error .fileNotFound, out) := by
  by_cases h : os.openRead = true <;> simp [File.read, File.tryRead, openRead, h, hf]

example : File.read goodOs 5 (some 2) oneFile = .ok [1, 2] := by decide
example : File.read goodOs 5 (some 9) oneFile = .ok [1, 2, 3] := by decide
example : File.tryRead goodOs 5 oneFile [0, 0, 0, 0] = (.value 3, [1, 2, 3]) := by decide
example : oneFile 5 = some [1, 2, 3] ∧ CompleteOs goodOs 3 := by simp [oneFile, CompleteOs, goodOs]

/-- C48 is false: whenever the file can be opened but `fwrite` stores fewer bytes than asked for (a full disk, say),
`try_write`, like `write`, reports success with the file cut short. -/
theorem c48_refuted_short_write (os : Os) (hopen : os.openWrite = true) (path : Nat) (bytes : List Nat)
    (hshort : os.accept < bytes.length) (fs : Fs) :
    ∃ fs', (File.tryWrite os path bytes).run fs = (.ok true, fs') ∧
      (File.write os path bytes).run fs = (.ok ⟨⟩, fs') ∧ fs' path ≠ some bytes ∧
      fs' path = some (bytes.take os.accept) := by
  refine ⟨(fs.put path []).put path (bytes.take os.accept), ?_, ?_, ?_, ?_⟩
  · simp [File.tryWrite, tryWriteN, St.run, openWrite, unsafeWrite, hopen]
  · simp [File.write, writeN, St.run, openWrite, unsafeWrite, hopen]
  · intro h
    simp only [Fs.put, if_true, Option.some.injEq] at h
    have := congrArg List.length h
    simp at this; omega
  · simp [Fs.put]

example : (File.tryWrite ⟨true, true, 1, 100⟩ 5 [7, 8]).run oneFile = (.ok true, (oneFile.put 5 []).put 5 [7]) := by
  simp [File.tryWrite, tryWriteN, St.run, openWrite, unsafeWrite]

/-- C48, what does hold: on success the file contains exactly the bytes iff the operating
system accepted all of them, and in any case a prefix of them.  Missing: detection of the
short write. -/
theorem c48_try_write_success_partial (os : Os) (path : Nat) (bytes : List Nat) (fs fs' : Fs)
    (hok : (File.tryWrite os path bytes).run fs = (.ok true, fs')) :
    fs' path = some (bytes.take os.accept) ∧
    (fs' path = some bytes ↔ bytes.length ≤ os.accept) := by
  by_cases h : os.openWrite = true
  · simp [File.tryWrite, tryWriteN, St.run, openWrite, h, unsafeWrite] at hok
    subst hok
    refine ⟨by simp [Fs.put], ?_⟩
    simp only [Fs.put, if_true, Option.some.injEq]
    constructor
    · intro h2
      have := congrArg List.length h2
      simp at this; omega
    · exact List.take_of_length_le
  · simp [File.tryWrite, tryWriteN, St.run, openWrite, h] at hok

example : (File.tryWrite goodOs 5 [7, 8]).run oneFile = (.ok true, (oneFile.put 5 []).put 5 [7, 8]) := by
  simp [File.tryWrite, tryWriteN, St.run, openWrite, goodOs, unsafeWrite]

/-- C49 is false: with any count larger than the buffer, `write` and `try_write` read past its
end, whenever the file can be opened. -/
theorem c49_refuted_count_beyond_buffer (os : Os) (path count : Nat) (bytes : List Nat) (fs : Fs)
    (ho : os.openWrite = true) (hc : bytes.length < count) :
    ((writeN os path count bytes).run fs).1 = .ub ∧ ((tryWriteN os path count bytes).run fs).1 = .ub := by
  have : ¬ count ≤ bytes.length := by omega
  simp [writeN, tryWriteN, St.run, openWrite, ho, unsafeWrite, this]

example : ((writeN goodOs 5 3 [7, 8]).run oneFile).1 = .ub := by decide

/-- C49 when the count does not exceed the buffer: no call reads outside it, whatever the
operating system does.  Missing: counts beyond the buffer, where it is false. -/
theorem c49_no_over_read_partial (os : Os) (path count : Nat) (bytes : List Nat) (fs : Fs)
    (hc : count ≤ bytes.length) :
    ((writeN os path count bytes).run fs).1 ≠ .ub ∧
    ((tryWriteN os path count bytes).run fs).1 ≠ .ub ∧
    ((File.write os path bytes).run fs).1 ≠ .ub ∧
    ((File.tryWrite os path bytes).run fs).1 ≠ .ub := by
  by_cases h : os.openWrite = true <;>
    simp [writeN, tryWriteN, File.write, File.tryWrite, St.run, openWrite, h, unsafeWrite, hc]

/-- C49: the forms with a count have undefined
behaviour exactly when it opens the file with a count beyond the buffer. -/
theorem c49_over_read_iff_partial (os : Os) (path count : Nat) (bytes : List Nat) (fs : Fs) :
    (((writeN os path count bytes).run fs).1 = .ub ↔ os.openWrite = true ∧ bytes.length < count) ∧
    (((tryWriteN os path count bytes).run fs).1 = .ub ↔ os.openWrite = true ∧ bytes.length < count) := by
  by_cases h : os.openWrite = true
  · by_cases hc : count ≤ bytes.length
    · simp [writeN, tryWriteN, St.run, openWrite, h, unsafeWrite, hc]
    · simp [writeN, tryWriteN, St.run, openWrite, h, unsafeWrite, hc]; omega
  · simp [writeN, tryWriteN, St.run, openWrite, h]

/-- C97, what does hold: the first bytes, as many as were delivered, are those of the file,
and the rest is padding (`read`) or what the caller had there before (`try_read`).  Missing:
detection of the short read. -/
theorem c97_read_result_partial (os : Os) (path : Nat) (content out : List Nat) (fs : Fs)
    (ho : os.openRead = true) (hf : fs path = some content) (hout : out.length ≤ content.length) :
    File.read os path none fs =
      .ok (content.take os.deliver ++ List.replicate (content.length - os.deliver) 0) ∧
    File.tryRead os path fs out =
      (.value out.length, content.take (min os.deliver out.length) ++ out.drop os.deliver) := by
  constructor
  · simp [File.read, openRead, ho, hf, fileSize, unsafeRead]
    omega
  · have hfs : fileSize content = content.length := rfl
    simp only [File.tryRead, openRead, ho, hf, if_true]
    rw [hfs, if_neg (by omega)]
    simp only [unsafeRead, List.take_take, List.length_take, List.length_append, List.length_drop]
    have e : min (min os.deliver out.length) content.length = min os.deliver out.length := by omega
    rw [e]
    by_cases h : os.deliver ≤ out.length
    · have e2 : min os.deliver out.length = os.deliver := by omega
      rw [e2]; congr 2; omega
    · have e2 : min os.deliver out.length = out.length := by omega
      rw [e2, List.drop_of_length_le (Nat.le_refl _), List.drop_of_length_le (by omega)]
      simp

example : File.read ⟨true, true, 100, 2⟩ 5 none oneFile = .ok [1, 2, 0] := by decide

/-- C97 is false for every file and every short `fread`: `read` succeeds with bytes that are not the file's unless those
not delivered happen to be zero, and `try_read` unless they happen to be the ones the caller had there before. -/
theorem c97_refuted_short_read (os : Os) (path : Nat) (content out : List Nat) (fs : Fs) (ho : os.openRead = true)
    (hf : fs path = some content) (hout : out.length ≤ content.length) :
    (∃ r, File.read os path none fs = .ok r ∧ (r <+: content ↔ ∀ b ∈ content.drop os.deliver, b = 0)) ∧
    (∃ r, File.tryRead os path fs out = (.value out.length, r) ∧
      (r <+: content ↔ out.drop os.deliver <+: content.drop os.deliver)) := by
  obtain ⟨h1, h2⟩ := c97_read_result_partial os path content out fs ho hf hout
  refine ⟨⟨_, h1, ?_⟩, ⟨_, h2, ?_⟩⟩
  · have cut : ∀ x, content.take os.deliver ++ x <+: content ↔ x <+: content.drop os.deliver := fun x => by
      rw [← List.prefix_append_right_inj (l₂ := content.drop os.deliver) (content.take os.deliver), List.take_append_drop]
    rw [cut]
    constructor
    · intro h b hb
      have e := h.eq_of_length (by simp)
      rw [← e] at hb
      exact List.eq_of_mem_replicate hb
    · intro h
      rw [show content.drop os.deliver = List.replicate (content.length - os.deliver) 0 from
        List.eq_replicate_iff.2 ⟨by simp, h⟩]
      exact List.prefix_rfl
  · by_cases h : os.deliver ≤ out.length
    · rw [show min os.deliver out.length = os.deliver by omega]
      rw [← List.prefix_append_right_inj (l₂ := content.drop os.deliver) (content.take os.deliver), List.take_append_drop]
    · rw [show min os.deliver out.length = out.length by omega, List.drop_of_length_le (l := out) (by omega), List.append_nil]
      exact ⟨fun _ => List.nil_prefix, fun _ => List.take_prefix _ _⟩

example : File.read ⟨true, true, 100, 1⟩ 5 none oneFile = .ok [1, 0, 0] ∧
    File.tryRead ⟨true, true, 100, 1⟩ 5 oneFile [9, 9] = (.value 2, [1, 9]) ∧ oneFile 5 = some [1, 2, 3] := by decide

end Wite.Props
