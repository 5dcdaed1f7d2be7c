import Verif.Model.FileNames
import Verif.Lemmas.Hex
import Verif.Lemmas.Io
import Verif.Lemmas.UuidPrint

/-!
# Property C202: a file can be named by anything a path can be made of
-/

namespace Wite.Props

open Wite Wite.Io Wite.Spec Wite.FileNames

namespace Naming

/-- The name is a string or a string view. -/
def Text (n : Name) : Prop := n.form = .string ∨ n.form = .view

/-- The characters can be overwritten with bytes: a `std::string` or `std::u8string` that is not `const`. -/
def Writable (n : Name) : Prop := n.form = .string ∧ n.isConst = false ∧ n.width = 1

/-- A function for buffers that takes as many arguments is known by the same name. -/
def Namesake (h : Headers) : Fn → Prop
  | .read => h.bufferRead = true
  | .readN => False
  | .tryRead _ => False
  | _ => h.bufferWrite = true

/-- The functions for files accept the data: contiguous, and for `try_read` a variable that can be resized. -/
def GoodData : Fn → Prop
  | .read => True
  | .readN => True
  | .tryRead d => d.contiguous = true ∧ d.resizable = true ∧ d.arg.lvalue = true ∧ d.arg.isConst = false
  | .write d => d.contiguous = true
  | .writeN d => d.contiguous = true
  | .tryWrite d => d.contiguous = true
  | .tryWriteN d => d.contiguous = true

/-- A vector or an array of bytes or other one-byte integers. -/
def Bytes (d : Data) : Prop :=
  d.arg.ty = .vector (.int false) ∨ d.arg.ty = .array (.int false) ∨ d.arg.ty = .vector .pod ∨ d.arg.ty = .array .pod

end Naming

open Naming

private theorem rangeLike_iff (n : Name) : n.rangeLike = true ↔ Text n := by
  unfold Name.rangeLike Text
  cases n.form <;> simp

private theorem takes_iff (h : Headers) (n : Name) (f : Fn) : bufferTakes h n f = true ↔ Text n ∧ Namesake h f := by
  cases f <;> simp [bufferTakes, Namesake, rangeLike_iff, and_comm]

/-- C202, what holds: the file is found by the name unless the name is a string or a string view and a function for buffers is known by the same name and takes
as many arguments.  Missing: those names, for which it is false. -/
theorem c202_partial (h : Headers) (n : Name) (f : Fn) (hd : GoodData f) (hn : ¬(Text n ∧ Namesake h f)) : resolve h n f = .file := by
  rw [resolve, if_neg (by rw [takes_iff]; exact hn)]
  cases f <;> simp_all [fileTakes, fileBody, GoodData]

/-- C202, in particular: paths, literals and pointers name a file whatever is included; so do all names if only byte_buffer_file.hpp is; and in calls of `read` with
a count and of `try_read` they always do. -/
theorem c202_cases_partial (h : Headers) (n : Name) (f : Fn) (hd : GoodData f)
    (hc : n.form = .path ∨ n.form = .array ∨ n.form = .pointer ∨ h = ⟨false, false⟩ ∨ f = .readN ∨ ∃ d, f = .tryRead d) :
    resolve h n f = .file := by
  apply c202_partial h n f hd
  rintro ⟨ht, hs⟩
  rcases hc with e | e | e | e | e | ⟨d, e⟩
  · rcases ht with g | g <;> rw [e] at g <;> cases g
  · rcases ht with g | g <;> rw [e] at g <;> cases g
  · rcases ht with g | g <;> rw [e] at g <;> cases g
  · subst e; cases f <;> simp [Namesake] at hs
  · subst e; exact hs
  · subst e; exact hs

/-- C202, what a call that finds the file does: what the functions for files do with that file, and the name stays as it is. -/
theorem c202_effect_partial (h : Headers) (n : Name) (d : Data) (host : Endian) (os : File.Os) (pathOf : List Nat → Nat) (k count : Nat) (bytes : List Nat)
    (w : World) (hd : d.contiguous = true) (hn : ¬(Text n ∧ h.bufferWrite = true)) :
    (∃ x, run h n (.write d) host os pathOf k count bytes = some x ∧ (x.run w).2.name = w.name ∧
      (x.run w).2.fs = ((File.write.{0} os (pathOf w.name) bytes).run w.fs).2) ∧
    (∃ x, run h n (.writeN d) host os pathOf k count bytes = some x ∧ (x.run w).2.name = w.name ∧
      (x.run w).2.fs = ((File.writeN.{0} os (pathOf w.name) count bytes).run w.fs).2) ∧
    (∃ x, run h n (.tryWrite d) host os pathOf k count bytes = some x ∧ (x.run w).2.name = w.name ∧
      (x.run w).2.fs = ((File.tryWrite os (pathOf w.name) bytes).run w.fs).2) ∧
    (∃ x, run h n (.tryWriteN d) host os pathOf k count bytes = some x ∧ (x.run w).2.name = w.name ∧
      (x.run w).2.fs = ((File.tryWriteN os (pathOf w.name) count bytes).run w.fs).2) := by
  have e1 : resolve h n (.write d) = .file := c202_partial h n _ hd hn
  have e2 : resolve h n (.writeN d) = .file := c202_partial h n _ hd hn
  have e3 : resolve h n (.tryWrite d) = .file := c202_partial h n _ hd hn
  have e4 : resolve h n (.tryWriteN d) = .file := c202_partial h n _ hd hn
  unfold run
  rw [e1, e2, e3, e4]
  exact ⟨⟨_, rfl, rfl, rfl⟩, ⟨_, rfl, rfl, rfl⟩, ⟨_, rfl, rfl, rfl⟩, ⟨_, rfl, rfl, rfl⟩⟩

private theorem buffer_of {h : Headers} {n : Name} {f : Fn} (ht : Text n) (hs : Namesake h f) (hb : bufferBody n f = true) : resolve h n f = .buffer := by
  rw [resolve, if_pos ((takes_iff h n f).mpr ⟨ht, hs⟩), if_pos hb]

private theorem writable_buf {n : Name} (hw : Writable n) : n.asBuffer = ⟨.owner, false, 1⟩ := by
  obtain ⟨h1, h2, h3⟩ := hw
  rw [Name.asBuffer, h1, h2, h3]; rfl

private theorem bodies {n : Name} {d : Data} (hw : Writable n) (hb : Bytes d) :
    bufferBody n (.write d) = true ∧ bufferBody n (.writeN d) = true ∧ bufferBody n (.tryWrite d) = true ∧ bufferBody n (.tryWriteN d) = true := by
  simp only [bufferBody, writable_buf hw]
  obtain ⟨⟨ty, c, l⟩, cont, rs⟩ := d
  rcases hb with e | e | e | e <;> (simp only at e; subst e; cases c <;> cases l <;> exact ⟨by rfl, by rfl, by rfl, by rfl⟩)

private theorem bytesVal_good {bytes : List Nat} (hb : ∀ b ∈ bytes, IsByte b) : GoodVal (bytesVal bytes) := by
  intro o ho
  obtain ⟨b, hm, rfl⟩ := List.mem_map.mp ho
  exact ⟨rfl, fun x hx => by rw [List.mem_singleton.mp hx]; exact hb b hm⟩

private theorem bytesVal_size (bytes : List Nat) : sizeOfVal (bytesVal bytes) = bytes.length := by
  simp [bytesVal, sizeOfVal]

private theorem bytesVal_encode (host : Endian) (bytes : List Nat) : encodeVal host (bytesVal bytes) = bytes := by
  simp only [bytesVal, encodeVal]
  induction bytes with
  | nil => rfl
  | cons b bs ih => simp [ih]

private theorem obj_length (host : Endian) (k v : Nat) : (intObject host k v).length = k := by
  cases host <;> simp [intObject, beBytes, Wite.Hex.leBytes_length]

private theorem obj_good (host : Endian) (k v : Nat) : GoodVal (.single .native (intObject host k v)) := by
  intro b hb
  cases host
  · exact Wite.Hex.leBytes_lt k v b hb
  · exact Wite.Hex.leBytes_lt k v b (List.mem_reverse.mp hb)

private theorem over_zero (name bs : List Nat) : overwrite name 0 bs = bs ++ name.drop bs.length := by simp [overwrite]

/-- C202 fails for every `std::string` that is not `const`, also for temporaries, as soon as byte_buffer_write.hpp is included: `write` takes the string itself for the
buffer.  No file is touched; the bytes replace the first characters of the name, and the call throws if there are more bytes than characters. -/
theorem c202_refuted_write (h : Headers) (n : Name) (d : Data) (host : Endian) (os : File.Os) (pathOf : List Nat → Nat) (k count : Nat) (bytes : List Nat)
    (w : World) (hh : h.bufferWrite = true) (hw : Writable n) (hd : Bytes d) (hb : ∀ b ∈ bytes, IsByte b) (hl : bytes.length < 2 ^ 64) :
    ∃ x, run h n (.write d) host os pathOf k count bytes = some x ∧
      x.run w = if bytes.length ≤ w.name.length then (.ok (.size bytes.length), ⟨w.fs, bytes ++ w.name.drop bytes.length⟩)
        else (.throw (.outOfRange "Insufficient buffer space for write"), w) := by
  have e : resolve h n (.write d) = .buffer := buffer_of (Or.inl hw.1) hh (bodies hw hd).1
  refine ⟨onName .size (Io.write host [bytesVal bytes]), by unfold run; rw [e], ?_⟩
  have hg : ∀ v ∈ [bytesVal bytes], GoodVal v := fun v hv => by rw [List.mem_singleton.mp hv]; exact bytesVal_good hb
  have hsz : totalSize [bytesVal bytes] = bytes.length := by simp [totalSize, bytesVal_size]
  have hen : encodeAll host [bytesVal bytes] = bytes := by simp [encodeAll, bytesVal_encode]
  have hx := write_eq (host := host) (vs := [bytesVal bytes]) (buf := w.name) hg (by rw [hsz]; exact hl)
  rw [hsz, hen, over_zero] at hx
  show (Ret.size <$> ((Io.write host [bytesVal bytes]).run w.name).1, World.mk w.fs ((Io.write host [bytesVal bytes]).run w.name).2) = _
  rw [hx]
  by_cases hc : bytes.length ≤ w.name.length
  · rw [if_neg (by omega), if_pos hc]; rfl
  · rw [if_pos (by omega), if_neg hc]; rfl

/-- C202 fails for `try_write` in the same way, and there the result says that it went well whenever the name has at least as many characters as there are bytes. -/
theorem c202_refuted_try_write (h : Headers) (n : Name) (d : Data) (host : Endian) (os : File.Os) (pathOf : List Nat → Nat) (k count : Nat)
    (bytes : List Nat) (w : World) (hh : h.bufferWrite = true) (hw : Writable n) (hd : Bytes d) (hb : ∀ b ∈ bytes, IsByte b)
    (hl : bytes.length < 2 ^ 64) :
    ∃ x, run h n (.tryWrite d) host os pathOf k count bytes = some x ∧
      x.run w = if bytes.length ≤ w.name.length then (.ok (.result (.value bytes.length)), ⟨w.fs, bytes ++ w.name.drop bytes.length⟩)
        else (.ok (.result (.error .insufficientBuffer)), w) := by
  have e : resolve h n (.tryWrite d) = .buffer := buffer_of (Or.inl hw.1) hh (bodies hw hd).2.2.1
  refine ⟨onName .result (Io.tryWrite host [bytesVal bytes]), by unfold run; rw [e], ?_⟩
  have hg : ∀ v ∈ [bytesVal bytes], GoodVal v := fun v hv => by rw [List.mem_singleton.mp hv]; exact bytesVal_good hb
  have hsz : totalSize [bytesVal bytes] = bytes.length := by simp [totalSize, bytesVal_size]
  have hen : encodeAll host [bytesVal bytes] = bytes := by simp [encodeAll, bytesVal_encode]
  have hx := recursiveTryWrite_eq (host := host) [bytesVal bytes] 0 w.name hg (by rw [hsz]; exact hl) (by omega)
  rw [hsz, hen, over_zero w.name bytes, Nat.zero_add] at hx
  show (Ret.result <$> ((recursiveTryWrite host 0 [bytesVal bytes]).run w.name).1,
    World.mk w.fs ((recursiveTryWrite host 0 [bytesVal bytes]).run w.name).2) = _
  rw [hx]
  by_cases hc : bytes.length ≤ w.name.length
  · rw [if_neg (by omega), if_pos hc]; rfl
  · rw [if_pos (by omega), if_neg hc]
    have : leadingFit (w.name.length - 0) [bytesVal bytes] = [] := by
      simp [leadingFit, bytesVal_size]; omega
    rw [this]; simp [encodeAll, over_zero]

/-- C202 fails for the forms with a count, where the count is written into the name too, in front of all the bytes. -/
theorem c202_refuted_count (h : Headers) (n : Name) (d : Data) (host : Endian) (os : File.Os) (pathOf : List Nat → Nat) (k count : Nat)
    (bytes : List Nat) (w : World) (hh : h.bufferWrite = true) (hw : Writable n) (hd : Bytes d) (hb : ∀ b ∈ bytes, IsByte b)
    (hl : k + bytes.length < 2 ^ 64) :
    (∃ x, run h n (.writeN d) host os pathOf k count bytes = some x ∧
      x.run w = if k + bytes.length ≤ w.name.length then
          (.ok (.size (k + bytes.length)), ⟨w.fs, intObject host k count ++ bytes ++ w.name.drop (k + bytes.length)⟩)
        else (.throw (.outOfRange "Insufficient buffer space for write"), w)) ∧
    (∃ x, run h n (.tryWriteN d) host os pathOf k count bytes = some x ∧
      x.run w = if k + bytes.length ≤ w.name.length then
          (.ok (.result (.value (k + bytes.length))), ⟨w.fs, intObject host k count ++ bytes ++ w.name.drop (k + bytes.length)⟩)
        else (.ok (.result (.error .insufficientBuffer)), ⟨w.fs, if k ≤ w.name.length then intObject host k count ++ w.name.drop k else w.name⟩)) := by
  have e1 : resolve h n (.writeN d) = .buffer := buffer_of (Or.inl hw.1) hh (bodies hw hd).2.1
  have e2 : resolve h n (.tryWriteN d) = .buffer := buffer_of (Or.inl hw.1) hh (bodies hw hd).2.2.2
  have hg : ∀ v ∈ [WVal.single .native (intObject host k count), bytesVal bytes], GoodVal v := by
    intro v hv
    rcases List.mem_cons.mp hv with rfl | hv
    · exact obj_good host k count
    · rw [List.mem_singleton.mp hv]; exact bytesVal_good hb
  have hsz : totalSize [WVal.single .native (intObject host k count), bytesVal bytes] = k + bytes.length := by
    simp only [totalSize, List.map_cons, List.map_nil, List.sum_cons, List.sum_nil, bytesVal_size, Nat.add_zero]
    rw [sizeOfVal, obj_length]
  have hen : encodeAll host [WVal.single .native (intObject host k count), bytesVal bytes] = intObject host k count ++ bytes := by
    simp only [encodeAll, List.flatMap_cons, List.flatMap_nil, bytesVal_encode, List.append_nil]
    rfl
  have hlen : (intObject host k count ++ bytes).length = k + bytes.length := by rw [List.length_append, obj_length]
  refine ⟨⟨onName .size (Io.write host [.single .native (intObject host k count), bytesVal bytes]), by unfold run; rw [e1, Uuid.objectOf_eq], ?_⟩,
    ⟨onName .result (Io.tryWrite host [.single .native (intObject host k count), bytesVal bytes]), by unfold run; rw [e2, Uuid.objectOf_eq], ?_⟩⟩
  · have hx := write_eq (host := host) (vs := [WVal.single .native (intObject host k count), bytesVal bytes]) (buf := w.name) hg (by rw [hsz]; exact hl)
    rw [hsz, hen, over_zero, hlen] at hx
    show (Ret.size <$> ((Io.write host [.single .native (intObject host k count), bytesVal bytes]).run w.name).1,
      World.mk w.fs ((Io.write host [.single .native (intObject host k count), bytesVal bytes]).run w.name).2) = _
    rw [hx]
    by_cases hc : k + bytes.length ≤ w.name.length
    · rw [if_neg (by omega), if_pos hc]; rfl
    · rw [if_pos (by omega), if_neg hc]; rfl
  · have hx := recursiveTryWrite_eq (host := host) [WVal.single .native (intObject host k count), bytesVal bytes] 0 w.name hg (by rw [hsz]; exact hl) (by omega)
    rw [hsz, hen, over_zero w.name (intObject host k count ++ bytes), hlen, Nat.zero_add] at hx
    show (Ret.result <$> ((recursiveTryWrite host 0 [.single .native (intObject host k count), bytesVal bytes]).run w.name).1,
      World.mk w.fs ((recursiveTryWrite host 0 [.single .native (intObject host k count), bytesVal bytes]).run w.name).2) = _
    rw [hx]
    by_cases hc : k + bytes.length ≤ w.name.length
    · rw [if_neg (by omega), if_pos hc]; rfl
    · rw [if_pos (by omega), if_neg hc]
      by_cases hk : k ≤ w.name.length
      · have : leadingFit (w.name.length - 0) [WVal.single .native (intObject host k count), bytesVal bytes] =
            [WVal.single .native (intObject host k count)] := by
          rw [leadingFit, if_pos (by rw [sizeOfVal, obj_length]; omega), leadingFit,
            if_neg (by rw [bytesVal_size, sizeOfVal, obj_length]; omega)]
        have he : encodeAll host [WVal.single .native (intObject host k count)] = intObject host k count := by
          simp only [encodeAll, List.flatMap_cons, List.flatMap_nil, List.append_nil]
          rfl
        rw [this, he, over_zero, obj_length, if_pos hk]; rfl
      · have : leadingFit (w.name.length - 0) [WVal.single .native (intObject host k count), bytesVal bytes] = [] := by
          rw [leadingFit, if_neg (by rw [sizeOfVal, obj_length]; omega)]
        rw [this, if_neg hk]; simp [encodeAll, over_zero]

private theorem no_body {n : Name} (ht : Text n) (hn : ¬Writable n) (a : IoCalls.Arg) : IoCalls.uncheckedWrite n.asBuffer a = false := by
  have : (!n.asBuffer.isConst && n.asBuffer.width == 1) = false := by
    rw [Bool.eq_false_iff]
    intro h
    simp only [Name.asBuffer, Bool.and_eq_true, Bool.not_eq_true', Bool.or_eq_false_iff, beq_iff_eq, beq_eq_false_iff_ne] at h
    rcases ht with e | e
    · exact hn ⟨e, h.1.1, h.2⟩
    · exact h.1.2 e
  rw [IoCalls.uncheckedWrite, this]; rfl

/-- C202 fails at compile time with every other string and with every view: `const` strings, wide strings, views.  With byte_buffer_write.hpp the calls that write are
rejected, whatever is to be written, and with byte_buffer_read.hpp `read` of a whole file is, for every string and view. -/
theorem c202_refuted_compile (h : Headers) (n : Name) (d : Data) (ht : Text n) :
    (h.bufferRead = true → resolve h n .read = .error) ∧
    (h.bufferWrite = true → ¬Writable n →
      resolve h n (.write d) = .error ∧ resolve h n (.writeN d) = .error ∧ resolve h n (.tryWrite d) = .error ∧ resolve h n (.tryWriteN d) = .error) := by
  have er : ∀ {f : Fn}, Namesake h f → bufferBody n f = false → resolve h n f = .error := by
    intro f hs hb
    rw [resolve, if_pos ((takes_iff h n f).mpr ⟨ht, hs⟩), hb]; rfl
  refine ⟨fun hr => er hr (by simp [bufferBody, IoCalls.read, IoCalls.byteCountTys]), fun hw hn => ⟨er hw ?_, er hw ?_, er hw ?_, er hw ?_⟩⟩
  · simp [bufferBody, IoCalls.write, IoCalls.recursiveUnsafeWrite, no_body ht hn]
  · simp [bufferBody, IoCalls.write, IoCalls.recursiveUnsafeWrite, no_body ht hn]
  · simp [bufferBody, IoCalls.tryWrite, IoCalls.tryWriteOne, no_body ht hn]
  · simp [bufferBody, IoCalls.tryWrite, IoCalls.recursiveTryWrite, IoCalls.tryWriteOne, no_body ht hn]

/-- C202, the same in one line: for a string or a view, whether a call that writes means the file depends on which other headers are included. -/
theorem c202_refuted_headers (r : Bool) (n : Name) (d : Data) (ht : Text n) (hd : d.contiguous = true) :
    (resolve ⟨r, false⟩ n (.write d) = .file ∧ resolve ⟨r, true⟩ n (.write d) ≠ .file) ∧
    (resolve ⟨r, false⟩ n (.writeN d) = .file ∧ resolve ⟨r, true⟩ n (.writeN d) ≠ .file) ∧
    (resolve ⟨r, false⟩ n (.tryWrite d) = .file ∧ resolve ⟨r, true⟩ n (.tryWrite d) ≠ .file) ∧
    (resolve ⟨r, false⟩ n (.tryWriteN d) = .file ∧ resolve ⟨r, true⟩ n (.tryWriteN d) ≠ .file) ∧
    (resolve ⟨false, r⟩ n .read = .file ∧ resolve ⟨true, r⟩ n .read ≠ .file) := by
  have nf : ∀ {h : Headers} {f : Fn}, Namesake h f → resolve h n f ≠ .file := by
    intro h f hs
    rw [resolve, if_pos ((takes_iff h n f).mpr ⟨ht, hs⟩)]
    split <;> simp
  refine ⟨⟨c202_partial _ _ _ hd ?_, nf rfl⟩, ⟨c202_partial _ _ _ hd ?_, nf rfl⟩, ⟨c202_partial _ _ _ hd ?_, nf rfl⟩, ⟨c202_partial _ _ _ hd ?_, nf rfl⟩,
    ⟨c202_partial _ _ _ trivial ?_, nf rfl⟩⟩ <;> rintro ⟨-, hs⟩ <;> exact absurd hs (by simp [Namesake])

/-! ## Examples -/

private def byteVector : Data := ⟨⟨.vector .pod, true, true⟩, true, true⟩
private def anyOs : File.Os := ⟨true, true, 100, 100⟩

/-- `io::write("a.bin", bytes)` with everything included. -/
example : resolve ⟨true, true⟩ ⟨.array, 1, true, true⟩ (.write byteVector) = .file := c202_partial _ _ _ rfl (by rintro ⟨h | h, -⟩ <;> cases h)

/-- `const std::string name; io::write(name, bytes)` with everything included. -/
example : resolve ⟨true, true⟩ ⟨.string, 1, true, true⟩ (.write byteVector) = .error := by decide

/-- `io::read(name)`, and `io::read(name, 4)`. -/
example : resolve ⟨true, true⟩ ⟨.string, 1, true, true⟩ .read = .error ∧ resolve ⟨true, true⟩ ⟨.string, 1, true, true⟩ .readN = .file := by decide

/-- `io::write(dir + "/a.bin", bytes)`: the call returns 2, nothing has been written to the file, and the first two characters of the temporary are replaced. -/
example : (run ⟨true, true⟩ ⟨.string, 1, false, false⟩ (.write byteVector) .little anyOs (fun _ => 7) 4 0 [1, 2]).map
      (fun x => ((x.run ⟨fun _ => some [9], [47, 97, 98]⟩).1, (x.run ⟨fun _ => some [9], [47, 97, 98]⟩).2.name, (x.run ⟨fun _ => some [9], [47, 97, 98]⟩).2.fs 7)) =
    some (.ok (.size 2), [1, 2, 98], some [9]) := by rfl

/-- Three bytes and a count of four bytes do not fit into a name of three characters. -/
example : (run ⟨true, true⟩ ⟨.string, 1, false, false⟩ (.writeN byteVector) .little anyOs (fun _ => 7) 4 3 [1, 2, 3]).map
      (fun x => (x.run ⟨fun _ => some [9], [47, 97, 98]⟩).1) = some (.throw (.outOfRange "Insufficient buffer space for write")) := by rfl

end Wite.Props
