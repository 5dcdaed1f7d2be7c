import Verif.Lemmas.IoAlias

/-!
# C181: writing what lies in the buffer, reading into it

The claim: passing objects or spans that lie in the buffer gives what passing copies of them would.  It is false.  `write` refers to
its arguments while it writes; several values of `try_write` are copied before, spans are not, nor is what `try_write` gets
alone.
-/

namespace Wite.Props

open Wite.Io Wite.Spec

/-- C181, partial: if every argument lies at or after the place it will be written to, or before everything that is
written, `write` does what it does with copies. -/
theorem c181_write_partial (cp : CopyN) (host : Endian) (start : Nat) (vs : List AArg) (mem : List Nat)
    (hm : ∀ b ∈ mem, IsByte b) (hv : ∀ v ∈ vs, ArgInside mem v) (hd : ArgsApart start start vs)
    (hT : totalSize (vs.map (copyArg mem)) < 2 ^ 64) :
    (writeArgs cp host start vs).run mem = (writeFrom host start (vs.map (copyArg mem))).run mem := by
  have hf : Fine start start vs mem := ⟨hm, hv, hd, Nat.le_refl _⟩
  rw [writeArgs, writeFrom, St.run_bind_ok (St.run_get _), St.run_bind_ok (St.run_get _), byteCountArgs_eq hv,
    St.run_ite, St.run_ite, St.run_ite, St.run_ite]
  by_cases h1 : mem.length < start
  · rw [if_pos h1, if_pos h1]
  · rw [if_neg h1, if_neg h1]
    by_cases h2 : mem.length - start < byteCountVals (vs.map (copyArg mem))
    · rw [if_pos h2, if_pos h2]
    · rw [if_neg h2, if_neg h2]
      rw [byteCountVals_eq hT] at h2
      exact recursiveWriteArgs_eq cp vs start start mem hf hT (by omega)

/-- So does `write_at`. -/
theorem c181_write_at_partial (cp : CopyN) (host : Endian) (pos : Nat) (vs : List AArg) (mem : List Nat)
    (hm : ∀ b ∈ mem, IsByte b) (hv : ∀ v ∈ vs, ArgInside mem v) (hd : ArgsApart pos pos vs) (hp : pos < 2 ^ 64)
    (hT : totalSize (vs.map (copyArg mem)) < 2 ^ 64) :
    (writeAtArgs cp host pos vs).run mem = (writeAt host pos (vs.map (copyArg mem))).run mem := by
  have hf : Fine pos pos vs mem := ⟨hm, hv, hd, Nat.le_refl _⟩
  rw [writeAtArgs, writeAt, St.run_bind_ok (St.run_get _), St.run_bind_ok (St.run_get _), byteCountArgs_eq hv,
    St.run_ite, St.run_ite, St.run_ite, St.run_ite]
  by_cases h1 : (pos + byteCountVals (vs.map (copyArg mem))) % sizeMod < pos
  · rw [if_pos h1, if_pos h1]
  · rw [if_neg h1, if_neg h1]
    by_cases h2 : (pos + byteCountVals (vs.map (copyArg mem))) % sizeMod > mem.length
    · rw [if_pos h2, if_pos h2]
    · rw [if_neg h2, if_neg h2]
      rw [byteCountVals_eq hT] at h1 h2
      rw [wrap_lt hp hT] at h1
      rw [Nat.mod_eq_of_lt (by rw [sizeMod]; omega)] at h2
      rw [St.run_bind, St.run_bind, recursiveWriteArgs_eq cp vs pos pos mem hf hT (by omega)]

/-- C181, partial: with several arguments, `try_write` does what it does with copies wherever the objects lie; only spans need to lie
at or after their destination or before everything.  A single argument needs to in any case. -/
theorem c181_try_partial (cp : CopyN) (host : Endian) (start : Nat) (vs : List AArg) (mem : List Nat)
    (hm : ∀ b ∈ mem, IsByte b) (hv : ∀ v ∈ vs, ArgInside mem v)
    (hd : if vs.length = 1 then ArgsApart start start vs else SpansApart start start vs)
    (hT : totalSize (vs.map (copyArg mem)) < 2 ^ 64) (hs : start ≤ mem.length) :
    (tryWriteArgs cp host start vs).run mem = (recursiveTryWrite host start (vs.map (copyArg mem))).run mem := by
  have several : vs.length ≠ 1 → (St.get >>= fun m => St.lift (byValues m vs) >>= fun ws =>
      recursiveTryWriteArgs cp host start ws).run mem =
        (recursiveTryWrite host start (vs.map (copyArg mem))).run mem := by
    intro h1
    rw [if_neg h1] at hd
    have e : (vs.map (byValueArg mem)).map (copyArg mem) = vs.map (copyArg mem) := by
      rw [List.map_map]; exact List.map_congr_left fun v _ => copyArg_byValueArg mem v
    have hf : Fine start start (vs.map (byValueArg mem)) mem := by
      refine ⟨hm, ?_, spansApart_byValue vs start hv hd, Nat.le_refl _⟩
      intro v h
      obtain ⟨a, ha, rfl⟩ := List.mem_map.mp h
      exact byValueArg_inside hm (hv a ha)
    rw [St.run_bind_ok (St.run_get _), byValues_eq vs hv, St.run_bind_ok (St.run_lift _ _),
      recursiveTryWriteArgs_eq cp _ start start mem hf (by rw [e]; exact hT) hs, e]
  match vs with
  | [] => exact several (by simp)
  | [v] =>
    rw [if_pos (by simp)] at hd
    rw [tryWriteArgs, ← recursiveTryWriteArgs_single]
    exact recursiveTryWriteArgs_eq cp [v] start start mem ⟨hm, hv, hd, Nat.le_refl _⟩ hT hs
  | v :: w :: vs => exact several (by simp)

/-- The claim fails: swapping two objects by `write(buffer, second, first)` loses the first, whatever they are, as long as they
differ; `try_write` with the same arguments swaps them. -/
theorem c181_refuted_swap (cp : CopyN) (host : Endian) (a b rest : List Nat) (hab : a.length = b.length) (hne : a ≠ b)
    (hm : ∀ x ∈ a ++ b ++ rest, IsByte x) (hT : a.length + a.length < 2 ^ 64) :
    let args := [AArg.obj a.length a.length, AArg.obj 0 a.length]
    let mem := a ++ b ++ rest
    (writeArgs cp host 0 args).run mem = (.ok (a.length + a.length), b ++ b ++ rest) ∧
      (tryWriteArgs cp host 0 args).run mem = (.ok (.value (a.length + a.length)), b ++ a ++ rest) ∧
      (writeFrom host 0 (args.map (copyArg mem))).run mem = (.ok (a.length + a.length), b ++ a ++ rest) ∧
      (writeArgs cp host 0 args).run mem ≠ (writeFrom host 0 (args.map (copyArg mem))).run mem := by
  intro args mem
  have hlen : mem.length = a.length + a.length + rest.length := by simp [mem, hab]; omega
  have hin : ∀ v ∈ args, ArgInside mem v := by
    intro v hv
    simp only [args, List.mem_cons, List.not_mem_nil, or_false] at hv
    rcases hv with rfl | rfl <;> simp only [ArgInside] <;> omega
  have s0 : slice mem 0 a.length = a := by simp [slice, mem]
  have s1 : slice mem a.length a.length = b := by simp [slice, mem, hab]
  have hc : args.map (copyArg mem) = [.single .native b, .single .native a] := by
    simp [args, copyArg, s0, s1]
  have hsz : totalSize [.single .native b, .single .native a] = a.length + a.length := by
    simp [totalSize, sizeOfVal, hab]
  have hg : ∀ v ∈ [WVal.single .native b, .single .native a], GoodVal v := by
    intro v hv
    simp only [List.mem_cons, List.not_mem_nil, or_false] at hv
    rcases hv with rfl | rfl <;> exact fun x hx => hm x (by simp [hx])
  have hw := writeFrom_eq (host := host) (start := 0) (buf := mem) hg (by omega) (by omega)
  have o1 : overwrite mem 0 (b ++ a) = b ++ a ++ rest := by
    have : rest = List.drop (b.length + a.length) (a ++ b ++ rest) := by
      rw [List.drop_append_of_le_length (by simp; omega), List.drop_of_length_le (by simp; omega)]; rfl
    simp only [overwrite, List.take_zero, List.nil_append, Nat.zero_add, List.length_append, mem]
    rw [← this]
  have hea : encodeAll host [.single .native b, .single .native a] = b ++ a := by
    simp [encodeAll, encodeVal, encode]
  rw [hsz, if_neg (by omega), hea, o1] at hw
  have hwa : (writeArgs cp host 0 args).run mem = (.ok (a.length + a.length), b ++ b ++ rest) := by
    have hbc : byteCountArgs args = a.length + a.length := by
      rw [byteCountArgs_eq hin, hc, byteCountVals_eq (by omega), hsz]
    have ob : overwrite mem 0 b = b ++ b ++ rest := by
      simp only [overwrite, List.take_zero, List.nil_append, Nat.zero_add, mem]
      rw [← hab, List.append_assoc a, List.drop_left, List.append_assoc]
    have hl2 : (b ++ b ++ rest).length = mem.length := by simp [mem, hab]
    rw [writeArgs, St.run_bind_ok (St.run_get _), St.run_ite, if_neg (by omega), St.run_ite, if_neg (by omega)]
    rw [recursiveWriteArgs, writeArg, St.run_bind_ok (s' := b ++ b ++ rest) (a := a.length), recursiveWriteArgs, writeArg,
      St.run_bind_ok (s' := b ++ b ++ rest) (a := a.length + 0)]
    · rw [St.run_pure, Nat.add_zero, Nat.mod_eq_of_lt (by rw [sizeMod]; omega)]
    · rw [St.run_bind_ok (s' := b ++ b ++ rest) (a := a.length), recursiveWriteArgs, St.run_bind_ok (St.run_pure _ _),
        St.run_pure, Nat.mod_eq_of_lt (by rw [sizeMod]; omega)]
      rw [St.run_bind_ok (copyWithin_ok cp 0 _ _ _ (by simp [AArg.size]) (by omega) (by simp only [AArg.size]; omega))]
      rw [St.run_pure]
      congr 1
      have : slice (b ++ b ++ rest) 0 a.length = b := by simp [slice, hab]
      rw [this]
      simp only [overwrite, AArg.size, Nat.zero_add]
      rw [List.append_assoc b b rest, List.take_left' hab.symm, ← List.drop_drop, List.drop_left' hab.symm, List.drop_left]
      simp
    · rw [St.run_bind_ok (copyWithin_ok cp _ 0 _ _ (by omega) (by omega) (by omega)), St.run_pure, s1, ob]
  have hta : (tryWriteArgs cp host 0 args).run mem = (.ok (.value (a.length + a.length)), b ++ a ++ rest) := by
    rw [c181_try_partial cp host 0 args mem hm hin (by simp [args, SpansApart]) (by rw [hc, hsz]; exact hT) (by omega), hc,
      recursiveTryWrite_eq _ _ _ hg (by omega) (by omega), hsz, if_neg (by omega), hea, o1]
  refine ⟨hwa, hta, by rw [hc]; exact hw, ?_⟩
  rw [hwa, hc, hw]
  intro h
  have h2 : b ++ b ++ rest = b ++ a ++ rest := (Prod.mk.inj h).2
  rw [List.append_assoc, List.append_assoc] at h2
  have h3 := List.append_cancel_right (List.append_cancel_left h2)
  exact hne h3.symm

/-- Writing a span of `k` objects to a place `d` bytes further up, an object or more, repeats its first `d` bytes, however long it
is. -/
theorem c181_span (cp : CopyN) (host : Endian) (src n k d : Nat) (mem : List Nat) (hn : 0 < n) (hd : n ≤ d)
    (hl : src + d + k * n ≤ mem.length) (hk : k * n < 2 ^ 64) :
    ∃ m', (writeArgs cp host (src + d) [.span src n k]).run mem = (.ok (k * n), m') ∧ m'.length = mem.length ∧
      (∀ i < k * n, m'[src + d + i]? = mem[src + i % d]?) ∧
      ∀ j, j < src + d ∨ src + d + k * n ≤ j → m'[j]? = mem[j]? := by
  refine ⟨smear (k * n) src (src + d) mem, ?_, smear_up (by omega) (k * n) src mem hl⟩
  have hmod : (k * n) % sizeMod = k * n := Nat.mod_eq_of_lt (by rw [sizeMod]; exact hk)
  have hb : byteCountArgs [.span src n k] = k * n := by simp [byteCountArgs, AArg.size, hmod]
  rw [writeArgs, St.run_bind_ok (St.run_get _), St.run_ite, if_neg (by omega), St.run_ite, if_neg (by omega),
    recursiveWriteArgs, writeArg, St.run_bind_ok (writeSpanLoop_smear cp n k src 0 d mem hd hl), recursiveWriteArgs,
    St.run_bind_ok (St.run_pure _ _), St.run_pure]
  simp [hmod]

/-- So the claim fails for a span too, `try_write` included: unless the bytes of the span repeat after `d` of them already, the result is
not that of a copy. -/
theorem c181_refuted_span (cp : CopyN) (host : Endian) (src n k d i : Nat) (mem : List Nat) (hm : ∀ b ∈ mem, IsByte b)
    (hn : 0 < n) (hd : n ≤ d) (hl : src + d + k * n ≤ mem.length) (hk : k * n < 2 ^ 64) (hi : i < k * n)
    (hne : mem[src + i]? ≠ mem[src + i % d]?) :
    (writeArgs cp host (src + d) [.span src n k]).run mem ≠
        (writeFrom host (src + d) [copyArg mem (.span src n k)]).run mem ∧
      (tryWriteArgs cp host (src + d) [.span src n k]).run mem ≠
        (recursiveTryWrite host (src + d) [copyArg mem (.span src n k)]).run mem := by
  have hin : ArgInside mem (.span src n k) := by simp only [ArgInside]; omega
  have hg : ∀ v ∈ [copyArg mem (.span src n k)], GoodVal v := by
    intro v hv
    rw [List.mem_singleton] at hv
    rw [hv]
    exact copyArg_good hm hin
  have hsz : totalSize [copyArg mem (.span src n k)] = k * n := by
    rw [totalSize_cons, copyArg_size hin]; simp [totalSize, argSize]
  have he : encodeAll host [copyArg mem (.span src n k)] = slice mem src (k * n) := by
    simp only [encodeAll, List.flatMap_cons, List.flatMap_nil, List.append_nil, copyArg, encodeVal, flatten_slices]
  have hs : (slice mem src (k * n)).length = k * n := slice_length (by omega)
  have hcopy : (overwrite mem (src + d) (slice mem src (k * n)))[src + d + i]? = mem[src + i]? := by
    rw [overwrite_getElem? (by omega), if_pos (by omega), slice_getElem?, if_pos (by omega)]
    congr 1
    omega
  have hw := writeFrom_eq (host := host) (start := src + d) (buf := mem) hg (by omega) (by omega)
  rw [hsz, if_neg (by omega), he] at hw
  have ht := recursiveTryWrite_eq (host := host) _ (src + d) mem hg (by omega) (by omega)
  rw [hsz, if_neg (by omega), he] at ht
  obtain ⟨m', h1, -, h3, -⟩ := c181_span cp host src n k d mem hn hd hl hk
  have hta : ((tryWriteArgs cp host (src + d) [.span src n k]).run mem).2 = smear (k * n) src (src + d) mem := by
    have hmod : (k * n) % sizeMod = k * n := Nat.mod_eq_of_lt (by rw [sizeMod]; exact hk)
    rw [tryWriteArgs, tryWriteArg, St.run_bind_ok (St.run_get _), St.run_ite, if_neg (by omega), St.run_ite, AArg.size, hmod,
      if_neg (by omega), writeArg, St.run_bind_ok (writeSpanLoop_smear cp n k src 0 d mem hd hl)]
    rfl
  refine ⟨?_, ?_⟩
  · rw [h1, hw]
    intro h
    have := h3 i hi
    rw [(Prod.mk.inj h).2, hcopy] at this
    exact hne this
  · rw [ht]
    intro h
    have := (smear_up (d := d) (by omega) (k * n) src mem hl).2.1 i hi
    rw [← hta, h, hcopy] at this
    exact hne this

/-- C181, partial, for `read_range` into a span over native objects in the buffer: if the span begins at or before what is read, or behind
all of it, it gets what was there before the call. -/
theorem c181_read_partial (start n k dst : Nat) (mem : List Nat) (hk : k * n < 2 ^ 64) (hs : start ≤ mem.length)
    (hin : dst + k * n ≤ mem.length) (hd : dst ≤ start ∨ start + k * n ≤ dst) :
    (readRangeInside start n k dst).run mem =
      if mem.length < start + k * n then (.throw (.outOfRange "Insufficient buffer space for read"), mem)
      else (.ok ⟨⟩, overwrite mem dst (slice mem start (k * n))) := by
  have hmod : (k * n) % sizeMod = k * n := Nat.mod_eq_of_lt (by rw [sizeMod]; exact hk)
  rw [readRangeInside, St.run_bind_ok (St.run_get _), St.run_ite, if_neg (by omega), St.run_ite, hmod]
  by_cases h : mem.length < start + k * n
  · rw [if_pos (by omega), if_pos h]; rfl
  · rw [if_neg (by omega), if_neg h]
    exact readSpanLoop_ok n k start dst mem hd (by omega) hin

/-- Otherwise it does not: reading into a span that begins `d` bytes further up, an object or more, repeats the first `d` bytes, and
differs from what was there if that does not repeat. -/
theorem c181_refuted_read (src n k d i : Nat) (mem : List Nat) (hn : 0 < n) (hd : n ≤ d) (hl : src + d + k * n ≤ mem.length)
    (hk : k * n < 2 ^ 64) (hi : i < k * n) (hne : mem[src + i]? ≠ mem[src + i % d]?) :
    ∃ m', (readRangeInside src n k (src + d)).run mem = (.ok ⟨⟩, m') ∧
      (∀ i < k * n, m'[src + d + i]? = mem[src + i % d]?) ∧ m' ≠ overwrite mem (src + d) (slice mem src (k * n)) := by
  have hmod : (k * n) % sizeMod = k * n := Nat.mod_eq_of_lt (by rw [sizeMod]; exact hk)
  have hup := (smear_up (d := d) (by omega) (k * n) src mem hl).2.1
  have hs : (slice mem src (k * n)).length = k * n := slice_length (by omega)
  refine ⟨smear (k * n) src (src + d) mem, ?_, hup, ?_⟩
  · rw [readRangeInside, St.run_bind_ok (St.run_get _), St.run_ite, if_neg (by omega), St.run_ite, hmod, if_neg (by omega),
      readSpanLoop_smear n k src d mem hd hl]
  · intro h
    have := hup i hi
    rw [h, overwrite_getElem? (by omega), if_pos (by omega), slice_getElem?, if_pos (by omega)] at this
    apply hne
    rw [← this]
    congr 1
    omega

/-! ## Examples -/

/-- Swapping bytes 0 and 1. -/
example : (writeArgs .forward .little 0 [.obj 1 1, .obj 0 1]).run [10, 20, 30] = (.ok 2, [20, 20, 30]) ∧
    (tryWriteArgs .forward .little 0 [.obj 1 1, .obj 0 1]).run [10, 20, 30] = (.ok (.value 2), [20, 10, 30]) := by
  decide

/-- Moving the tail of a buffer to its front is fine, and so are arguments already in place. -/
example : (writeArgs .memmove .big 0 [.span 1 2 2, .obj 4 1]).run [1, 2, 3, 4, 5, 6] = (.ok 5, [2, 3, 4, 5, 5, 6]) ∧
    ArgsApart 0 0 [.span 1 2 2, .obj 4 1] := by
  refine ⟨by decide, ?_⟩
  simp [ArgsApart, ArgApart, argSize]

/-- Moving it up is not. -/
example : (writeArgs .memmove .big 1 [.span 0 1 4]).run [1, 2, 3, 4, 5, 6] = (.ok 4, [1, 1, 1, 1, 1, 6]) ∧
    (writeFrom .big 1 [copyArg [1, 2, 3, 4, 5, 6] (.span 0 1 4)]).run [1, 2, 3, 4, 5, 6] = (.ok 4, [1, 1, 2, 3, 4, 6]) ∧
    (tryWriteArgs .memmove .big 1 [.span 0 1 3, .obj 5 1]).run [1, 2, 3, 4, 5, 6] = (.ok (.value 4), [1, 1, 1, 1, 6, 6]) := by
  decide

/-- The objects of several arguments of `try_write` can be anywhere. -/
example : SpansApart 0 0 [.obj 4 2, .obj 0 2, .span 4 2 1] ∧
    (tryWriteArgs .memmove .big 0 [.obj 4 2, .obj 0 2, .span 4 2 1]).run [1, 2, 3, 4, 5, 6] =
      (.ok (.value 6), [5, 6, 1, 2, 5, 6]) := by
  refine ⟨by simp [SpansApart, ArgApart, argSize], by decide⟩

/-- Reading two-byte objects into the buffer one object further up. -/
example : (readRangeInside 0 2 3 2).run [1, 2, 3, 4, 5, 6, 7, 8] = (.ok ⟨⟩, [1, 2, 1, 2, 1, 2, 1, 2]) ∧
    (readRangeInside 2 2 3 0).run [1, 2, 3, 4, 5, 6, 7, 8] = (.ok ⟨⟩, [3, 4, 5, 6, 7, 8, 7, 8]) := by
  decide

end Wite.Props
