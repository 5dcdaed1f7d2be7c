import Verif.Spec.IoAlias
import Verif.Lemmas.Io

/-!
# Lemmas about writes whose arguments lie in the buffer
-/

namespace Wite.Io

open Wite.Spec

theorem slice_length {mem : List Nat} {src n : Nat} (h : src + n ≤ mem.length) : (slice mem src n).length = n := by
  simp [slice]; omega

theorem slice_getElem? {mem : List Nat} {src n i : Nat} : (slice mem src n)[i]? = if i < n then mem[src + i]? else none := by
  simp [slice, List.getElem?_take]

theorem overwrite_getElem? {mem : List Nat} {pos : Nat} {bs : List Nat} (h : pos + bs.length ≤ mem.length) (i : Nat) :
    (overwrite mem pos bs)[i]? = if pos ≤ i ∧ i < pos + bs.length then bs[i - pos]? else mem[i]? := by
  have h1 : (mem.take pos).length = pos := by simp; omega
  unfold overwrite
  by_cases hi : i < pos
  · rw [if_neg (by omega), List.append_assoc, List.getElem?_append_left (by omega), List.getElem?_take, if_pos hi]
  · by_cases hj : i < pos + bs.length
    · rw [if_pos (by omega), List.getElem?_append_left (by simp; omega), List.getElem?_append_right (by omega), h1]
    · rw [if_neg (by omega), List.getElem?_append_right (by simp; omega), List.getElem?_drop]
      congr 1
      simp; omega

theorem slice_overwrite {mem : List Nat} {pos src n : Nat} {bs : List Nat} (h : pos + bs.length ≤ mem.length)
    (hd : pos + bs.length ≤ src ∨ src + n ≤ pos) : slice (overwrite mem pos bs) src n = slice mem src n := by
  apply List.ext_getElem?
  intro i
  rw [slice_getElem?, slice_getElem?, overwrite_getElem? h]
  by_cases hi : i < n
  · rw [if_pos hi, if_pos hi, if_neg (by omega)]
  · rw [if_neg hi, if_neg hi]

theorem slice_append {mem : List Nat} {src a b : Nat} : slice mem src (a + b) = slice mem src a ++ slice mem (src + a) b := by
  rw [slice, slice, slice, List.take_add, List.drop_drop]

theorem copyWithin_ok (cp : CopyN) (src dst n : Nat) (mem : List Nat) (hd : dst ≤ src ∨ src + n ≤ dst)
    (h1 : src + n ≤ mem.length) (h2 : dst + n ≤ mem.length) :
    (copyWithin cp src dst n).run mem = (.ok ⟨⟩, overwrite mem dst (slice mem src n)) := by
  induction n generalizing src dst mem with
  | zero => simp [copyWithin, slice, overwrite_nil]
  | succ n ih =>
    rw [copyWithin, St.run_bind_ok (St.run_get _)]
    cases cp with
    | memmove =>
      simp only
      rw [readMem_ok h1, St.run_bind_ok (St.run_lift _ _)]
      exact writeMem_ok (by rw [← slice, slice_length h1]; exact h2)
    | forward =>
      simp only
      have hs : (slice mem src 1).length = 1 := slice_length (by omega)
      have h2' : dst + (slice mem src 1).length ≤ mem.length := by omega
      have hl := overwrite_length h2'
      rw [readMem_ok (by omega), St.run_bind_ok (St.run_lift _ _), ← slice, St.run_bind_ok (writeMem_ok h2'),
        ih _ _ _ (by omega) (by omega) (by omega), slice_overwrite h2' (by omega)]
      have h3 := overwrite_append (buf := mem) (pos := dst) (b1 := slice mem src 1) (b2 := slice mem (src + 1) n)
        (by rw [hs, slice_length (by omega)]; omega)
      rw [hs] at h3
      rw [h3, ← slice_append, Nat.add_comm 1 n]

theorem writeSpanLoop_ok (cp : CopyN) (n k src written pos : Nat) (mem : List Nat)
    (hd : pos ≤ src ∨ src + k * n ≤ pos) (h1 : src + k * n ≤ mem.length) (h2 : pos + k * n ≤ mem.length) :
    (writeSpanLoop cp n k src written pos).run mem =
      (.ok (written + k * n), overwrite mem pos (slice mem src (k * n))) := by
  induction k generalizing src written pos mem with
  | zero => simp [writeSpanLoop, slice, overwrite_nil]
  | succ k ih =>
    have e : (k + 1) * n = n + k * n := by rw [Nat.succ_mul, Nat.add_comm]
    rw [e] at hd h1 h2 ⊢
    have hs : (slice mem src n).length = n := slice_length (by omega)
    have h2' : pos + (slice mem src n).length ≤ mem.length := by omega
    have hl := overwrite_length h2'
    rw [writeSpanLoop, St.run_bind_ok (copyWithin_ok cp src pos n mem (by omega) (by omega) (by omega)),
      ih _ _ _ _ (by omega) (by omega) (by omega), slice_overwrite h2' (by omega)]
    have h3 := overwrite_append (buf := mem) (pos := pos) (b1 := slice mem src n) (b2 := slice mem (src + n) (k * n))
      (by rw [hs, slice_length (by omega)]; omega)
    rw [hs] at h3
    rw [h3, ← slice_append, Nat.add_assoc]

theorem flatten_slices (mem : List Nat) (src n k : Nat) :
    ((List.range k).map fun i => slice mem (src + i * n) n).flatten = slice mem src (k * n) := by
  induction k with
  | zero => simp [slice]
  | succ k ih =>
    rw [List.range_succ, List.map_append, List.flatten_append, ih, Nat.succ_mul, slice_append]
    simp

theorem isByte_slice {mem : List Nat} (hm : ∀ b ∈ mem, IsByte b) (src n : Nat) : ∀ b ∈ slice mem src n, IsByte b :=
  fun b hb => hm b (List.mem_of_mem_drop (List.mem_of_mem_take hb))

theorem copyArg_good {mem : List Nat} (hm : ∀ b ∈ mem, IsByte b) {v : AArg} (hv : ArgInside mem v) :
    GoodVal (copyArg mem v) := by
  cases v with
  | value v => exact hv
  | obj src n => exact isByte_slice hm src n
  | span src n k =>
    intro o ho
    rw [List.mem_map] at ho
    obtain ⟨i, hi, rfl⟩ := ho
    rw [List.mem_range] at hi
    refine ⟨slice_length ?_, isByte_slice hm _ _⟩
    have : src + k * n ≤ mem.length := hv
    have h2 : (i + 1) * n ≤ k * n := Nat.mul_le_mul_right n hi
    rw [Nat.succ_mul] at h2
    omega

theorem copyArg_size {mem : List Nat} {v : AArg} (hv : ArgInside mem v) : sizeOfVal (copyArg mem v) = argSize v := by
  cases v with
  | value v => rfl
  | obj src n => exact slice_length hv
  | span src n k => simp [copyArg, sizeOfVal, argSize]

theorem size_eq {mem : List Nat} {v : AArg} (hv : ArgInside mem v) : v.size = valueSize (copyArg mem v) := by
  cases v with
  | value v => rfl
  | obj src n => exact (slice_length hv).symm
  | span src n k => simp [copyArg, valueSize, AArg.size]

theorem byteCountArgs_eq {mem : List Nat} {vs : List AArg} (hv : ∀ v ∈ vs, ArgInside mem v) :
    byteCountArgs vs = byteCountVals (vs.map (copyArg mem)) := by
  induction vs with
  | nil => rfl
  | cons v vs ih =>
    rw [byteCountArgs, ih fun x hx => hv x (by simp [hx]), size_eq (hv v (by simp))]
    rfl

theorem writeArg_eq (cp : CopyN) {host : Endian} {pos : Nat} {v : AArg} {mem : List Nat} (hm : ∀ b ∈ mem, IsByte b)
    (hv : ArgInside mem v) (hd : ArgApart pos pos v) (h : pos + argSize v ≤ mem.length) :
    (writeArg cp host pos v).run mem = (.ok (argSize v), overwrite mem pos (encodeVal host (copyArg mem v))) := by
  cases v with
  | value v => exact uncheckedWrite_ok hv h
  | obj src n =>
    rw [writeArg, St.run_bind_ok (copyWithin_ok cp src pos n mem hd hv h)]
    rfl
  | span src n k =>
    rw [writeArg, writeSpanLoop_ok cp n k src 0 pos mem hd hv h, Nat.zero_add]
    simp only [copyArg, encodeVal, flatten_slices, argSize]

theorem argApart_mono {start start' pos : Nat} {v : AArg} (h : ArgApart start pos v) (hs : start ≤ start') :
    ArgApart start' pos v := by
  cases v <;> simp only [ArgApart] at h ⊢ <;> omega

theorem copyArg_overwrite {mem : List Nat} {start p q : Nat} {bs : List Nat} {v : AArg} (hp : p + bs.length ≤ mem.length)
    (hsp : start ≤ p) (hpq : p + bs.length ≤ q) (hd : ArgApart start q v) :
    copyArg (overwrite mem p bs) v = copyArg mem v := by
  cases v with
  | value v => rfl
  | obj src n => simp only [ArgApart] at hd; simp only [copyArg]; rw [slice_overwrite hp (by omega)]
  | span src n k =>
    simp only [ArgApart] at hd
    simp only [copyArg]
    congr 1
    apply List.map_congr_left
    intro i hi
    rw [List.mem_range] at hi
    have h2 : (i + 1) * n ≤ k * n := Nat.mul_le_mul_right n hi
    rw [Nat.succ_mul] at h2
    rw [slice_overwrite hp (by omega)]

theorem copyArgs_overwrite {mem : List Nat} {start p : Nat} {bs : List Nat} (hp : p + bs.length ≤ mem.length)
    (hsp : start ≤ p) (vs : List AArg) (q : Nat) (hpq : p + bs.length ≤ q) (hd : ArgsApart start q vs) :
    vs.map (copyArg (overwrite mem p bs)) = vs.map (copyArg mem) := by
  induction vs generalizing q with
  | nil => rfl
  | cons v vs ih =>
    rw [List.map_cons, List.map_cons, copyArg_overwrite hp hsp hpq hd.1, ih _ (by omega) hd.2]

theorem argInside_overwrite {mem : List Nat} {p : Nat} {bs : List Nat} (hp : p + bs.length ≤ mem.length) {v : AArg}
    (hv : ArgInside mem v) : ArgInside (overwrite mem p bs) v := by
  cases v <;> simp only [ArgInside, overwrite_length hp] at hv ⊢ <;> exact hv

theorem isByte_overwrite {mem : List Nat} (hm : ∀ b ∈ mem, IsByte b) {p : Nat} {bs : List Nat} (hb : ∀ b ∈ bs, IsByte b) :
    ∀ b ∈ overwrite mem p bs, IsByte b := by
  intro b h
  simp only [Spec.overwrite, List.mem_append] at h
  rcases h with (h | h) | h
  · exact hm b (List.mem_of_mem_take h)
  · exact hb b h
  · exact hm b (List.mem_of_mem_drop h)

/-- The arguments of a call in a memory, all of them there and apart. -/
structure Fine (start pos : Nat) (vs : List AArg) (mem : List Nat) : Prop where
  bytes : ∀ b ∈ mem, IsByte b
  inside : ∀ v ∈ vs, ArgInside mem v
  apart : ArgsApart start pos vs
  le : start ≤ pos

theorem Fine.good {start pos : Nat} {vs : List AArg} {mem : List Nat} (h : Fine start pos vs mem) :
    ∀ v ∈ vs.map (copyArg mem), GoodVal v := by
  intro v hv
  obtain ⟨a, ha, rfl⟩ := List.mem_map.mp hv
  exact copyArg_good h.bytes (h.inside a ha)

theorem Fine.next (host : Endian) {start pos : Nat} {v : AArg} {vs : List AArg} {mem : List Nat}
    (h : Fine start pos (v :: vs) mem) (hl : pos + argSize v ≤ mem.length) :
    Fine start (pos + argSize v) vs (overwrite mem pos (encodeVal host (copyArg mem v))) ∧
      vs.map (copyArg (overwrite mem pos (encodeVal host (copyArg mem v)))) = vs.map (copyArg mem) := by
  have hv := h.inside v (by simp)
  have hg := copyArg_good h.bytes hv
  have he : (encodeVal host (copyArg mem v)).length = argSize v := by rw [encodeVal_length hg, copyArg_size hv]
  have hp : pos + (encodeVal host (copyArg mem v)).length ≤ mem.length := by omega
  refine ⟨⟨isByte_overwrite h.bytes (encodeVal_isByte hg), fun x hx => argInside_overwrite hp (h.inside x (by simp [hx])),
    h.apart.2, by have := h.le; omega⟩, ?_⟩
  exact copyArgs_overwrite hp h.le vs _ (by omega) h.apart.2

theorem recursiveWriteArgs_eq (cp : CopyN) {host : Endian} (vs : List AArg) (start pos : Nat) (mem : List Nat)
    (h : Fine start pos vs mem) (hT : totalSize (vs.map (copyArg mem)) < 2 ^ 64)
    (hl : pos + totalSize (vs.map (copyArg mem)) ≤ mem.length) :
    (recursiveWriteArgs cp host pos vs).run mem = (recursiveUnsafeWrite host pos (vs.map (copyArg mem))).run mem := by
  induction vs generalizing pos mem with
  | nil => rfl
  | cons v vs ih =>
    have hv := h.inside v (by simp)
    have hg := copyArg_good h.bytes hv
    have hs := copyArg_size hv
    rw [List.map_cons, totalSize_cons, hs] at hT hl
    have he : (encodeVal host (copyArg mem v)).length = argSize v := by rw [encodeVal_length hg, hs]
    obtain ⟨hn, hc⟩ := h.next host (by omega)
    have hlen : (overwrite mem pos (encodeVal host (copyArg mem v))).length = mem.length := overwrite_length (by omega)
    have hu := uncheckedWrite_ok (host := host) (pos := pos) (buf := mem) hg (by omega)
    have ih' := ih (pos + argSize v) _ hn (by rw [hc]; omega) (by rw [hc, hlen]; omega)
    rw [hc] at ih'
    rw [hs] at hu
    rw [recursiveWriteArgs, St.run_bind_ok (writeArg_eq cp h.bytes hv (argApart_mono h.apart.1 h.le) (by omega)), List.map_cons,
      recursiveUnsafeWrite, St.run_bind_ok hu, size_eq hv, valueSize_eq (by omega), hs]
    rw [St.run_bind, St.run_bind, ih']

theorem tryWriteArg_eq (cp : CopyN) {host : Endian} {start pos : Nat} {v : AArg} {vs : List AArg} {mem : List Nat}
    (h : Fine start pos (v :: vs) mem) (hT : argSize v < 2 ^ 64) :
    (tryWriteArg cp host pos v).run mem = (tryWriteOne host pos (copyArg mem v)).run mem := by
  have hv := h.inside v (by simp)
  have hg := copyArg_good h.bytes hv
  have hs := copyArg_size hv
  by_cases hp : mem.length < pos
  · rw [tryWriteArg, St.run_bind_ok (St.run_get _), tryWriteOne, St.run_bind_ok (St.run_get _), St.run_ite, St.run_ite,
      if_pos hp, if_pos hp]
  · rw [tryWriteOne_eq hg (by omega) (by omega), tryWriteArg, St.run_bind_ok (St.run_get _), size_eq hv,
      valueSize_eq (by omega), hs, St.run_ite, if_neg hp, St.run_ite]
    by_cases h2 : mem.length < pos + argSize v
    · rw [if_pos (by omega), if_pos h2]; rfl
    · rw [if_neg (by omega), if_neg h2,
        St.run_bind_ok (writeArg_eq cp h.bytes hv (argApart_mono h.apart.1 h.le) (by omega))]
      rfl

theorem recursiveTryWriteArgs_eq (cp : CopyN) {host : Endian} (vs : List AArg) (start pos : Nat) (mem : List Nat)
    (h : Fine start pos vs mem) (hT : totalSize (vs.map (copyArg mem)) < 2 ^ 64) (hl : pos ≤ mem.length) :
    (recursiveTryWriteArgs cp host pos vs).run mem = (recursiveTryWrite host pos (vs.map (copyArg mem))).run mem := by
  induction vs generalizing pos mem with
  | nil => rfl
  | cons v vs ih =>
    have hv := h.inside v (by simp)
    have hg := copyArg_good h.bytes hv
    have hs := copyArg_size hv
    rw [List.map_cons, totalSize_cons, hs] at hT
    have h1 := tryWriteArg_eq cp (host := host) h (by omega)
    have h2 := tryWriteOne_eq (host := host) (start := pos) (buf := mem) hg (by omega) hl
    rw [recursiveTryWriteArgs, List.map_cons, recursiveTryWrite]
    by_cases hf : mem.length < pos + sizeOfVal (copyArg mem v)
    · rw [if_pos hf] at h2
      rw [St.run_bind_ok h2, St.run_bind_ok (h1.trans h2)]
    · rw [if_neg hf] at h2
      rw [St.run_bind_ok h2, St.run_bind_ok (h1.trans h2)]
      cases vs with
      | nil => rfl
      | cons w ws =>
        have he : (encodeVal host (copyArg mem v)).length = argSize v := by rw [encodeVal_length hg, hs]
        obtain ⟨hn, hc⟩ := h.next host (by omega)
        have hlen : (overwrite mem pos (encodeVal host (copyArg mem v))).length = mem.length := overwrite_length (by omega)
        have ih' := ih (pos + argSize v) _ hn (by rw [hc]; omega) (by rw [hlen]; omega)
        rw [hc] at ih'
        simp only [List.isEmpty_cons, List.map_cons, Bool.false_eq_true, if_false]
        rw [List.map_cons] at ih'
        rw [size_eq hv, valueSize_eq (by omega), hs, St.run_bind, St.run_bind, ih']
        generalize St.run _ _ = r
        rcases r with ⟨r, m⟩
        rcases r with (a | e) | _ | _ | _ | _ <;> rfl

/-! ## Parameters by value -/

/-- An argument after it was copied into a parameter. -/
def byValueArg (mem : List Nat) : AArg → AArg
  | .obj src n => .value (.single .native (slice mem src n))
  | v => v

theorem byValues_eq {mem : List Nat} (vs : List AArg) (h : ∀ v ∈ vs, ArgInside mem v) :
    byValues mem vs = .ok (vs.map (byValueArg mem)) := by
  induction vs with
  | nil => rfl
  | cons v vs ih =>
    have hv := h v (by simp)
    have e : v.byValue mem = .ok (byValueArg mem v) := by
      cases v with
      | obj src n =>
        have : readMem mem src n = _ := readMem_ok hv
        simp only [AArg.byValue, this, Outcome.bind_ok]
        rfl
      | _ => rfl
    rw [byValues, e, ih fun x hx => h x (by simp [hx])]
    rfl

theorem copyArg_byValueArg (mem : List Nat) (v : AArg) : copyArg mem (byValueArg mem v) = copyArg mem v := by
  cases v <;> rfl

theorem byValueArg_inside {mem : List Nat} (hm : ∀ b ∈ mem, IsByte b) {v : AArg} (hv : ArgInside mem v) :
    ArgInside mem (byValueArg mem v) := by
  cases v with
  | obj src n => exact isByte_slice hm src n
  | _ => exact hv

theorem argSize_byValueArg {mem : List Nat} {v : AArg} (hv : ArgInside mem v) : argSize (byValueArg mem v) = argSize v := by
  cases v with
  | obj src n => exact slice_length hv
  | _ => rfl

theorem spansApart_byValue {mem : List Nat} {start : Nat} (vs : List AArg) (pos : Nat) (hv : ∀ v ∈ vs, ArgInside mem v)
    (h : SpansApart start pos vs) : ArgsApart start pos (vs.map (byValueArg mem)) := by
  induction vs generalizing pos with
  | nil => trivial
  | cons v vs ih =>
    rw [List.map_cons]
    refine ⟨?_, ?_⟩
    · cases v with
      | span src n k => exact h.1
      | _ => trivial
    · rw [argSize_byValueArg (hv v (by simp))]
      exact ih _ (fun x hx => hv x (by simp [hx])) h.2

theorem recursiveTryWriteArgs_single (cp : CopyN) (host : Endian) (pos : Nat) (v : AArg) (mem : List Nat) :
    (recursiveTryWriteArgs cp host pos [v]).run mem = (tryWriteArg cp host pos v).run mem := by
  rw [recursiveTryWriteArgs, St.run_bind]
  generalize St.run _ _ = r
  rcases r with ⟨r, m⟩
  rcases r with (a | e) | _ | _ | _ | _ <;> rfl

theorem readSpanLoop_ok (n k src pos : Nat) (mem : List Nat)
    (hd : pos ≤ src ∨ src + k * n ≤ pos) (h1 : src + k * n ≤ mem.length) (h2 : pos + k * n ≤ mem.length) :
    (readSpanLoop n k src pos).run mem = (.ok ⟨⟩, overwrite mem pos (slice mem src (k * n))) := by
  induction k generalizing src pos mem with
  | zero => simp [readSpanLoop, slice, overwrite_nil]
  | succ k ih =>
    have e : (k + 1) * n = n + k * n := by rw [Nat.succ_mul, Nat.add_comm]
    rw [e] at hd h1 h2 ⊢
    have hs : (slice mem src n).length = n := slice_length (by omega)
    have h2' : pos + (slice mem src n).length ≤ mem.length := by omega
    have hl := overwrite_length h2'
    rw [readSpanLoop, St.run_bind_ok (St.run_get _), readMem_ok (by omega), St.run_bind_ok (St.run_lift _ _), ← slice,
      St.run_bind_ok (writeMem_ok h2'), ih _ _ _ (by omega) (by omega) (by omega), slice_overwrite h2' (by omega)]
    have h3 := overwrite_append (buf := mem) (pos := pos) (b1 := slice mem src n) (b2 := slice mem (src + n) (k * n))
      (by rw [hs, slice_length (by omega)]; omega)
    rw [hs] at h3
    rw [h3, ← slice_append]

/-! ## Overlapping bytes -/

/-- Copying bytes one after another. -/
def smear : (k : Nat) → (src pos : Nat) → List Nat → List Nat
  | 0, _, _, m => m
  | k + 1, src, pos, m => smear k (src + 1) (pos + 1) (overwrite m pos (slice m src 1))

theorem smear_add (a b src pos : Nat) (m : List Nat) :
    smear (a + b) src pos m = smear b (src + a) (pos + a) (smear a src pos m) := by
  induction a generalizing src pos m with
  | zero => simp [smear]
  | succ a ih =>
    rw [Nat.succ_add, smear, smear, ih, Nat.add_assoc, Nat.add_assoc, Nat.add_comm 1 a]

theorem forward_smear (n src pos : Nat) (m : List Nat) (h1 : src + n ≤ m.length) (h2 : pos + n ≤ m.length) :
    (copyWithin .forward src pos n).run m = (.ok ⟨⟩, smear n src pos m) := by
  induction n generalizing src pos m with
  | zero => rfl
  | succ n ih =>
    have hs : (slice m src 1).length = 1 := slice_length (by omega)
    have h2' : pos + (slice m src 1).length ≤ m.length := by omega
    have hl := overwrite_length h2'
    rw [copyWithin, St.run_bind_ok (St.run_get _)]
    simp only
    rw [readMem_ok (by omega), St.run_bind_ok (St.run_lift _ _), ← slice, St.run_bind_ok (writeMem_ok h2'),
      ih _ _ _ (by omega) (by omega)]
    rfl

theorem smear_apart (n src pos : Nat) (m : List Nat) (hd : src + n ≤ pos) (h2 : pos + n ≤ m.length) :
    overwrite m pos (slice m src n) = smear n src pos m := by
  have h := forward_smear n src pos m (by omega) h2
  rw [copyWithin_ok .forward src pos n m (by omega) (by omega) h2] at h
  exact (Prod.mk.inj h).2

theorem writeSpanLoop_smear (cp : CopyN) (n k src written d : Nat) (mem : List Nat) (hd : n ≤ d)
    (hl : src + d + k * n ≤ mem.length) :
    (writeSpanLoop cp n k src written (src + d)).run mem = (.ok (written + k * n), smear (k * n) src (src + d) mem) := by
  induction k generalizing src written mem with
  | zero => simp [writeSpanLoop, smear]
  | succ k ih =>
    have e : (k + 1) * n = n + k * n := by rw [Nat.succ_mul, Nat.add_comm]
    rw [e] at hl ⊢
    have hs : (slice mem src n).length = n := slice_length (by omega)
    have hlen : (overwrite mem (src + d) (slice mem src n)).length = mem.length := overwrite_length (by omega)
    have ih' := ih (src + n) (written + n) (overwrite mem (src + d) (slice mem src n)) (by omega)
    have e2 : src + n + d = src + d + n := by omega
    rw [e2] at ih'
    rw [writeSpanLoop, St.run_bind_ok (copyWithin_ok cp src (src + d) n mem (by omega) (by omega) (by omega)), ih',
      smear_add, smear_apart n src (src + d) mem (by omega) (by omega), Nat.add_assoc]

theorem readSpanLoop_smear (n k src d : Nat) (mem : List Nat) (hd : n ≤ d) (hl : src + d + k * n ≤ mem.length) :
    (readSpanLoop n k src (src + d)).run mem = (.ok ⟨⟩, smear (k * n) src (src + d) mem) := by
  induction k generalizing src mem with
  | zero => simp [readSpanLoop, smear]
  | succ k ih =>
    have e : (k + 1) * n = n + k * n := by rw [Nat.succ_mul, Nat.add_comm]
    rw [e] at hl ⊢
    have hs : (slice mem src n).length = n := slice_length (by omega)
    have hlen : (overwrite mem (src + d) (slice mem src n)).length = mem.length := overwrite_length (by omega)
    have ih' := ih (src + n) (overwrite mem (src + d) (slice mem src n)) (by omega)
    have e2 : src + n + d = src + d + n := by omega
    rw [e2] at ih'
    rw [readSpanLoop, St.run_bind_ok (St.run_get _), readMem_ok (by omega), St.run_bind_ok (St.run_lift _ _), ← slice,
      St.run_bind_ok (writeMem_ok (by omega)), ih', smear_add, smear_apart n src (src + d) mem (by omega) (by omega)]

theorem smear_up {d : Nat} (hd : 0 < d) (k src : Nat) (mem : List Nat) (hl : src + d + k ≤ mem.length) :
    (smear k src (src + d) mem).length = mem.length ∧
      (∀ i < k, (smear k src (src + d) mem)[src + d + i]? = mem[src + i % d]?) ∧
      ∀ j, j < src + d ∨ src + d + k ≤ j → (smear k src (src + d) mem)[j]? = mem[j]? := by
  induction k generalizing src mem with
  | zero => exact ⟨rfl, fun i hi => absurd hi (by omega), fun _ _ => rfl⟩
  | succ k ih =>
    have hs : (slice mem src 1).length = 1 := slice_length (by omega)
    have hp : src + d + (slice mem src 1).length ≤ mem.length := by omega
    have hlen := overwrite_length hp
    have h := ih (src + 1) (overwrite mem (src + d) (slice mem src 1)) (by omega)
    have e : src + 1 + d = src + d + 1 := by omega
    rw [e] at h
    obtain ⟨h2, h3, h4⟩ := h
    rw [smear]
    refine ⟨by omega, ?_, ?_⟩
    · intro i hi
      cases i with
      | zero =>
        rw [h4 (src + d + 0) (by omega), overwrite_getElem? hp, if_pos (by omega), slice_getElem?, Nat.zero_mod]
        simp
      | succ i =>
        have := h3 i (by omega)
        have e : src + d + 1 + i = src + d + (i + 1) := by omega
        rw [e] at this
        rw [this, overwrite_getElem? hp]
        have hm := Nat.mod_lt i hd
        by_cases hi2 : i % d + 1 = d
        · rw [if_pos (by omega), slice_getElem?, if_pos (by omega)]
          have : (i + 1) % d = 0 := by
            rw [← Nat.mod_add_mod, hi2, Nat.mod_self]
          rw [this]
          congr 1
          omega
        · have : (i + 1) % d = i % d + 1 := by
            rw [← Nat.mod_add_mod, Nat.mod_eq_of_lt (by omega)]
          rw [if_neg (by omega), this]
          congr 1
          omega
    · intro j hj
      rw [h4 j (by omega), overwrite_getElem? hp, if_neg (by omega)]

end Wite.Io
