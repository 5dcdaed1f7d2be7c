import Verif.Model.IoRecords
import Verif.Lemmas.IoView
import Verif.Lemmas.UuidPrint

/-!
# C208: ranges preceded by their sizes

Full claim: vectors written one after another, each behind its size as the README suggests, are read back as
they were, whatever the sizes of their elements and in whatever encoding their sizes are stored; a record that
does not fit is not written at all; and a reader that is given any other bytes reads a vector that is there or
reports an error, leaves the cursor where it was if it does, and asks for no more memory than the buffer holds.
-/

namespace Wite.Props

open Wite.Io Wite.Uuid Wite.Spec Wite.Records

/-! ## Specification -/

/-- A vector of objects of its element type. -/
def GoodVec (v : Vec) : Prop := 0 < v.size ∧ ∀ o ∈ v.elems, o.length = v.size ∧ ∀ b ∈ o, IsByte b

/-- The number of bytes a record takes. -/
def recordBytes (w : Nat) (v : Vec) : Nat := w + v.elems.length * v.size

/-- The number of bytes records take. -/
def recordsBytes (w : Nat) (vs : List Vec) : Nat := (vs.map (recordBytes w)).sum

/-- The number that bytes in a buffer say, read with an encoding. -/
def sizeStored (host : Endian) (enc : Enc) (bs : List Nat) : Nat :=
  match enc, host with
  | .littleEndian, _ => leValue bs
  | .bigEndian, _ => beValue bs
  | .native, .little => leValue bs
  | .native, .big => beValue bs

/-! ## Lemmas -/

private theorem intObject_length (host : Endian) (n v : Nat) : (intObject host n v).length = n := by
  cases host <;> simp [intObject, beBytes, Hex.leBytes_length]

private theorem intObject_byte (host : Endian) (n v : Nat) : ∀ b ∈ intObject host n v, IsByte b := by
  cases host with
  | little => exact Hex.leBytes_lt n v
  | big =>
    intro b hb
    exact Hex.leBytes_lt n v b (by simpa [intObject, beBytes] using hb)

private theorem leBytes_mod (n v : Nat) : leBytes n (v % 256 ^ n) = leBytes n v := by
  induction n generalizing v with
  | zero => rfl
  | succ n ih =>
    have h1 : v % 256 ^ (n + 1) % 256 = v % 256 :=
      Nat.mod_mod_of_dvd _ (Dvd.intro_left (256 ^ n) (Nat.pow_succ ..).symm)
    have h2 : v % 256 ^ (n + 1) / 256 = v / 256 % 256 ^ n := by
      rw [Nat.pow_succ, Nat.mul_comm, Nat.mod_mul_right_div_self]
    rw [leBytes, leBytes, h1, h2, ih]

private theorem leValue_leBytes_mod (n v : Nat) : leValue (leBytes n v) = v % 256 ^ n := by
  rw [← leBytes_mod, Hex.leValue_leBytes _ _ (Nat.mod_lt _ (Nat.pos_of_ne_zero (by positivity)))]

private theorem intValue_intObject (host : Endian) (n v : Nat) :
    intValue host (intObject host n v) = v % 256 ^ n := by
  cases host <;> simp [intValue, intObject, beValue, beBytes, leValue_leBytes_mod]

private theorem beValue_lt {bs : List Nat} (h : ∀ b ∈ bs, IsByte b) : beValue bs < 256 ^ bs.length := by
  have := Hex.leValue_lt bs.reverse (fun b hb => h b (by simpa using hb))
  simpa [beValue] using this

private theorem number_decode (host : Endian) (enc : Enc) (bs : List Nat) (h : ∀ b ∈ bs, IsByte b) :
    numberOf host (decode host enc bs) = sizeStored host enc bs := by
  rw [numberOf_eq]
  cases enc with
  | native => cases host <;> rfl
  | littleEndian =>
    simp only [decode, sizeStored, intValue_intObject]
    exact Nat.mod_eq_of_lt (Hex.leValue_lt _ h)
  | bigEndian =>
    simp only [decode, sizeStored, intValue_intObject]
    exact Nat.mod_eq_of_lt (beValue_lt h)

private theorem stored_encode (host : Endian) (enc : Enc) (w n : Nat) :
    sizeStored host enc (encode host enc (objectOf host w n)) = n % 256 ^ w := by
  rw [objectOf_eq, ← number_decode _ _ _ (encode_isByte (intObject_byte host w n)),
    decode_encode (intObject_byte host w n), numberOf_eq, intValue_intObject]

private theorem goodVals (host : Endian) (enc : Enc) (w : Nat) {v : Vec} (h : GoodVec v) :
    ∀ x ∈ [WVal.single enc (objectOf host w v.elems.length), .range v.size v.elems], GoodVal x := by
  intro x hx
  simp only [List.mem_cons, List.not_mem_nil, or_false] at hx
  rcases hx with rfl | rfl
  · rw [objectOf_eq]; exact intObject_byte host w _
  · exact h.2

private theorem size_vals (host : Endian) (enc : Enc) (w : Nat) (v : Vec) :
    totalSize [WVal.single enc (objectOf host w v.elems.length), .range v.size v.elems] = recordBytes w v := by
  simp [totalSize, sizeOfVal, recordBytes, objectOf_eq, intObject_length]

/-- The bytes of a record. -/
private def recordOf (host : Endian) (enc : Enc) (w : Nat) (v : Vec) : List Nat :=
  encode host enc (objectOf host w v.elems.length) ++ v.elems.flatten

private theorem recordOf_eq (host : Endian) (enc : Enc) (w : Nat) (v : Vec) :
    encodeAll host [WVal.single enc (objectOf host w v.elems.length), .range v.size v.elems] =
      recordOf host enc w v := by
  simp [encodeAll, encodeVal, recordOf]

private theorem head_length (host : Endian) (enc : Enc) (w n : Nat) :
    (encode host enc (objectOf host w n)).length = w := by
  rw [objectOf_eq, encode_length (intObject_byte host w n), intObject_length]

private theorem flatten_len {size : Nat} : ∀ {es : List Obj}, (∀ o ∈ es, o.length = size) →
    es.flatten.length = es.length * size
  | [], _ => by simp
  | o :: es, h => by
    rw [List.flatten_cons, List.length_append, flatten_len (fun x hx => h x (by simp [hx])), h o (by simp),
      List.length_cons, Nat.succ_mul]; omega

private theorem recordOf_length (host : Endian) (enc : Enc) (w : Nat) {v : Vec} (h : GoodVec v) :
    (recordOf host enc w v).length = recordBytes w v := by
  rw [recordOf, List.length_append, head_length, flatten_len (fun o ho => (h.2 o ho).1), recordBytes]

private theorem recordOf_byte (host : Endian) (enc : Enc) (w : Nat) {v : Vec} (h : GoodVec v) :
    ∀ b ∈ recordOf host enc w v, IsByte b := by
  intro b hb
  rw [recordOf, List.mem_append] at hb
  rcases hb with hb | hb
  · rw [objectOf_eq] at hb; exact encode_isByte (intObject_byte host w _) b hb
  · obtain ⟨o, ho, hbo⟩ := List.mem_flatten.1 hb
    exact (h.2 o ho).2 b hbo

private theorem writeRecord_run {host : Endian} {enc : Enc} {w : Nat} {v : Vec} {s : WriteView} (hv : GoodVec v)
    (h : s.pos ≤ s.data.length) (hT : recordBytes w v < 2 ^ 64) :
    (writeRecord host enc w v).run s =
      if s.data.length < s.pos + recordBytes w v then
        (.throw (.outOfRange "Insufficient buffer space for write"), s)
      else (.ok (recordBytes w v),
        { data := overwrite s.data s.pos (recordOf host enc w v), pos := s.pos + recordBytes w v }) := by
  have := WriteView.write_run (host := host) (goodVals host enc w hv) h (by rw [size_vals]; exact hT)
  rw [size_vals, recordOf_eq] at this
  exact this

private theorem tryWriteRecord_run {host : Endian} {enc : Enc} {w : Nat} {v : Vec} {s : WriteView}
    (hv : GoodVec v) (h : s.pos ≤ s.data.length) (hT : recordBytes w v < 2 ^ 64) :
    (tryWriteRecord host enc w v).run s =
      if s.data.length < s.pos + recordBytes w v then
        (.ok (.error .insufficientBuffer),
          { data := if s.pos + w ≤ s.data.length then
              overwrite s.data s.pos (encode host enc (objectOf host w v.elems.length)) else s.data,
            pos := s.pos })
      else (.ok (.value (recordBytes w v)),
        { data := overwrite s.data s.pos (recordOf host enc w v), pos := s.pos + recordBytes w v }) := by
  have := WriteView.tryWrite_run (host := host) (goodVals host enc w hv) h (by rw [size_vals]; exact hT)
  rw [size_vals, recordOf_eq] at this
  rw [tryWriteRecord, this]
  by_cases h2 : s.data.length < s.pos + recordBytes w v
  · rw [if_pos h2, if_pos h2]
    have hl : (objectOf host w v.elems.length).length = w := by rw [objectOf_eq, intObject_length]
    have hr : recordBytes w v = w + v.elems.length * v.size := rfl
    by_cases h3 : s.pos + w ≤ s.data.length
    · rw [if_pos h3]
      simp only [leadingFit, sizeOfVal, hl]
      rw [if_pos (by omega), if_neg (by omega)]
      simp [encodeAll, encodeVal]
    · rw [if_neg h3]
      simp only [leadingFit, sizeOfVal, hl]
      rw [if_neg (by omega)]
      simp [encodeAll, overwrite_nil]
  · rw [if_neg h2, if_neg h2]

private theorem onView_ok {α : Type} {x : St ReadView α} {r : Reader} {a : α} {v : ReadView}
    (h : x.run r.view = (.ok a, v)) : (onView x).run r = (.ok a, { r with view := v }) := by
  have h' : x r.view = (.ok a, v) := h
  simp [onView, St.run, h']

private theorem onView_throw {α : Type} {x : St ReadView α} {r : Reader} {e : Exc} {v : ReadView}
    (h : x.run r.view = (.throw e, v)) : (onView x).run r = (.throw e, { r with view := v }) := by
  have h' : x r.view = (.throw e, v) := h
  simp [onView, St.run, h']

/-- The requests for memory after a vector was asked for. -/
private def after (allocs : List Nat) (bytes : Nat) : List Nat := if bytes = 0 then allocs else bytes :: allocs

private theorem makeVec_run (heap : List Nat → Nat → Bool) (size n : Nat) (r : Reader) :
    (makeVec heap size n).run r =
      if 2 ^ 63 - 1 < n * size then
        (.throw (.lengthError "cannot create std::vector larger than max_size()"), r)
      else if n * size = 0 ∨ heap r.allocs (n * size) = true then
        (.ok (), { r with allocs := after r.allocs (n * size) })
      else (.throw .badAlloc, { r with allocs := after r.allocs (n * size) }) := by
  simp only [makeVec, St.run, after]
  by_cases h1 : 2 ^ 63 - 1 < n * size
  · rw [if_pos h1, if_pos h1]
  · rw [if_neg h1, if_neg h1]
    by_cases h2 : n * size = 0
    · rw [if_pos h2, if_pos (Or.inl h2), if_pos h2]
    · rw [if_neg h2, if_neg h2]
      by_cases h3 : heap r.allocs (n * size) = true
      · rw [if_pos h3, if_pos (Or.inr h3)]
      · rw [if_neg h3, if_neg (by simp only [h2, false_or]; exact h3)]

/-- The number at the cursor. -/
private def sizeAt (host : Endian) (enc : Enc) (w : Nat) (v : ReadView) : Nat :=
  sizeStored host enc ((v.data.drop v.pos).take w)

private theorem take_byte {bs : List Nat} {n : Nat} (h : ∀ b ∈ bs, IsByte b) : ∀ b ∈ bs.take n, IsByte b :=
  fun b hb => h b (List.mem_of_mem_take hb)

private theorem readRecord_run {host : Endian} {enc : Enc} {w size : Nat} {heap : List Nat → Nat → Bool}
    {r : Reader} (hb : ∀ b ∈ r.view.data, IsByte b) (hp : r.view.pos ≤ r.view.data.length) (hw : w < 2 ^ 64) :
    (readRecord host enc w size heap).run r =
      if r.view.data.length < r.view.pos + w then
        (.throw (.outOfRange "Insufficient buffer space for read"), r)
      else if 2 ^ 63 - 1 < sizeAt host enc w r.view * size then
        (.throw (.lengthError "cannot create std::vector larger than max_size()"),
          ⟨⟨r.view.data, r.view.pos + w⟩, r.allocs⟩)
      else if sizeAt host enc w r.view * size = 0 ∨ heap r.allocs (sizeAt host enc w r.view * size) = true then
        if r.view.data.length < r.view.pos + w + sizeAt host enc w r.view * size then
          (.throw (.outOfRange "Insufficient buffer space for read"),
            ⟨⟨r.view.data, r.view.pos + w⟩, after r.allocs (sizeAt host enc w r.view * size)⟩)
        else (.ok (decodeSeq host (List.replicate (sizeAt host enc w r.view) ⟨size, .native⟩)
            (r.view.data.drop (r.view.pos + w))),
          ⟨⟨r.view.data, r.view.pos + w + sizeAt host enc w r.view * size⟩,
            after r.allocs (sizeAt host enc w r.view * size)⟩)
      else (.throw .badAlloc,
        ⟨⟨r.view.data, r.view.pos + w⟩, after r.allocs (sizeAt host enc w r.view * size)⟩) := by
  have e1 : totalTySize [⟨w, enc⟩] = w := by simp [totalTySize]
  have h1 := ReadView.read_run (host := host) (ts := [⟨w, enc⟩]) hb hp (by rw [e1]; exact hw)
  rw [e1] at h1
  rw [readRecord]
  by_cases h2 : r.view.data.length < r.view.pos + w
  · rw [if_pos h2] at h1 ⊢
    rw [St.run_bind_throw (onView_throw h1)]
  · rw [if_neg h2] at h1 ⊢
    rw [St.run_bind_ok (onView_ok h1)]
    simp only [decodeSeq]
    have hn : numberOf host (decode host enc ((r.view.data.drop r.view.pos).take w)) =
        sizeAt host enc w r.view := number_decode host enc _ (take_byte (drop_isByte hb))
    rw [hn]
    have hm := makeVec_run heap size (sizeAt host enc w r.view)
      { r with view := { r.view with pos := r.view.pos + w } }
    by_cases h3 : 2 ^ 63 - 1 < sizeAt host enc w r.view * size
    · rw [if_pos h3] at hm ⊢
      rw [St.run_bind_throw hm]
    · rw [if_neg h3] at hm ⊢
      by_cases h4 : sizeAt host enc w r.view * size = 0 ∨ heap r.allocs (sizeAt host enc w r.view * size) = true
      · rw [if_pos h4] at hm ⊢
        rw [St.run_bind_ok hm]
        have h5 := ReadView.readRange_run (host := host) (t := ⟨size, .native⟩) (n := sizeAt host enc w r.view)
          (v := { r.view with pos := r.view.pos + w }) hb (by simp only; omega) (by simp only; omega)
        by_cases h6 : r.view.data.length < r.view.pos + w + sizeAt host enc w r.view * size
        · rw [if_pos h6] at h5 ⊢
          exact onView_throw h5
        · rw [if_neg h6] at h5 ⊢
          exact onView_ok h5
      · rw [if_neg h4] at hm ⊢
        rw [St.run_bind_throw hm]

private theorem decodeSeq_spec (host : Endian) (size : Nat) : ∀ (n : Nat) (bs : List Nat), n * size ≤ bs.length →
    (decodeSeq host (List.replicate n ⟨size, .native⟩) bs).length = n ∧
    (decodeSeq host (List.replicate n ⟨size, .native⟩) bs).flatten = bs.take (n * size) ∧
    ∀ o ∈ decodeSeq host (List.replicate n ⟨size, .native⟩) bs, o.length = size
  | 0, bs, _ => by simp [decodeSeq]
  | n + 1, bs, h => by
    rw [Nat.succ_mul] at h ⊢
    obtain ⟨h1, h2, h3⟩ := decodeSeq_spec host size n (bs.drop size) (by rw [List.length_drop]; omega)
    simp only [List.replicate_succ, decodeSeq, decode, List.length_cons, List.flatten_cons, List.mem_cons]
    refine ⟨by rw [h1], ?_, ?_⟩
    · rw [h2, Nat.add_comm (n * size) size, List.take_add]
    · rintro o (rfl | ho)
      · rw [List.length_take]; omega
      · exact h3 o ho

/-! ## Writing -/

private theorem writeRecords_run (host : Endian) (enc : Enc) (w : Nat) (vs : List Vec) (s : WriteView)
    (hv : ∀ v ∈ vs, GoodVec v) (hp : s.pos ≤ s.data.length) (hs : s.data.length < 2 ^ 63)
    (hroom : s.pos + recordsBytes w vs ≤ s.data.length) :
    (writeRecords host enc w vs).run s = (.ok (),
      ⟨overwrite s.data s.pos (vs.flatMap (recordOf host enc w)), s.pos + recordsBytes w vs⟩) := by
  induction vs generalizing s with
  | nil => simp [writeRecords, recordsBytes, overwrite_nil]
  | cons v vs ih =>
    have hv1 := hv v (by simp)
    have hvs : ∀ x ∈ vs, GoodVec x := fun x hx => hv x (by simp [hx])
    have e : recordsBytes w (v :: vs) = recordBytes w v + recordsBytes w vs := by simp [recordsBytes]
    rw [e] at hroom ⊢
    have hl := recordOf_length host enc w hv1
    have h1 := writeRecord_run (host := host) (enc := enc) hv1 hp (w := w) (by omega)
    rw [if_neg (by omega)] at h1
    have hol : (overwrite s.data s.pos (recordOf host enc w v)).length = s.data.length :=
      overwrite_length (by omega)
    rw [writeRecords, St.run_bind_ok h1, ih _ hvs (by simp only; omega) (by simp only; omega)
      (by simp only; omega)]
    simp only [List.flatMap_cons]
    have hall : (vs.flatMap (recordOf host enc w)).length = recordsBytes w vs := by
      clear ih h1 hroom e hv hol
      induction vs with
      | nil => simp [recordsBytes]
      | cons x xs ih2 =>
        rw [List.flatMap_cons, List.length_append, recordOf_length host enc w (hvs x (by simp)),
          ih2 (fun y hy => hvs y (by simp [hy]))]
        simp [recordsBytes]
    rw [← hl, overwrite_append (by omega), Nat.add_assoc]

private theorem readRecords_run (host : Endian) (enc : Enc) (w : Nat) (heap : List Nat → Nat → Bool)
    (vs : List Vec) (pre post allocs : List Nat) (hv : ∀ v ∈ vs, GoodVec v)
    (hw : ∀ v ∈ vs, v.elems.length < 256 ^ w)
    (hpre : ∀ b ∈ pre, IsByte b) (hpost : ∀ b ∈ post, IsByte b)
    (hs : (pre ++ vs.flatMap (recordOf host enc w) ++ post).length < 2 ^ 63)
    (hheap : ∀ v ∈ vs, ∀ a, heap a (v.elems.length * v.size) = true) :
    ∃ allocs', (readRecords host enc w heap (vs.map Vec.size)).run
        ⟨⟨pre ++ vs.flatMap (recordOf host enc w) ++ post, pre.length⟩, allocs⟩ =
      (.ok (vs.map Vec.elems),
        ⟨⟨pre ++ vs.flatMap (recordOf host enc w) ++ post, pre.length + recordsBytes w vs⟩, allocs'⟩) := by
  induction vs generalizing pre allocs with
  | nil => exact ⟨allocs, by simp [readRecords, recordsBytes]⟩
  | cons v vs ih =>
    have hv1 := hv v (by simp)
    have hvs : ∀ x ∈ vs, GoodVec x := fun x hx => hv x (by simp [hx])
    have hl := recordOf_length host enc w hv1
    have e : recordsBytes w (v :: vs) = recordBytes w v + recordsBytes w vs := by simp [recordsBytes]
    have hdata : pre ++ (v :: vs).flatMap (recordOf host enc w) ++ post =
        (pre ++ recordOf host enc w v) ++ vs.flatMap (recordOf host enc w) ++ post := by simp
    have hvb : ∀ b ∈ vs.flatMap (recordOf host enc w), IsByte b := by
      intro b hb
      obtain ⟨x, hx, hbx⟩ := List.mem_flatMap.1 hb
      exact recordOf_byte host enc w (hvs x hx) b hbx
    have hbytes : ∀ b ∈ pre ++ (v :: vs).flatMap (recordOf host enc w) ++ post, IsByte b := by
      rw [hdata]
      intro b hb
      simp only [List.mem_append] at hb
      rcases hb with ((hb | hb) | hb) | hb
      · exact hpre b hb
      · exact recordOf_byte host enc w hv1 b hb
      · exact hvb b hb
      · exact hpost b hb
    have hlen : (pre ++ (v :: vs).flatMap (recordOf host enc w) ++ post).length =
        pre.length + recordBytes w v + (vs.flatMap (recordOf host enc w) ++ post).length := by
      rw [hdata]; simp only [List.length_append, hl]; omega
    have hr : recordBytes w v = w + v.elems.length * v.size := rfl
    have hdrop : (pre ++ (v :: vs).flatMap (recordOf host enc w) ++ post).drop pre.length =
        encode host enc (objectOf host w v.elems.length) ++
          (v.elems.flatten ++ (vs.flatMap (recordOf host enc w) ++ post)) := by
      rw [hdata]; simp [recordOf]
    have hdrop2 : (pre ++ (v :: vs).flatMap (recordOf host enc w) ++ post).drop (pre.length + w) =
        v.elems.flatten ++ (vs.flatMap (recordOf host enc w) ++ post) := by
      rw [← List.drop_drop, hdrop, List.drop_append, head_length, Nat.sub_self, List.drop_zero,
        List.drop_of_length_le (by rw [head_length]), List.nil_append]
    have hn : sizeAt host enc w ⟨pre ++ (v :: vs).flatMap (recordOf host enc w) ++ post, pre.length⟩ =
        v.elems.length := by
      rw [sizeAt, hdrop, List.take_append, head_length, Nat.sub_self, List.take_zero, List.append_nil,
        List.take_of_length_le (by rw [head_length]), stored_encode, Nat.mod_eq_of_lt (hw v (by simp))]
    have h1 := readRecord_run (host := host) (enc := enc) (w := w) (size := v.size) (heap := heap)
      (r := ⟨⟨pre ++ (v :: vs).flatMap (recordOf host enc w) ++ post, pre.length⟩, allocs⟩) hbytes
      (by simp only; omega) (by omega)
    simp only [hn] at h1
    rw [if_neg (by omega), if_neg (by omega), if_pos (Or.inr (hheap v (by simp) _)), if_neg (by omega),
      hdrop2, decodeSeq_native _ _ _ (fun o ho => (hv1.2 o ho).1)] at h1
    obtain ⟨allocs', h2⟩ := ih (pre ++ recordOf host enc w v) (after allocs (v.elems.length * v.size)) hvs
      (fun x hx => hw x (by simp [hx]))
      (by
        intro b hb
        rcases List.mem_append.1 hb with hb | hb
        · exact hpre b hb
        · exact recordOf_byte host enc w hv1 b hb)
      (by rw [← hdata]; exact hs) (fun x hx => hheap x (by simp [hx]))
    rw [← hdata] at h2
    refine ⟨allocs', ?_⟩
    have h2' : (readRecords host enc w heap (vs.map Vec.size)).run
        ⟨⟨pre ++ (v :: vs).flatMap (recordOf host enc w) ++ post, pre.length + w + v.elems.length * v.size⟩,
          after allocs (v.elems.length * v.size)⟩ = (.ok (vs.map Vec.elems),
        ⟨⟨pre ++ (v :: vs).flatMap (recordOf host enc w) ++ post,
          pre.length + recordsBytes w (v :: vs)⟩, allocs'⟩) := by
      rw [List.length_append, hl, hr, ← Nat.add_assoc] at h2
      rw [h2, e, hr]; simp only [Nat.add_assoc]
    rw [List.map_cons, readRecords, St.run_bind_ok h1, St.run_bind_ok h2']
    rfl

/-- **C208, provable part.** Vectors written one after another, each behind its size, into a buffer with room
for them are read back as they were, whatever the sizes of their elements and in whatever encoding and width
their sizes are stored, on machines of either endianness, if the sizes can be stored in that width and there
is memory; the reader ends where the writer did, and nothing around the records is touched. -/
theorem c208_round_trip_partial (host : Endian) (enc : Enc) (w : Nat) (vs : List Vec) (s : WriteView)
    (hv : ∀ v ∈ vs, GoodVec v) (hb : ∀ b ∈ s.data, IsByte b) (hs : s.data.length < 2 ^ 63)
    (hroom : s.pos + recordsBytes w vs ≤ s.data.length) (hw : ∀ v ∈ vs, v.elems.length < 256 ^ w) :
    ∃ s', (writeRecords host enc w vs).run s = (.ok (), s') ∧
      s'.pos = s.pos + recordsBytes w vs ∧ s'.data.length = s.data.length ∧
      s'.data.take s.pos = s.data.take s.pos ∧ s'.data.drop s'.pos = s.data.drop s'.pos ∧
      ∀ heap : List Nat → Nat → Bool, (∀ v ∈ vs, ∀ a, heap a (v.elems.length * v.size) = true) →
        ∃ r, (readRecords host enc w heap (vs.map Vec.size)).run ⟨⟨s'.data, s.pos⟩, []⟩ =
          (.ok (vs.map Vec.elems), r) ∧ r.view = ⟨s'.data, s'.pos⟩ := by
  have h1 := writeRecords_run host enc w vs s hv (by omega) hs hroom
  have hall : (vs.flatMap (recordOf host enc w)).length = recordsBytes w vs := by
    clear h1 hroom hw
    induction vs with
    | nil => simp [recordsBytes]
    | cons x xs ih2 =>
      rw [List.flatMap_cons, List.length_append, recordOf_length host enc w (hv x (by simp)),
        ih2 (fun y hy => hv y (by simp [hy]))]
      simp [recordsBytes]
  have hpre : (s.data.take s.pos).length = s.pos := by rw [List.length_take]; omega
  refine ⟨_, h1, rfl, overwrite_length (by omega), ?_, ?_, ?_⟩
  · simp only [overwrite]
    rw [List.append_assoc, List.take_append, hpre, Nat.sub_self, List.take_zero, List.append_nil,
      List.take_take, Nat.min_self]
  · simp only
    rw [← hall, ← List.drop_drop, drop_overwrite (by omega), List.drop_append, Nat.sub_self, List.drop_zero,
      List.drop_of_length_le (Nat.le_refl _), List.nil_append]
  · intro heap hheap
    obtain ⟨a, h2⟩ := readRecords_run host enc w heap vs (s.data.take s.pos)
      (s.data.drop (s.pos + (vs.flatMap (recordOf host enc w)).length)) [] hv hw (take_byte hb)
      (drop_isByte hb)
      (by
        have := overwrite_length (buf := s.data) (pos := s.pos) (bs := vs.flatMap (recordOf host enc w))
          (by omega)
        rw [overwrite] at this
        omega) hheap
    rw [hpre] at h2
    exact ⟨_, h2, rfl⟩

/-- Three 16-bit numbers and one 32-bit number behind 16-bit big-endian sizes, between other bytes. -/
example : (writeRecords .little .bigEndian 2 [⟨2, [[1, 0], [2, 0], [3, 0]]⟩, ⟨4, [[7, 0, 0, 0]]⟩]).run
    ⟨List.replicate 16 9, 1⟩ =
    (.ok (), ⟨[9, 0, 3, 1, 0, 2, 0, 3, 0, 0, 1, 7, 0, 0, 0, 9], 15⟩) := by decide +kernel

/-- What was written is read back. -/
example : ((readRecords .little .bigEndian 2 (fun _ _ => true) [2, 4]).run
    ⟨⟨[9, 0, 3, 1, 0, 2, 0, 3, 0, 0, 1, 7, 0, 0, 0, 9], 1⟩, []⟩) =
    (.ok [[[1, 0], [2, 0], [3, 0]], [[7, 0, 0, 0]]],
      ⟨⟨[9, 0, 3, 1, 0, 2, 0, 3, 0, 0, 1, 7, 0, 0, 0, 9], 15⟩, [4, 6]⟩) := by decide +kernel

/-- A record is written if and only if there is room for all of it, else nothing is written. -/
theorem c208_whole (host : Endian) (enc : Enc) (w : Nat) (v : Vec) (s : WriteView) (hv : GoodVec v)
    (hp : s.pos ≤ s.data.length) (hs : recordBytes w v < 2 ^ 64) :
    (s.pos + recordBytes w v ≤ s.data.length ∧
      ∃ s', (writeRecord host enc w v).run s = (.ok (recordBytes w v), s') ∧
        s'.pos = s.pos + recordBytes w v) ∨
    (s.data.length < s.pos + recordBytes w v ∧
      (writeRecord host enc w v).run s = (.throw (.outOfRange "Insufficient buffer space for write"), s)) := by
  have h := writeRecord_run (host := host) (enc := enc) hv hp hs
  by_cases h2 : s.data.length < s.pos + recordBytes w v
  · rw [if_pos h2] at h; exact Or.inr ⟨h2, h⟩
  · rw [if_neg h2] at h; exact Or.inl ⟨by omega, _, h, rfl⟩

/-- No room for the second element. -/
example : (writeRecord .little .native 1 ⟨2, [[1, 0], [2, 0]]⟩).run ⟨[9, 9, 9, 9], 0⟩ =
    (.throw (.outOfRange "Insufficient buffer space for write"), ⟨[9, 9, 9, 9], 0⟩) := by decide +kernel

/-! ## Reading any bytes -/

/-- **C208, provable part.** Whatever the buffer holds and whatever the allocator decides, reading a record
returns exactly the elements that are in the buffer behind the size, as many as the size says, or throws; it
never goes out of bounds, changes nothing in the buffer and never moves the cursor out of it. -/
theorem c208_any_bytes_partial (host : Endian) (enc : Enc) (w size : Nat) (heap : List Nat → Nat → Bool)
    (r : Reader) (hb : ∀ b ∈ r.view.data, IsByte b) (hp : r.view.pos ≤ r.view.data.length) (hw : w < 2 ^ 64) :
    (∃ xs r', (readRecord host enc w size heap).run r = (.ok xs, r') ∧ r'.view.data = r.view.data ∧
      xs.length = sizeStored host enc ((r.view.data.drop r.view.pos).take w) ∧
      (∀ x ∈ xs, x.length = size) ∧
      xs.flatten = (r.view.data.drop (r.view.pos + w)).take (xs.length * size) ∧
      r'.view.pos = r.view.pos + w + xs.length * size ∧ r'.view.pos ≤ r.view.data.length) ∨
    (∃ e r', (readRecord host enc w size heap).run r = (.throw e, r') ∧ r'.view.data = r.view.data ∧
      r'.view.pos ≤ r.view.data.length ∧ (r'.view.pos = r.view.pos ∨ r'.view.pos = r.view.pos + w)) := by
  have h := readRecord_run (host := host) (enc := enc) (w := w) (size := size) (heap := heap) hb hp hw
  by_cases h2 : r.view.data.length < r.view.pos + w
  · rw [if_pos h2] at h
    exact Or.inr ⟨_, _, h, rfl, hp, Or.inl rfl⟩
  · rw [if_neg h2] at h
    by_cases h3 : 2 ^ 63 - 1 < sizeAt host enc w r.view * size
    · rw [if_pos h3] at h
      exact Or.inr ⟨_, _, h, rfl, by simp only; omega, Or.inr rfl⟩
    · rw [if_neg h3] at h
      by_cases h4 : sizeAt host enc w r.view * size = 0 ∨ heap r.allocs (sizeAt host enc w r.view * size) = true
      · rw [if_pos h4] at h
        by_cases h6 : r.view.data.length < r.view.pos + w + sizeAt host enc w r.view * size
        · rw [if_pos h6] at h
          exact Or.inr ⟨_, _, h, rfl, by simp only; omega, Or.inr rfl⟩
        · rw [if_neg h6] at h
          obtain ⟨d1, d2, d3⟩ := decodeSeq_spec host size (sizeAt host enc w r.view)
            (r.view.data.drop (r.view.pos + w)) (by rw [List.length_drop]; omega)
          refine Or.inl ⟨_, _, h, rfl, d1, d3, ?_, ?_, ?_⟩
          · rw [d1, d2]
          · simp only [d1]
          · simp only; omega
      · rw [if_neg h4] at h
        exact Or.inr ⟨_, _, h, rfl, by simp only; omega, Or.inr rfl⟩

/-- The size says three, there are two. -/
example : ((readRecord .little .native 1 1 (fun _ _ => true)).run ⟨⟨[3, 1, 2], 0⟩, []⟩) =
    (.throw (.outOfRange "Insufficient buffer space for read"), ⟨⟨[3, 1, 2], 1⟩, [3]⟩) := by decide +kernel

/-- A record is read if and only if it is there in full and there is memory for it. -/
theorem c208_read_iff (host : Endian) (enc : Enc) (w size : Nat) (heap : List Nat → Nat → Bool)
    (r : Reader) (hb : ∀ b ∈ r.view.data, IsByte b) (hp : r.view.pos ≤ r.view.data.length)
    (hs : r.view.data.length < 2 ^ 63) (hw : w < 2 ^ 64) :
    (∃ xs r', (readRecord host enc w size heap).run r = (.ok xs, r')) ↔
      r.view.pos + w ≤ r.view.data.length ∧
      r.view.pos + w + sizeStored host enc ((r.view.data.drop r.view.pos).take w) * size ≤ r.view.data.length ∧
      (sizeStored host enc ((r.view.data.drop r.view.pos).take w) * size = 0 ∨
        heap r.allocs (sizeStored host enc ((r.view.data.drop r.view.pos).take w) * size) = true) := by
  have h := readRecord_run (host := host) (enc := enc) (w := w) (size := size) (heap := heap) hb hp hw
  rw [h]
  change _ ↔ _ ∧ r.view.pos + w + sizeAt host enc w r.view * size ≤ _ ∧
    (sizeAt host enc w r.view * size = 0 ∨ heap r.allocs (sizeAt host enc w r.view * size) = true)
  generalize sizeAt host enc w r.view = n
  constructor
  · rintro ⟨xs, r', h⟩
    split at h
    · exact absurd (congrArg Prod.fst h) (by simp)
    · split at h
      · exact absurd (congrArg Prod.fst h) (by simp)
      · split at h
        · split at h
          · exact absurd (congrArg Prod.fst h) (by simp)
          · exact ⟨by omega, by omega, by assumption⟩
        · exact absurd (congrArg Prod.fst h) (by simp)
  · rintro ⟨h1, h2, h3⟩
    rw [if_neg (by omega), if_neg (by omega), if_pos h3, if_neg (by omega)]
    exact ⟨_, _, rfl⟩

/-- The size says two and there are two. -/
example : ((readRecord .little .native 1 1 (fun _ _ => true)).run ⟨⟨[2, 1, 2], 0⟩, []⟩).1 = .ok [[1], [2]] := by
  decide +kernel

private theorem tryReadRecord_run {host : Endian} {enc : Enc} {w size : Nat} {heap : List Nat → Nat → Bool}
    {r : Reader} (hb : ∀ b ∈ r.view.data, IsByte b) (hp : r.view.pos ≤ r.view.data.length) (hw : w < 2 ^ 64) :
    (tryReadRecord host enc w size heap).run r =
      if r.view.data.length < r.view.pos + w then
        (.ok (.error .insufficientBuffer), ⟨⟨r.view.data, r.view.data.length⟩, r.allocs⟩)
      else if 2 ^ 63 - 1 < sizeAt host enc w r.view * size then
        (.throw (.lengthError "cannot create std::vector larger than max_size()"),
          ⟨⟨r.view.data, r.view.pos + w⟩, r.allocs⟩)
      else if sizeAt host enc w r.view * size = 0 ∨ heap r.allocs (sizeAt host enc w r.view * size) = true then
        if r.view.data.length < r.view.pos + w + sizeAt host enc w r.view * size then
          (.ok (.error .insufficientBuffer),
            ⟨⟨r.view.data, r.view.data.length⟩, after r.allocs (sizeAt host enc w r.view * size)⟩)
        else (.ok (.value (decodeSeq host (List.replicate (sizeAt host enc w r.view) ⟨size, .native⟩)
            (r.view.data.drop (r.view.pos + w)))),
          ⟨⟨r.view.data, r.view.pos + w + sizeAt host enc w r.view * size⟩,
            after r.allocs (sizeAt host enc w r.view * size)⟩)
      else (.throw .badAlloc,
        ⟨⟨r.view.data, r.view.pos + w⟩, after r.allocs (sizeAt host enc w r.view * size)⟩) := by
  have e1 : totalTySize [⟨w, enc⟩] = w := by simp [totalTySize]
  rw [tryReadRecord]
  by_cases h2 : r.view.data.length < r.view.pos + w
  · have hrs : recursiveTryRead host [⟨w, enc⟩] (r.view.data.drop r.view.pos) =
        .ok [.error .insufficientBuffer] := by
      have hlen : (r.view.data.drop r.view.pos).length < w := by rw [List.length_drop]; omega
      simp only [recursiveTryRead, tryRead_eq (drop_isByte hb)]
      rw [if_pos hlen]
      simp [Result.ok, Result.index, spanFrom]
    have hr := ReadView.tryRead_run (host := host) (ts := [⟨w, enc⟩]) (v := r.view) hp (by rw [e1]; exact hw) hrs
    rw [e1, Nat.min_eq_right (by omega)] at hr
    rw [if_pos h2, St.run_bind_ok (onView_ok hr)]
    rfl
  · have hrs : recursiveTryRead host [⟨w, enc⟩] (r.view.data.drop r.view.pos) =
        .ok [.value (decode host enc ((r.view.data.drop r.view.pos).take w))] := by
      have hlen : ¬ (r.view.data.drop r.view.pos).length < w := by rw [List.length_drop]; omega
      have hlen' : w ≤ (r.view.data.drop r.view.pos).length := by omega
      simp only [recursiveTryRead, tryRead_eq (drop_isByte hb)]
      rw [if_neg hlen]
      simp only [Result.ok, Result.index, spanFrom, Outcome.bind_ok, beq_self_eq_true, if_true]
      rw [if_pos hlen']
      rfl
    have hr := ReadView.tryRead_run (host := host) (ts := [⟨w, enc⟩]) (v := r.view) hp (by rw [e1]; exact hw) hrs
    rw [e1, Nat.min_eq_left (by omega)] at hr
    rw [if_neg h2, St.run_bind_ok (onView_ok hr)]
    simp only
    have hn : numberOf host (decode host enc ((r.view.data.drop r.view.pos).take w)) =
        sizeAt host enc w r.view := number_decode host enc _ (take_byte (drop_isByte hb))
    rw [hn]
    have hm := makeVec_run heap size (sizeAt host enc w r.view)
      { r with view := { r.view with pos := r.view.pos + w } }
    by_cases h3 : 2 ^ 63 - 1 < sizeAt host enc w r.view * size
    · rw [if_pos h3] at hm ⊢
      rw [St.run_bind_throw hm]
    · rw [if_neg h3] at hm ⊢
      by_cases h4 : sizeAt host enc w r.view * size = 0 ∨ heap r.allocs (sizeAt host enc w r.view * size) = true
      · rw [if_pos h4] at hm ⊢
        rw [St.run_bind_ok hm]
        have h5 := ReadView.tryReadRange_run (host := host) (t := ⟨size, .native⟩)
          (n := sizeAt host enc w r.view)
          (v := { r.view with pos := r.view.pos + w }) hb (by simp only; omega) (by simp only; omega)
        by_cases h6 : r.view.data.length < r.view.pos + w + sizeAt host enc w r.view * size
        · rw [if_pos h6] at h5 ⊢
          exact onView_ok h5
        · rw [if_neg h6] at h5 ⊢
          exact onView_ok h5
      · rw [if_neg h4] at hm ⊢
        rw [St.run_bind_throw hm]

/-- **C208.** The `try_` functions read and write the same records with the same effects as the throwing ones,
so that what holds of these when they return holds of those when they return a value. -/
theorem c208_try (host : Endian) (enc : Enc) (w size : Nat) (heap : List Nat → Nat → Bool) (r : Reader)
    (hb : ∀ b ∈ r.view.data, IsByte b) (hp : r.view.pos ≤ r.view.data.length) (hw : w < 2 ^ 64)
    (v : Vec) (hv : GoodVec v) (s : WriteView) (hs : s.pos ≤ s.data.length) (hT : recordBytes w v < 2 ^ 64) :
    (∀ xs r', (tryReadRecord host enc w size heap).run r = (.ok (.value xs), r') ↔
      (readRecord host enc w size heap).run r = (.ok xs, r')) ∧
    (∀ n s', (tryWriteRecord host enc w v).run s = (.ok (.value n), s') ↔
      (writeRecord host enc w v).run s = (.ok n, s')) := by
  constructor
  · intro xs r'
    rw [tryReadRecord_run hb hp hw, readRecord_run hb hp hw]
    by_cases h2 : r.view.data.length < r.view.pos + w
    · rw [if_pos h2, if_pos h2]; simp
    · rw [if_neg h2, if_neg h2]
      by_cases h3 : 2 ^ 63 - 1 < sizeAt host enc w r.view * size
      · rw [if_pos h3, if_pos h3]; simp
      · rw [if_neg h3, if_neg h3]
        by_cases h4 : sizeAt host enc w r.view * size = 0 ∨
            heap r.allocs (sizeAt host enc w r.view * size) = true
        · rw [if_pos h4, if_pos h4]
          by_cases h6 : r.view.data.length < r.view.pos + w + sizeAt host enc w r.view * size
          · rw [if_pos h6, if_pos h6]; simp
          · rw [if_neg h6, if_neg h6]; simp
        · rw [if_neg h4, if_neg h4]; simp
  · intro n s'
    rw [tryWriteRecord_run hv hs hT, writeRecord_run hv hs hT]
    by_cases h2 : s.data.length < s.pos + recordBytes w v
    · rw [if_pos h2, if_pos h2]; simp
    · rw [if_neg h2, if_neg h2]; simp

/-- The same record by the `try_` function. -/
example : (tryReadRecord .little .native 1 1 (fun _ _ => true)).run ⟨⟨[2, 1, 2], 0⟩, []⟩ =
    (.ok (.value [[1], [2]]), ⟨⟨[2, 1, 2], 3⟩, [2]⟩) := by decide +kernel

/-- **C208.** Whatever became of a record that was read, by the throwing or the `try_` functions, seeking back
to where the cursor was makes the view what it was, so that reading it again reads the same record. -/
theorem c208_recover (host : Endian) (enc : Enc) (w size : Nat) (heap : List Nat → Nat → Bool) (r : Reader)
    (hb : ∀ b ∈ r.view.data, IsByte b) (hp : r.view.pos ≤ r.view.data.length) (hw : w < 2 ^ 64) :
    (ReadView.seek (ReadView.readPosition r.view)).run ((readRecord host enc w size heap).run r).2.view =
      (.ok ⟨⟩, r.view) ∧
    (ReadView.seek (ReadView.readPosition r.view)).run ((tryReadRecord host enc w size heap).run r).2.view =
      (.ok ⟨⟩, r.view) := by
  have key : ∀ v : ReadView, v.data = r.view.data →
      (ReadView.seek (ReadView.readPosition r.view)).run v = (.ok ⟨⟩, r.view) := by
    intro v hv
    rw [ReadView.seek_run, ReadView.readPosition, hv, if_neg (by omega)]
  constructor
  · apply key
    rw [readRecord_run hb hp hw]
    split
    · rfl
    · split
      · rfl
      · split
        · split <;> rfl
        · rfl
  · apply key
    rw [tryReadRecord_run hb hp hw]
    split
    · rfl
    · split
      · rfl
      · split
        · split <;> rfl
        · rfl

/-- Back to the size of a record that is not there in full. -/
example : (ReadView.seek 0).run
    ((readRecord .little .native 1 1 (fun _ _ => true)).run ⟨⟨[3, 1, 2], 0⟩, []⟩).2.view =
    (.ok ⟨⟩, ⟨[3, 1, 2], 0⟩) := by decide +kernel

/-! ## What does not hold -/

/-- **C208, refuted: the cursor.** Whenever the size is there and the elements are not, the read throws with
the cursor behind the size: reading again reads something else. -/
theorem c208_refuted_cursor (host : Endian) (enc : Enc) (w size : Nat) (heap : List Nat → Nat → Bool)
    (r : Reader) (hb : ∀ b ∈ r.view.data, IsByte b) (hw : 0 < w)
    (hs : r.view.data.length < 2 ^ 63) (h1 : r.view.pos + w ≤ r.view.data.length)
    (h2 : r.view.data.length <
      r.view.pos + w + sizeStored host enc ((r.view.data.drop r.view.pos).take w) * size) :
    ∃ e r', (readRecord host enc w size heap).run r = (.throw e, r') ∧ r'.view.pos ≠ r.view.pos := by
  have h := readRecord_run (host := host) (enc := enc) (w := w) (size := size) (heap := heap) hb
    (by omega) (by omega)
  rw [if_neg (by omega)] at h
  by_cases h3 : 2 ^ 63 - 1 < sizeAt host enc w r.view * size
  · rw [if_pos h3] at h
    exact ⟨_, _, h, by simp only; omega⟩
  · rw [if_neg h3] at h
    by_cases h4 : sizeAt host enc w r.view * size = 0 ∨ heap r.allocs (sizeAt host enc w r.view * size) = true
    · rw [if_pos h4, if_pos (show _ < _ + w + sizeAt host enc w r.view * size from h2)] at h
      exact ⟨_, _, h, by simp only; omega⟩
    · rw [if_neg h4] at h
      exact ⟨_, _, h, by simp only; omega⟩

/-- The cursor is left behind the size. -/
example : ((readRecord .little .native 1 1 (fun _ _ => true)).run ⟨⟨[3, 1, 2], 0⟩, []⟩).2.view.pos = 1 := by
  decide +kernel

/-- **C208, refuted: the memory.** However few bytes the buffer holds behind the size, as many bytes are asked
of the allocator as the size says: for every number there is a buffer of the size alone for which they are. -/
theorem c208_refuted_memory (host : Endian) (enc : Enc) (w size n : Nat) (heap : List Nat → Nat → Bool)
    (hn : n < 256 ^ w) (h0 : 0 < n * size) (h1 : n * size < 2 ^ 63) (hw : w < 2 ^ 64) :
    ∃ buf : List Nat, buf.length = w ∧ (∀ b ∈ buf, IsByte b) ∧
      ∃ e r', (readRecord host enc w size heap).run ⟨⟨buf, 0⟩, []⟩ = (.throw e, r') ∧
        r'.allocs = [n * size] := by
  refine ⟨encode host enc (objectOf host w n), head_length host enc w n,
    by rw [objectOf_eq]; exact encode_isByte (intObject_byte host w n), ?_⟩
  have hbuf : ∀ b ∈ encode host enc (objectOf host w n), IsByte b := by
    rw [objectOf_eq]; exact encode_isByte (intObject_byte host w n)
  have hl := head_length host enc w n
  have h := readRecord_run (host := host) (enc := enc) (w := w) (size := size) (heap := heap)
    (r := ⟨⟨encode host enc (objectOf host w n), 0⟩, []⟩) hbuf (Nat.zero_le _) hw
  have hk : sizeAt host enc w ⟨encode host enc (objectOf host w n), 0⟩ = n := by
    rw [sizeAt, List.drop_zero, List.take_of_length_le (by rw [hl]), stored_encode, Nat.mod_eq_of_lt hn]
  simp only [hk, hl] at h
  rw [h, if_neg (by omega), if_neg (by omega)]
  split
  · rw [if_pos (by omega)]
    exact ⟨_, _, rfl, by simp only [after]; rw [if_neg (by omega)]⟩
  · exact ⟨_, _, rfl, by simp only [after]; rw [if_neg (by omega)]⟩

/-- Four bytes make the reader ask for two gigabytes. -/
example : ((readRecord .little .native 4 1 (fun _ _ => true)).run ⟨⟨[0, 0, 0, 128], 0⟩, []⟩).2.allocs =
    [2147483648] := by decide +kernel

/-- **C208, refuted: the width.** A vector with more elements than the width of its size can say is written
without complaint and read back as another one: as many of its elements as the remainder of their number
says, with the cursor in the middle of the others. -/
theorem c208_refuted_width (host : Endian) (enc : Enc) (w : Nat) (v : Vec) (hv : GoodVec v)
    (hbig : 256 ^ w ≤ v.elems.length) (hs : recordBytes w v < 2 ^ 63) :
    ∃ s, (writeRecord host enc w v).run ⟨List.replicate (recordBytes w v) 0, 0⟩ = (.ok (recordBytes w v), s) ∧
      ∃ r, (readRecord host enc w v.size (fun _ _ => true)).run ⟨⟨s.data, 0⟩, []⟩ =
        (.ok (v.elems.take (v.elems.length % 256 ^ w)), r) ∧ r.view.pos < s.pos := by
  have hl := recordOf_length host enc w hv
  have h1 := writeRecord_run (host := host) (enc := enc) (w := w) (v := v)
    (s := ⟨List.replicate (recordBytes w v) 0, 0⟩) hv (Nat.zero_le _) (by omega)
  rw [if_neg (by simp)] at h1
  have ho : overwrite (List.replicate (recordBytes w v) 0) 0 (recordOf host enc w v) = recordOf host enc w v := by
    simp [overwrite, hl]
  simp only [ho] at h1
  refine ⟨_, h1, ?_⟩
  have hr : recordBytes w v = w + v.elems.length * v.size := rfl
  have hpos : 0 < 256 ^ w := Nat.pos_of_ne_zero (by positivity)
  have hlt : v.elems.length % 256 ^ w < v.elems.length := Nat.lt_of_lt_of_le (Nat.mod_lt _ hpos) hbig
  have hmul : v.elems.length % 256 ^ w * v.size < v.elems.length * v.size :=
    Nat.mul_lt_mul_of_pos_right hlt hv.1
  have h := readRecord_run (host := host) (enc := enc) (w := w) (size := v.size) (heap := fun _ _ => true)
    (r := ⟨⟨recordOf host enc w v, 0⟩, []⟩) (recordOf_byte host enc w hv) (Nat.zero_le _) (by omega)
  have hk : sizeAt host enc w ⟨recordOf host enc w v, 0⟩ = v.elems.length % 256 ^ w := by
    rw [sizeAt, List.drop_zero, recordOf, List.take_append, head_length, Nat.sub_self, List.take_zero,
      List.append_nil, List.take_of_length_le (by rw [head_length]), stored_encode]
  have hd : (recordOf host enc w v).drop (0 + w) = v.elems.flatten := by
    rw [Nat.zero_add, recordOf, List.drop_append, head_length, Nat.sub_self, List.drop_zero,
      List.drop_of_length_le (by rw [head_length]), List.nil_append]
  simp only [hk, hl, hd] at h
  rw [if_neg (by omega), if_neg (by omega), if_pos (Or.inr True.intro), if_neg (by omega)] at h
  have htake : v.elems = v.elems.take (v.elems.length % 256 ^ w) ++ v.elems.drop (v.elems.length % 256 ^ w) :=
    (List.take_append_drop _ _).symm
  have hdec : decodeSeq host (List.replicate (v.elems.length % 256 ^ w) ⟨v.size, .native⟩) v.elems.flatten =
      v.elems.take (v.elems.length % 256 ^ w) := by
    have := decodeSeq_native (host := host) v.size (v.elems.take (v.elems.length % 256 ^ w))
      (v.elems.drop (v.elems.length % 256 ^ w)).flatten
      (fun o ho => (hv.2 o (List.mem_of_mem_take ho)).1)
    rw [← List.flatten_append, ← htake, List.length_take, Nat.min_eq_left (Nat.le_of_lt hlt)] at this
    exact this
  rw [hdec] at h
  exact ⟨_, h, by simp only; omega⟩

/-- 257 bytes behind an 8-bit size are read back as one byte. -/
example : ((writeRecord .little .native 1 ⟨1, List.replicate 257 [5]⟩).run ⟨List.replicate 258 0, 0⟩).1 =
    .ok 258 ∧
    ((readRecord .little .native 1 1 (fun _ _ => true)).run ⟨⟨1 :: List.replicate 257 5, 0⟩, []⟩).1 =
    .ok [[5]] := by decide +kernel

/-- **C208, refuted: `try_write`.** A record for whose size there is room but not for its elements is not
written, but its size is: the bytes behind the cursor are overwritten although the call failed. -/
theorem c208_refuted_try_write (host : Endian) (enc : Enc) (w : Nat) (v : Vec) (s : WriteView) (hv : GoodVec v)
    (h1 : s.pos + w ≤ s.data.length) (h2 : s.data.length < s.pos + recordBytes w v)
    (hs : recordBytes w v < 2 ^ 64) :
    ∃ s', (tryWriteRecord host enc w v).run s = (.ok (.error .insufficientBuffer), s') ∧ s'.pos = s.pos ∧
      sizeStored host enc ((s'.data.drop s.pos).take w) = v.elems.length % 256 ^ w := by
  have h := tryWriteRecord_run (host := host) (enc := enc) (s := s) hv (by omega) hs
  rw [if_pos h2, if_pos h1] at h
  refine ⟨_, h, rfl, ?_⟩
  have hl := head_length host enc w v.elems.length
  have := take_drop_overwrite (buf := s.data) (pos := s.pos)
    (bs := encode host enc (objectOf host w v.elems.length)) (by omega)
  rw [hl] at this
  simp only [this]
  exact stored_encode host enc w _

/-- The size is in the buffer, the elements are not. -/
example : (tryWriteRecord .little .native 1 ⟨2, [[1, 0], [2, 0]]⟩).run ⟨[9, 9, 9, 9], 0⟩ =
    (.ok (.error .insufficientBuffer), ⟨[2, 9, 9, 9], 0⟩) := by decide +kernel

/-- **C208, refuted: `try_read`.** Whenever the size is there and the elements are not, and there is memory for
them, `try_read` and `try_read_range` leave the cursor at the end of the buffer, whatever was behind. -/
theorem c208_refuted_try_cursor (host : Endian) (enc : Enc) (w size : Nat) (r : Reader)
    (hb : ∀ b ∈ r.view.data, IsByte b) (hs : r.view.data.length < 2 ^ 63)
    (h1 : r.view.pos + w ≤ r.view.data.length)
    (h2 : r.view.data.length <
      r.view.pos + w + sizeStored host enc ((r.view.data.drop r.view.pos).take w) * size)
    (h3 : sizeStored host enc ((r.view.data.drop r.view.pos).take w) * size < 2 ^ 63) :
    ∃ r', (tryReadRecord host enc w size (fun _ _ => true)).run r = (.ok (.error .insufficientBuffer), r') ∧
      r'.view = ⟨r.view.data, r.view.data.length⟩ := by
  have h := tryReadRecord_run (host := host) (enc := enc) (w := w) (size := size) (heap := fun _ _ => true) hb
    (by omega) (by omega)
  rw [if_neg (by omega), if_neg (show ¬2 ^ 63 - 1 < sizeAt host enc w r.view * size by rw [sizeAt]; omega),
    if_pos (Or.inr rfl), if_pos (show _ < _ + w + sizeAt host enc w r.view * size from h2)] at h
  exact ⟨_, h, rfl⟩

/-- The cursor is at the end. -/
example : ((tryReadRecord .little .native 1 2 (fun _ _ => true)).run ⟨⟨[2, 1, 0, 2], 0⟩, []⟩) =
    (.ok (.error .insufficientBuffer), ⟨⟨[2, 1, 0, 2], 4⟩, [4]⟩) := by decide +kernel

end Wite.Props
