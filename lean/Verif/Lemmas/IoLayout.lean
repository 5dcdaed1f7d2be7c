import Verif.Spec.IoLayout
import Verif.Lemmas.IoView
import Verif.Lemmas.UuidPrint

/-!
# Lemmas about nested data in buffers
-/

namespace Wite.Layouts

open Wite.Io Wite.Uuid Wite.Spec Wite.Spec.IoLayout

/-! ## Numbers -/

theorem intObject_length (host : Endian) (n v : Nat) : (intObject host n v).length = n := by
  cases host <;> simp [intObject, beBytes, Hex.leBytes_length]

theorem intObject_byte (host : Endian) (n v : Nat) : ∀ b ∈ intObject host n v, IsByte b := by
  cases host with
  | little => exact Hex.leBytes_lt n v
  | big =>
    intro b hb
    exact Hex.leBytes_lt n v b (by simpa [intObject, beBytes] using hb)

theorem intValue_intObject (host : Endian) (n v : Nat) (h : v < 256 ^ n) :
    intValue host (intObject host n v) = v := by
  cases host <;> simp [intValue, intObject, beValue, beBytes, Hex.leValue_leBytes _ _ h]

theorem beValue_lt {bs : List Nat} (h : ∀ b ∈ bs, IsByte b) : beValue bs < 256 ^ bs.length := by
  have := Hex.leValue_lt bs.reverse (fun b hb => h b (by simpa using hb))
  simpa [beValue] using this

theorem intValue_lt {host : Endian} {bs : List Nat} (h : ∀ b ∈ bs, IsByte b) : intValue host bs < 256 ^ bs.length := by
  cases host with
  | little => exact Hex.leValue_lt bs h
  | big => exact beValue_lt h

theorem beBytes_beValue {bs : List Nat} (h : ∀ b ∈ bs, IsByte b) : beBytes bs.length (beValue bs) = bs := by
  have := leBytes_leValue_reverse bs h
  simp [beBytes, beValue, this]

theorem intObject_intValue {host : Endian} {bs : List Nat} (h : ∀ b ∈ bs, IsByte b) :
    intObject host bs.length (intValue host bs) = bs := by
  cases host with
  | little => exact Hex.leBytes_leValue bs h
  | big => exact beBytes_beValue h

theorem digits_length (host : Endian) (t : Ty) (n : Nat) : (digits host t n).length = t.size := by
  unfold digits
  split <;> simp [beBytes, Hex.leBytes_length]

theorem digits_byte (host : Endian) (t : Ty) (n : Nat) : ∀ b ∈ digits host t n, IsByte b := by
  intro b hb
  have h := Hex.leBytes_lt t.size n
  unfold digits at hb
  split at hb <;> exact h b (by simpa [beBytes] using hb)

theorem encode_object (host : Endian) (t : Ty) {n : Nat} (h : n < 256 ^ t.size) :
    encode host t.enc (objectOf host t.size n) = digits host t n := by
  rw [objectOf_eq]
  have h1 := intValue_intObject host _ _ h
  have h2 := intObject_length host t.size n
  obtain ⟨size, enc⟩ := t
  simp only at h h1 h2 ⊢
  cases enc <;> simp only [encode, digits, h1, h2]
  cases host <;> rfl

theorem number_digits (host : Endian) (t : Ty) {n : Nat} (h : n < 256 ^ t.size) :
    numberOf host (decode host t.enc (digits host t n)) = n := by
  rw [← encode_object host t h, objectOf_eq, decode_encode (intObject_byte host t.size n), numberOf_eq, intValue_intObject _ _ _ h]

theorem number_lt (host : Endian) (t : Ty) {bs : List Nat} (hb : ∀ b ∈ bs, IsByte b) (hl : bs.length = t.size) :
    numberOf host (decode host t.enc bs) < 256 ^ t.size := by
  have h1 : ∀ b ∈ decode host t.enc bs, IsByte b := by
    rw [← bytesOf_eq_decode _ _ _ hb]; exact bytesOf_isByte hb
  rw [numberOf_eq]
  have := intValue_lt (host := host) h1
  rwa [decode_length hb, hl] at this

theorem digits_number (host : Endian) (t : Ty) {bs : List Nat} (hb : ∀ b ∈ bs, IsByte b) (hl : bs.length = t.size) :
    digits host t (numberOf host (decode host t.enc bs)) = bs := by
  have h1 : ∀ b ∈ decode host t.enc bs, IsByte b := by
    rw [← bytesOf_eq_decode _ _ _ hb]; exact bytesOf_isByte hb
  rw [← encode_object host t (number_lt host t hb hl), objectOf_eq, numberOf_eq]
  have h2 := intObject_intValue (host := host) h1
  rw [decode_length hb, hl] at h2
  rw [h2, encode_decode hb]

theorem digits_portable {host host' : Endian} {t : Ty} (h : t.enc ≠ .native) (n : Nat) : digits host t n = digits host' t n := by
  unfold digits
  obtain ⟨size, enc⟩ := t
  cases enc
  · exact absurd rfl h
  · rfl
  · rfl

/-- Several numbers in a row. -/
def row (host : Endian) (ts : List Ty) (ns : List Nat) : List Nat := (List.zipWith (digits host) ts ns).flatten

/-- Numbers that fit. -/
def RowFits (ts : List Ty) (ns : List Nat) : Prop := List.Forall₂ (fun t n => n < 256 ^ t.size) ts ns

theorem row_length {host : Endian} {ts : List Ty} {ns : List Nat} (h : RowFits ts ns) :
    (row host ts ns).length = totalTySize ts := by
  unfold RowFits at h
  induction h with
  | nil => rfl
  | cons h1 _ ih =>
    have ih' : (row host _ _).length = _ := ih
    simp only [row, List.zipWith_cons_cons, List.flatten_cons, List.length_append, digits_length] at ih' ⊢
    rw [ih']; simp [totalTySize]

theorem row_byte (host : Endian) (ts : List Ty) (ns : List Nat) : ∀ b ∈ row host ts ns, IsByte b := by
  induction ts generalizing ns with
  | nil => simp [row]
  | cons t ts ih =>
    cases ns with
    | nil => simp [row]
    | cons n ns =>
      intro b hb
      have hb' : b ∈ digits host t n ++ row host ts ns := by simpa [row] using hb
      rcases List.mem_append.1 hb' with h | h
      · exact digits_byte host t n b h
      · exact ih ns b h

theorem arguments_good (host : Endian) (ts : List Ty) (ns : List Nat) : ∀ x ∈ arguments host ts ns, GoodVal x := by
  intro x hx
  induction ts generalizing ns with
  | nil => simp [arguments] at hx
  | cons t ts ih =>
    cases ns with
    | nil => simp [arguments] at hx
    | cons n ns =>
      have hx' : x = .single t.enc (objectOf host t.size n) ∨ x ∈ arguments host ts ns := by simpa [arguments] using hx
      rcases hx' with rfl | h
      · rw [objectOf_eq]; exact intObject_byte host t.size n
      · exact ih ns h

theorem arguments_size {host : Endian} {ts : List Ty} {ns : List Nat} (h : RowFits ts ns) :
    totalSize (arguments host ts ns) = totalTySize ts := by
  unfold RowFits at h
  induction h with
  | nil => rfl
  | @cons t n ts ns h1 _ ih =>
    have : arguments host (t :: ts) (n :: ns) = .single t.enc (objectOf host t.size n) :: arguments host ts ns := rfl
    rw [this]
    simp only [totalSize, List.map_cons, List.sum_cons, totalTySize] at ih ⊢
    rw [ih, sizeOfVal, objectOf_eq, intObject_length]

theorem arguments_encode {host : Endian} {ts : List Ty} {ns : List Nat} (h : RowFits ts ns) :
    encodeAll host (arguments host ts ns) = row host ts ns := by
  unfold RowFits at h
  induction h with
  | nil => rfl
  | @cons t n ts ns h1 _ ih =>
    have e : arguments host (t :: ts) (n :: ns) = .single t.enc (objectOf host t.size n) :: arguments host ts ns := rfl
    rw [e, encodeAll_cons, ih, encodeVal, encode_object host t h1]
    simp [row]

/-! ## Writing -/

/-- The program `x` writes the bytes `w`, and so does `y` without throwing. -/
def Writes (x : St WriteView Unit) (y : St WriteView (Result Unit WriteError)) (w : List Nat) : Prop :=
  ∀ v : WriteView, v.pos ≤ v.data.length →
    (v.pos + w.length ≤ v.data.length →
      x.run v = (.ok (), ⟨overwrite v.data v.pos w, v.pos + w.length⟩) ∧
      y.run v = (.ok (.value ()), ⟨overwrite v.data v.pos w, v.pos + w.length⟩)) ∧
    (v.data.length < v.pos + w.length → ∃ k j, k ≤ j ∧ k < w.length ∧ j ≤ w.length ∧ v.pos + j ≤ v.data.length ∧
      x.run v = (.throw (.outOfRange "Insufficient buffer space for write"), ⟨overwrite v.data v.pos (w.take k), v.pos + k⟩) ∧
      y.run v = (.ok (.error .insufficientBuffer), ⟨overwrite v.data v.pos (w.take j), v.pos + k⟩))

theorem andThen_value {σ ε α β : Type} {x : St σ (Result α ε)} {f : α → St σ (Result β ε)} {s s' : σ} {a : α}
    (h : x.run s = (.ok (.value a), s')) : (andThen x f).run s = (f a).run s' := by
  rw [andThen, St.run_bind_ok h]

theorem andThen_error {σ ε α β : Type} {x : St σ (Result α ε)} {f : α → St σ (Result β ε)} {s s' : σ} {e : ε}
    (h : x.run s = (.ok (.error e), s')) : (andThen x f).run s = (.ok (.error e), s') := by
  rw [andThen, St.run_bind_ok h]; rfl

theorem writes_nothing : Writes (pure ()) (pure (.value ())) [] := by
  intro v hv
  refine ⟨fun _ => ?_, fun h => ?_⟩
  · rw [overwrite_nil]; exact ⟨rfl, rfl⟩
  · simp at h; omega

theorem writes_bind {x x' : St WriteView Unit} {y y' : St WriteView (Result Unit WriteError)} {w w' : List Nat}
    (h : Writes x y w) (h' : Writes x' y' w') : Writes (x >>= fun _ => x') (andThen y fun _ => y') (w ++ w') := by
  intro v hv
  obtain ⟨a1, a2⟩ := h v hv
  by_cases hr : v.pos + w.length ≤ v.data.length
  · obtain ⟨b1, b2⟩ := a1 hr
    have hl := overwrite_length hr
    obtain ⟨c1, c2⟩ := h' ⟨overwrite v.data v.pos w, v.pos + w.length⟩ (by simp only; omega)
    simp only [hl] at c1 c2
    rw [St.run_bind_ok b1, andThen_value b2]
    refine ⟨fun hf => ?_, fun hf => ?_⟩
    · rw [List.length_append] at hf
      obtain ⟨d1, d2⟩ := c1 (by omega)
      rw [d1, d2, overwrite_append (by omega), List.length_append, Nat.add_assoc]
      exact ⟨rfl, rfl⟩
    · rw [List.length_append] at hf
      obtain ⟨k, j, e1, e2, e3, e4, e5, e6⟩ := c2 (by omega)
      have hj : (w'.take j).length = j := by simp; omega
      have hk : (w'.take k).length = k := by simp; omega
      refine ⟨w.length + k, w.length + j, by omega, ?_, ?_, by omega, ?_, ?_⟩
      · rw [List.length_append]; omega
      · rw [List.length_append]; omega
      · rw [e5, overwrite_append (by rw [hk]; omega), List.take_length_add_append, Nat.add_assoc]
      · rw [e6, overwrite_append (by rw [hj]; omega), List.take_length_add_append, Nat.add_assoc]
  · obtain ⟨k, j, e1, e2, e3, e4, e5, e6⟩ := a2 (by omega)
    refine ⟨fun hf => ?_, fun _ => ⟨k, j, e1, ?_, ?_, e4, ?_, ?_⟩⟩
    · rw [List.length_append] at hf; omega
    · rw [List.length_append]; omega
    · rw [List.length_append]; omega
    · rw [St.run_bind_throw e5, List.take_append_of_le_length (by omega)]
    · rw [andThen_error e6, List.take_append_of_le_length (by omega)]

theorem leadingFit_prefix (host : Endian) (vs : List WVal) (room : Nat) :
    encodeAll host (leadingFit room vs) <+: encodeAll host vs := by
  induction vs generalizing room with
  | nil => exact List.nil_prefix
  | cons v vs ih =>
    rw [leadingFit]
    by_cases h : sizeOfVal v ≤ room
    · rw [if_pos h, encodeAll_cons, encodeAll_cons]
      exact (List.prefix_append_right_inj _).2 (ih _)
    · rw [if_neg h]; simp [encodeAll]

theorem writes_numbers {host : Endian} {ts : List Ty} {ns : List Nat} (h : RowFits ts ns) (hT : totalTySize ts < 2 ^ 63) :
    Writes (do let _ ← WriteView.write host (arguments host ts ns); pure ()) (tryPutNumbers host ts ns) (row host ts ns) := by
  intro v hv
  have hs := arguments_size (host := host) h
  have he := arguments_encode (host := host) h
  have hg := arguments_good host ts ns
  have hl := row_length (host := host) h
  have h1 := WriteView.write_run (host := host) hg hv (by omega)
  have h2 := WriteView.tryWrite_run (host := host) hg hv (by omega)
  rw [hs, he] at h1 h2
  refine ⟨fun hf => ?_, fun hf => ?_⟩
  · rw [if_neg (by omega)] at h1 h2
    rw [St.run_bind_ok h1, tryPutNumbers, andThen_value h2, hl]
    exact ⟨rfl, rfl⟩
  · rw [if_pos (by omega)] at h1 h2
    have hp := leadingFit_prefix host (arguments host ts ns) (v.data.length - v.pos)
    rw [he] at hp
    have hq := WriteView.leadingFit_le (host := host) (arguments host ts ns) (v.data.length - v.pos) hg
    have hx := List.prefix_iff_eq_take.1 hp
    refine ⟨0, (encodeAll host (leadingFit (v.data.length - v.pos) (arguments host ts ns))).length, by omega, by omega,
      hp.length_le, by omega, ?_, ?_⟩
    · rw [St.run_bind_throw h1, List.take_zero, overwrite_nil]
      rfl
    · rw [tryPutNumbers, andThen_error h2, ← hx]
      rfl

theorem writes_each {α : Type} {x : α → St WriteView Unit} {y : α → St WriteView (Result Unit WriteError)} {w : α → List Nat}
    (l : List α) (h : ∀ a ∈ l, Writes (x a) (y a) (w a)) : Writes (putEach x l) (tryPutEach y l) (l.map w).flatten := by
  induction l with
  | nil => exact writes_nothing
  | cons a l ih =>
    rw [List.map_cons, List.flatten_cons]
    exact writes_bind (h a (by simp)) (ih (fun b hb => h b (by simp [hb])))

theorem row_single (host : Endian) (t : Ty) (n : Nat) : row host [t] [n] = digits host t n := by simp [row]

theorem writes_number {host : Endian} {t : Ty} {n : Nat} (h : n < 256 ^ t.size) (hT : t.size < 2 ^ 63)
    {x' : St WriteView Unit} {y' : St WriteView (Result Unit WriteError)} {w' : List Nat} (h' : Writes x' y' w') :
    Writes (do let _ ← WriteView.write host (arguments host [t] [n]); x')
      (andThen (tryPutNumbers host [t] [n]) fun _ => y') (digits host t n ++ w') := by
  have h1 : RowFits [t] [n] := .cons h .nil
  have h2 := writes_bind (writes_numbers (host := host) h1 (by simpa [totalTySize] using hT)) h'
  rw [row_single] at h2
  have e : ((do let _ ← WriteView.write host (arguments host [t] [n]); pure ()) >>= fun _ => x' : St WriteView Unit) =
      (do let _ ← WriteView.write host (arguments host [t] [n]); x') := by
    funext s
    show St.run _ s = St.run _ s
    rw [St.run_bind, St.run_bind, St.run_bind]
    rcases (WriteView.write host (arguments host [t] [n])).run s with ⟨o, s'⟩
    cases o <;> rfl
  rw [e] at h2
  exact h2

theorem pow_pos_lt {w : Nat} (h : 0 < w) : 1 < 256 ^ w := Nat.one_lt_pow (by omega) (by omega)

theorem writes (host : Endian) (l : Layout) (hl : Sensible l) (d : l.Data) (hd : Fits l d) :
    Writes (put host l d) (tryPut host l d) (bytes host l d) := by
  induction l with
  | nothing => exact writes_nothing
  | numbers ts => exact writes_numbers hd hl.2.2
  | both a b iha ihb =>
    obtain ⟨x, y⟩ := d
    exact writes_bind (iha hl.1 x hd.1) (ihb hl.2 y hd.2)
  | many t a ih =>
    exact writes_number hd.1 hl.2.1 (writes_each d (fun x hx => ih hl.2.2 x (hd.2 x hx)))
  | either t a b iha ihb =>
    have h0 := pow_pos_lt hl.1
    cases d with
    | inl x => exact writes_number (by omega) hl.2.1 (iha hl.2.2.1 x hd)
    | inr y => exact writes_number (by omega) hl.2.1 (ihb hl.2.2.2 y hd)

/-! ## What a reader finds in bytes -/

/-- A value and the number of bytes it takes; or not enough bytes, after so many; or a bad number, after so many. -/
inductive Found (α : Type) where
  | done (a : α) (n : Nat)
  | short (n : Nat)
  | bad (n : Nat)

/-- The number of bytes used. -/
def Found.used {α : Type} : Found α → Nat
  | .done _ n => n
  | .short n => n
  | .bad n => n

/-- One after the other. -/
def next {α β : Type} (p : List Nat → Found α) (f : α → List Nat → Found β) (bs : List Nat) : Found β :=
  match p bs with
  | .short n => .short n
  | .bad n => .bad n
  | .done a n =>
    match f a (bs.drop n) with
    | .done b m => .done b (n + m)
    | .short m => .short (n + m)
    | .bad m => .bad (n + m)

/-- What the throwing reader makes of it. -/
def thrown {α : Type} (v : ReadView) : Found α → Outcome α × ReadView
  | .done a n => (.ok a, { v with pos := v.pos + n })
  | .short n => (.throw (.outOfRange "Insufficient buffer space for read"), { v with pos := v.pos + n })
  | .bad n => (.throw unknownTag, { v with pos := v.pos + n })

/-- What the reader that does not throw makes of it. -/
def returned {α : Type} (v : ReadView) : Found α → Outcome (Result α Failure) × ReadView
  | .done a n => (.ok (.value a), { v with pos := v.pos + n })
  | .short _ => (.ok (.error (.library .insufficientBuffer)), { v with pos := v.data.length })
  | .bad n => (.ok (.error .unknown), { v with pos := v.pos + n })

/-- The two readers find `p`. -/
def Reads {α : Type} (g : St ReadView α) (t : St ReadView (Result α Failure)) (p : List Nat → Found α) : Prop :=
  ∀ v : ReadView, (∀ b ∈ v.data, IsByte b) → v.pos ≤ v.data.length →
    (p (v.data.drop v.pos)).used ≤ (v.data.drop v.pos).length ∧
    g.run v = thrown v (p (v.data.drop v.pos)) ∧ t.run v = returned v (p (v.data.drop v.pos))

theorem reads_pure {α : Type} (a : α) : Reads (pure a) (pure (.value a)) (fun _ => .done a 0) := by
  intro v _ _
  exact ⟨by simp [Found.used], rfl, rfl⟩

theorem reads_bad {α : Type} : Reads (St.throw unknownTag : St ReadView α) (pure (.error .unknown)) (fun _ => .bad 0) := by
  intro v _ _
  exact ⟨by simp [Found.used], rfl, rfl⟩

theorem reads_bind {α β : Type} {g : St ReadView α} {t : St ReadView (Result α Failure)} {p : List Nat → Found α}
    {g' : α → St ReadView β} {t' : α → St ReadView (Result β Failure)} {f : α → List Nat → Found β}
    (h : Reads g t p) (h' : ∀ a, Reads (g' a) (t' a) (f a)) : Reads (g >>= g') (andThen t t') (next p f) := by
  intro v hb hv
  obtain ⟨h1, h2, h3⟩ := h v hb hv
  unfold next
  rcases hp : p (v.data.drop v.pos) with ⟨a, n⟩ | n | n <;> rw [hp] at h1 h2 h3
  · simp only [Found.used, List.length_drop] at h1
    obtain ⟨k1, k2, k3⟩ := h' a { v with pos := v.pos + n } hb (by simp only; omega)
    simp only [List.drop_drop, List.length_drop] at k1 k2 k3 ⊢
    rw [St.run_bind_ok h2, andThen_value h3, k2, k3]
    rcases hq : f a (v.data.drop (v.pos + n)) with ⟨b, m⟩ | m | m <;> rw [hq] at k1 <;> simp only [Found.used] at k1 <;>
      refine ⟨by simp only [Found.used]; omega, ?_, ?_⟩ <;> simp [thrown, returned, Nat.add_assoc]
  · exact ⟨h1, St.run_bind_throw h2, andThen_error h3⟩
  · exact ⟨h1, St.run_bind_throw h2, andThen_error h3⟩

/-- The numbers in a row of bytes. -/
def rowFound (host : Endian) (ts : List Ty) (bs : List Nat) : Found (List Nat) :=
  if bs.length < totalTySize ts then .short 0
  else .done ((decodeSeq host ts bs).map (numberOf host)) (totalTySize ts)

theorem allValues_eq (host : Endian) (ts : List Ty) (hs : ∀ t ∈ ts, 0 < t.size) (bs : List Nat) (hb : ∀ b ∈ bs, IsByte b) :
    ∃ rs, recursiveTryRead host ts bs = .ok rs ∧
      allValues rs = if bs.length < totalTySize ts then .error (.library .insufficientBuffer)
        else .value (decodeSeq host ts bs) := by
  induction ts generalizing bs with
  | nil => exact ⟨[], rfl, by simp [allValues, totalTySize, decodeSeq]⟩
  | cons t ts ih =>
    have e : totalTySize (t :: ts) = t.size + totalTySize ts := by simp [totalTySize]
    simp only [recursiveTryRead, tryRead_eq hb]
    by_cases h : bs.length < t.size
    · obtain ⟨rs, hrs, _⟩ := ih (fun x hx => hs x (by simp [hx])) [] (by simp)
      refine ⟨.error .insufficientBuffer :: rs, ?_, ?_⟩
      · simp [h, spanFrom, Result.ok, Result.index, hrs]
      · rw [if_pos (by omega)]; rfl
    · obtain ⟨rs, hrs, hv⟩ := ih (fun x hx => hs x (by simp [hx])) (bs.drop t.size) (drop_isByte hb)
      have h' : t.size ≤ bs.length := by omega
      refine ⟨.value (decode host t.enc (bs.take t.size)) :: rs, ?_, ?_⟩
      · simp [h, spanFrom, Result.ok, Result.index, hrs, h']
      · rw [allValues, hv, List.length_drop]
        by_cases h2 : bs.length < totalTySize (t :: ts)
        · rw [if_pos h2, if_pos (by omega)]
        · rw [if_neg h2, if_neg (by omega)]; rfl

theorem reads_numbers {host : Endian} {ts : List Ty} (hs : ∀ t ∈ ts, 0 < t.size) (hT : totalTySize ts < 2 ^ 63) :
    Reads (do let os ← ReadView.read host ts; pure (os.map (numberOf host))) (tryGetNumbers host ts) (rowFound host ts) := by
  intro v hb hv
  have h1 := ReadView.read_run (host := host) hb hv (ts := ts) (by omega)
  obtain ⟨rs, hrs, ha⟩ := allValues_eq host ts hs (v.data.drop v.pos) (drop_isByte hb)
  have h2 := ReadView.tryRead_run (host := host) hv (by omega) hrs
  rw [List.length_drop] at ha
  unfold rowFound
  rw [List.length_drop]
  by_cases h : v.data.length < v.pos + totalTySize ts
  · rw [if_pos h] at h1
    rw [if_pos (by omega)] at ha ⊢
    refine ⟨by simp [Found.used], ?_, ?_⟩
    · rw [St.run_bind_throw h1]; rfl
    · rw [tryGetNumbers, St.run_bind_ok h2, ha, Nat.min_eq_right (by omega)]; rfl
  · rw [if_neg h] at h1
    rw [if_neg (by omega)] at ha ⊢
    refine ⟨by simp only [Found.used]; omega, ?_, ?_⟩
    · rw [St.run_bind_ok h1]; rfl
    · rw [tryGetNumbers, St.run_bind_ok h2, ha, Nat.min_eq_left (by omega)]; rfl

/-- One number. -/
def numberFound (host : Endian) (t : Ty) (bs : List Nat) : Found Nat :=
  if bs.length < t.size then .short 0 else .done (numberOf host (decode host t.enc (bs.take t.size))) t.size

/-- One number, and what follows. -/
theorem reads_number {α : Type} {host : Endian} {t : Ty} (hs : 0 < t.size) (hT : t.size < 2 ^ 63) {g' : Nat → St ReadView α}
    {t' : List Nat → St ReadView (Result α Failure)} {f : Nat → List Nat → Found α}
    (h' : ∀ n, Reads (g' n) (t' [n]) (f n)) :
    Reads (getNumber host t >>= g') (andThen (tryGetNumbers host [t]) t') (next (numberFound host t) f) := by
  have e : totalTySize [t] = t.size := by simp [totalTySize]
  intro v hb hv
  obtain ⟨_, h2, h3⟩ := reads_numbers (host := host) (ts := [t]) (by simpa using hs) (by rw [e]; exact hT) v hb hv
  have h1 := ReadView.read_run (host := host) hb hv (ts := [t]) (by omega)
  unfold next numberFound
  unfold rowFound at h2 h3
  rw [e] at h1 h2 h3
  have hd : (v.data.drop v.pos).length = v.data.length - v.pos := List.length_drop
  rw [hd] at h2 h3 ⊢
  by_cases h : v.data.length < v.pos + t.size
  · rw [if_pos (by omega)] at h1 h2 h3 ⊢
    refine ⟨by simp [Found.used], ?_, ?_⟩
    · have : (getNumber host t).run v = (.throw (.outOfRange "Insufficient buffer space for read"), v) := by
        rw [getNumber, St.run_bind_throw h1]
      rw [St.run_bind_throw this]; rfl
    · rw [andThen_error h3]; rfl
  · rw [if_neg (by omega)] at h1 h2 h3 ⊢
    have hg : (getNumber host t).run v = (.ok (numberOf host (decode host t.enc ((v.data.drop v.pos).take t.size))),
        { v with pos := v.pos + t.size }) := by
      rw [getNumber, St.run_bind_ok h1]; rfl
    obtain ⟨k1, k2, k3⟩ := h' (numberOf host (decode host t.enc ((v.data.drop v.pos).take t.size)))
      { v with pos := v.pos + t.size } hb (by simp only; omega)
    have h4 : (tryGetNumbers host [t]).run v =
        (.ok (.value [numberOf host (decode host t.enc ((v.data.drop v.pos).take t.size))]), { v with pos := v.pos + t.size }) := h3
    rw [St.run_bind_ok hg, andThen_value h4, k2, k3]
    simp only [List.drop_drop, List.length_drop] at k1 ⊢
    generalize numberOf host (decode host t.enc ((v.data.drop v.pos).take t.size)) = n at *
    rcases hq : f n (v.data.drop (v.pos + t.size)) with ⟨b, m⟩ | m | m <;> rw [hq] at k1 <;> simp only [Found.used] at k1 <;>
      refine ⟨by simp only [Found.used]; omega, ?_, ?_⟩ <;> simp [thrown, returned, Nat.add_assoc]

/-- So many times. -/
def timesFound {α : Type} (p : List Nat → Found α) : Nat → List Nat → Found (List α)
  | 0 => fun _ => .done [] 0
  | n + 1 => next p fun x => next (timesFound p n) fun xs _ => .done (x :: xs) 0

theorem reads_times {α : Type} {g : St ReadView α} {t : St ReadView (Result α Failure)} {p : List Nat → Found α}
    (h : Reads g t p) (n : Nat) : Reads (getTimes g n) (tryGetTimes t n) (timesFound p n) := by
  induction n with
  | zero => exact reads_pure []
  | succ n ih => exact reads_bind h fun x => reads_bind ih fun xs => reads_pure (x :: xs)

/-- Data of a shape. -/
def found (host : Endian) : (l : Layout) → List Nat → Found l.Data
  | .nothing => fun _ => .done () 0
  | .numbers ts => rowFound host ts
  | .both a b => next (found host a) fun x => next (found host b) fun y _ => .done (x, y) 0
  | .many t a => next (numberFound host t) (timesFound (found host a))
  | .either t a b => next (numberFound host t) fun n =>
      if n = 0 then next (found host a) fun x _ => .done (.inl x) 0
      else if n = 1 then next (found host b) fun y _ => .done (.inr y) 0
      else fun _ => .bad 0

theorem reads (host : Endian) (l : Layout) (hl : Sensible l) : Reads (get host l) (tryGet host l) (found host l) := by
  induction l with
  | nothing => exact reads_pure ()
  | numbers ts => exact reads_numbers hl.2.1 hl.2.2
  | both a b iha ihb => exact reads_bind (iha hl.1) fun x => reads_bind (ihb hl.2) fun y => reads_pure (x, y)
  | many t a ih => exact reads_number hl.1 hl.2.1 fun n => reads_times (ih hl.2.2) n
  | either t a b iha ihb =>
    refine reads_number hl.1 hl.2.1 fun n => ?_
    by_cases h0 : n = 0
    · subst h0
      exact reads_bind (iha hl.2.2.1) fun x => reads_pure _
    · by_cases h1 : n = 1
      · subst h1
        exact reads_bind (ihb hl.2.2.2) fun x => reads_pure _
      · rw [if_neg h0, if_neg h1, if_neg h0, if_neg h1]
        have : ∀ k, Reads (St.throw unknownTag : St ReadView (a.Data ⊕ b.Data)) (match [k + 2] with
            | [0] => andThen (tryGet host a) fun x => pure (.value (.inl x))
            | [1] => andThen (tryGet host b) fun y => pure (.value (.inr y))
            | [_] => pure (.error .unknown)
            | _ => St.ub) (fun _ => .bad 0) := fun _ => reads_bad
        obtain ⟨k, rfl⟩ : ∃ k, n = k + 2 := ⟨n - 2, by omega⟩
        exact this k

/-! ## What is found is what the bytes say -/

/-- `p` finds exactly what is written. -/
structure Codec {α : Type} (p : List Nat → Found α) (P : α → List Nat → Prop) : Prop where
  complete : ∀ a w rest, P a w → p (w ++ rest) = .done a w.length
  sound : ∀ bs a n, (∀ b ∈ bs, IsByte b) → p bs = .done a n → n ≤ bs.length ∧ P a (bs.take n)
  cut : ∀ a w k, P a w → k < w.length → ∃ n, p (w.take k) = .short n

theorem Codec.congr {α : Type} {p : List Nat → Found α} {P Q : α → List Nat → Prop} (h : Codec p P) (e : ∀ a w, P a w ↔ Q a w) :
    Codec p Q :=
  ⟨fun a w rest hq => h.complete a w rest ((e a w).2 hq),
    fun bs a n hb hp => ⟨(h.sound bs a n hb hp).1, (e _ _).1 (h.sound bs a n hb hp).2⟩,
    fun a w k hq hk => h.cut a w k ((e a w).2 hq) hk⟩

theorem codec_pure {α : Type} (a : α) : Codec (fun _ => .done a 0) (fun x w => x = a ∧ w = []) := by
  refine ⟨?_, ?_, ?_⟩
  · rintro x w rest ⟨rfl, rfl⟩; rfl
  · intro bs x n _ h
    cases h
    exact ⟨by omega, rfl, by simp⟩
  · rintro x w k ⟨rfl, rfl⟩ h; simp at h

theorem codec_bad {α : Type} : Codec (fun _ => (.bad 0 : Found α)) (fun _ _ => False) :=
  ⟨fun _ _ _ h => h.elim, fun _ _ _ _ h => (by cases h), fun _ _ _ h => h.elim⟩

theorem codec_next {α β : Type} {p : List Nat → Found α} {P : α → List Nat → Prop} {f : α → List Nat → Found β}
    {Q : α → β → List Nat → Prop} (h : Codec p P) (h' : ∀ a, Codec (f a) (Q a)) :
    Codec (next p f) (fun c w => ∃ a u v, w = u ++ v ∧ P a u ∧ Q a c v) := by
  refine ⟨?_, ?_, ?_⟩
  · rintro c w rest ⟨a, u, v, rfl, hp, hq⟩
    unfold next
    rw [List.append_assoc, h.complete a u _ hp]
    simp only [List.drop_left]
    rw [(h' a).complete c v rest hq]
    simp
  · intro bs c n hb hn
    unfold next at hn
    rcases hp : p bs with ⟨a, m⟩ | m | m <;> rw [hp] at hn
    · simp only at hn
      rcases hq : f a (bs.drop m) with ⟨b, k⟩ | k | k <;> rw [hq] at hn
      · cases hn
        obtain ⟨s1, s2⟩ := h.sound bs a m hb hp
        obtain ⟨s3, s4⟩ := (h' a).sound (bs.drop m) c k (drop_isByte hb) hq
        rw [List.length_drop] at s3
        exact ⟨by omega, a, _, _, List.take_add, s2, s4⟩
      · cases hn
      · cases hn
    · cases hn
    · cases hn
  · rintro c w k ⟨a, u, v, rfl, hp, hq⟩ hk
    rw [List.length_append] at hk
    unfold next
    by_cases hu : k < u.length
    · obtain ⟨n, hn⟩ := h.cut a u k hp hu
      exact ⟨n, by rw [List.take_append_of_le_length (by omega), hn]⟩
    · obtain ⟨n, hn⟩ := (h' a).cut c v (k - u.length) hq (by omega)
      obtain ⟨j, rfl⟩ : ∃ j, k = u.length + j := ⟨k - u.length, by omega⟩
      rw [Nat.add_sub_cancel_left] at hn
      refine ⟨u.length + n, ?_⟩
      rw [List.take_length_add_append, h.complete a u _ hp]
      simp only [List.drop_left, hn]

theorem codec_number (host : Endian) (t : Ty) :
    Codec (numberFound host t) (fun n w => n < 256 ^ t.size ∧ w = digits host t n) := by
  refine ⟨?_, ?_, ?_⟩
  · rintro n w rest ⟨hn, rfl⟩
    have hl := digits_length host t n
    unfold numberFound
    rw [if_neg (by rw [List.length_append]; omega), List.take_append_of_le_length (by omega), List.take_of_length_le (by omega),
      number_digits host t hn, hl]
  · intro bs n k hb h
    unfold numberFound at h
    by_cases hs : bs.length < t.size
    · rw [if_pos hs] at h; cases h
    · rw [if_neg hs] at h
      cases h
      have hl : (bs.take t.size).length = t.size := by simp; omega
      have hb' : ∀ b ∈ bs.take t.size, IsByte b := fun b h => hb b (List.mem_of_mem_take h)
      exact ⟨by omega, number_lt host t hb' hl, (digits_number host t hb' hl).symm⟩
  · rintro n w k ⟨hn, rfl⟩ hk
    rw [digits_length] at hk
    exact ⟨0, by unfold numberFound; rw [if_pos (by rw [List.length_take, digits_length]; omega)]⟩

theorem row_found {host : Endian} {ts : List Ty} {ns : List Nat} (h : RowFits ts ns) (rest : List Nat) :
    (decodeSeq host ts (row host ts ns ++ rest)).map (numberOf host) = ns := by
  unfold RowFits at h
  induction h with
  | nil => rfl
  | @cons t n ts ns h1 _ ih =>
    have e : row host (t :: ts) (n :: ns) = digits host t n ++ row host ts ns := by simp [row]
    have hl := digits_length host t n
    rw [e, decodeSeq, List.append_assoc, List.take_append_of_le_length (by omega), List.take_of_length_le (by omega),
      ← hl, List.drop_left, List.map_cons, number_digits host t h1, ih]

theorem row_sound {host : Endian} {ts : List Ty} {bs : List Nat} (hb : ∀ b ∈ bs, IsByte b) (hl : totalTySize ts ≤ bs.length) :
    RowFits ts ((decodeSeq host ts bs).map (numberOf host)) ∧
      bs.take (totalTySize ts) = row host ts ((decodeSeq host ts bs).map (numberOf host)) := by
  induction ts generalizing bs with
  | nil => exact ⟨.nil, by simp [totalTySize, row]⟩
  | cons t ts ih =>
    have e : totalTySize (t :: ts) = t.size + totalTySize ts := by simp [totalTySize]
    rw [e] at hl ⊢
    obtain ⟨i1, i2⟩ := ih (bs := bs.drop t.size) (drop_isByte hb) (by rw [List.length_drop]; omega)
    have hl' : (bs.take t.size).length = t.size := by simp; omega
    have hb' : ∀ b ∈ bs.take t.size, IsByte b := fun b h => hb b (List.mem_of_mem_take h)
    refine ⟨.cons (number_lt host t hb' hl') i1, ?_⟩
    rw [List.take_add, i2]
    simp only [decodeSeq, List.map_cons, row, List.zipWith_cons_cons, List.flatten_cons]
    rw [digits_number host t hb' hl']

theorem codec_row (host : Endian) (ts : List Ty) : Codec (rowFound host ts) (fun ns w => RowFits ts ns ∧ w = row host ts ns) := by
  refine ⟨?_, ?_, ?_⟩
  · rintro ns w rest ⟨hn, rfl⟩
    have hl := row_length (host := host) hn
    unfold rowFound
    rw [if_neg (by rw [List.length_append]; omega), row_found hn, hl]
  · intro bs ns k hb h
    unfold rowFound at h
    by_cases hs : bs.length < totalTySize ts
    · rw [if_pos hs] at h; cases h
    · rw [if_neg hs] at h
      cases h
      exact ⟨by omega, row_sound hb (by omega)⟩
  · rintro ns w k ⟨hn, rfl⟩ hk
    have hl := row_length (host := host) hn
    exact ⟨0, by unfold rowFound; rw [if_pos (by rw [List.length_take]; omega)]⟩

theorem codec_times {α : Type} {p : List Nat → Found α} {F : α → Prop} {B : α → List Nat}
    (h : Codec p (fun a w => F a ∧ w = B a)) (n : Nat) :
    Codec (timesFound p n) (fun xs w => xs.length = n ∧ (∀ x ∈ xs, F x) ∧ w = (xs.map B).flatten) := by
  induction n with
  | zero =>
    refine (codec_pure []).congr fun xs w => ?_
    constructor
    · rintro ⟨rfl, rfl⟩; simp
    · rintro ⟨h1, _, h2⟩
      obtain rfl := List.length_eq_zero_iff.1 h1
      exact ⟨rfl, h2⟩
  | succ n ih =>
    refine (codec_next h fun x => codec_next ih fun xs => codec_pure (x :: xs)).congr fun xs w => ?_
    constructor
    · rintro ⟨x, u, v, rfl, ⟨hx, rfl⟩, ys, u', v', rfl, ⟨h1, h2, rfl⟩, rfl, rfl⟩
      simp [h1, hx]
      exact h2
    · rintro ⟨h1, h2, rfl⟩
      cases xs with
      | nil => simp at h1
      | cons x xs =>
        exact ⟨x, B x, (xs.map B).flatten, by simp, ⟨h2 x (by simp), rfl⟩, xs, _, [], by simp,
          ⟨by simpa using h1, fun y hy => h2 y (by simp [hy]), rfl⟩, rfl, rfl⟩

theorem codec (host : Endian) (l : Layout) (hl : Sensible l) :
    Codec (found host l) (fun d w => Fits l d ∧ w = bytes host l d) := by
  induction l with
  | nothing => exact (codec_pure ()).congr fun d w => ⟨fun h => ⟨trivial, h.2⟩, fun h => ⟨rfl, h.2⟩⟩
  | numbers ts => exact codec_row host ts
  | both a b iha ihb =>
    refine (codec_next (iha hl.1) fun x => codec_next (ihb hl.2) fun y => codec_pure (x, y)).congr fun d w => ?_
    constructor
    · rintro ⟨x, u, v, rfl, ⟨hx, rfl⟩, y, u', v', rfl, ⟨hy, rfl⟩, rfl, rfl⟩
      exact ⟨⟨hx, hy⟩, by simp [bytes]⟩
    · obtain ⟨x, y⟩ := d
      rintro ⟨⟨hx, hy⟩, rfl⟩
      exact ⟨x, _, bytes host b y, rfl, ⟨hx, rfl⟩, y, _, [], by simp, ⟨hy, rfl⟩, rfl, rfl⟩
  | many t a ih =>
    refine (codec_next (codec_number host t) fun n => codec_times (ih hl.2.2) n).congr fun d w => ?_
    constructor
    · rintro ⟨n, u, v, rfl, ⟨hn, rfl⟩, h1, h2, rfl⟩
      subst h1
      exact ⟨⟨hn, h2⟩, rfl⟩
    · rintro ⟨⟨h1, h2⟩, rfl⟩
      exact ⟨_, _, _, rfl, ⟨h1, rfl⟩, rfl, h2, rfl⟩
  | either t a b iha ihb =>
    have hp := pow_pos_lt hl.1
    have hc : ∀ n, Codec
        (if n = 0 then next (found host a) fun x _ => Found.done (Sum.inl x : a.Data ⊕ b.Data) 0
          else if n = 1 then next (found host b) fun y _ => .done (.inr y) 0 else fun _ => .bad 0)
        (fun d w => (n = 0 ∧ ∃ x, d = .inl x ∧ Fits a x ∧ w = bytes host a x) ∨
          (n = 1 ∧ ∃ y, d = .inr y ∧ Fits b y ∧ w = bytes host b y)) := by
      intro n
      by_cases h0 : n = 0
      · rw [if_pos h0]
        refine (codec_next (iha hl.2.2.1) fun x => codec_pure (Sum.inl x)).congr fun d w => ?_
        constructor
        · rintro ⟨x, u, v, rfl, ⟨hx, rfl⟩, rfl, rfl⟩
          exact .inl ⟨h0, x, rfl, hx, by simp⟩
        · rintro (⟨_, x, rfl, hx, rfl⟩ | ⟨h1, _⟩)
          · exact ⟨x, _, [], by simp, ⟨hx, rfl⟩, rfl, rfl⟩
          · omega
      · rw [if_neg h0]
        by_cases h1 : n = 1
        · rw [if_pos h1]
          refine (codec_next (ihb hl.2.2.2) fun x => codec_pure (Sum.inr x)).congr fun d w => ?_
          constructor
          · rintro ⟨x, u, v, rfl, ⟨hx, rfl⟩, rfl, rfl⟩
            exact .inr ⟨h1, x, rfl, hx, by simp⟩
          · rintro (⟨h2, _⟩ | ⟨_, x, rfl, hx, rfl⟩)
            · omega
            · exact ⟨x, _, [], by simp, ⟨hx, rfl⟩, rfl, rfl⟩
        · rw [if_neg h1]
          exact codec_bad.congr fun d w => ⟨False.elim, by rintro (⟨h, _⟩ | ⟨h, _⟩) <;> omega⟩
    refine (codec_next (codec_number host t) hc).congr fun d w => ?_
    constructor
    · rintro ⟨n, u, v, rfl, ⟨hn, rfl⟩, ⟨rfl, x, rfl, hx, rfl⟩ | ⟨rfl, x, rfl, hx, rfl⟩⟩
      · exact ⟨hx, rfl⟩
      · exact ⟨hx, rfl⟩
    · rcases d with x | y
      · rintro ⟨hx, rfl⟩
        exact ⟨0, _, _, rfl, ⟨by omega, rfl⟩, .inl ⟨rfl, x, rfl, hx, rfl⟩⟩
      · rintro ⟨hy, rfl⟩
        exact ⟨1, _, _, rfl, ⟨by omega, rfl⟩, .inr ⟨rfl, y, rfl, hy, rfl⟩⟩

theorem bytes_byte (host : Endian) (l : Layout) (d : l.Data) : ∀ b ∈ bytes host l d, IsByte b := by
  induction l with
  | nothing => intro b hb; cases hb
  | numbers ts => exact row_byte host ts d
  | both a b iha ihb =>
    obtain ⟨x, y⟩ := d
    intro b' hb
    rcases List.mem_append.1 hb with h | h
    · exact iha x b' h
    · exact ihb y b' h
  | many t a ih =>
    intro b' hb
    rcases List.mem_append.1 hb with h | h
    · exact digits_byte host t _ b' h
    · obtain ⟨w, hw, hbw⟩ := List.mem_flatten.1 h
      obtain ⟨x, _, rfl⟩ := List.mem_map.1 hw
      exact ih x b' hbw
  | either t a b iha ihb =>
    intro b' hb
    cases d with
    | inl x =>
      rcases List.mem_append.1 hb with h | h
      · exact digits_byte host t _ b' h
      · exact iha x b' h
    | inr y =>
      rcases List.mem_append.1 hb with h | h
      · exact digits_byte host t _ b' h
      · exact ihb y b' h

theorem bytes_portable (host host' : Endian) (l : Layout) (h : Portable l) (d : l.Data) : bytes host l d = bytes host' l d := by
  induction l with
  | nothing => rfl
  | numbers ts =>
    show row host ts d = row host' ts d
    have hall : ∀ (ts : List Ty) (ns : List Nat), (∀ t ∈ ts, t.enc ≠ .native) → row host ts ns = row host' ts ns := by
      intro ts
      induction ts with
      | nil => intro ns _; simp [row]
      | cons t ts ih =>
        intro ns hp
        cases ns with
        | nil => simp [row]
        | cons n ns =>
          have := ih ns (fun x hx => hp x (by simp [hx]))
          simp only [row, List.zipWith_cons_cons, List.flatten_cons] at this ⊢
          rw [this, digits_portable (hp t (by simp))]
    exact hall ts d h
  | both a b iha ihb =>
    obtain ⟨x, y⟩ := d
    show bytes host a x ++ bytes host b y = _
    rw [iha h.1 x, ihb h.2 y]; rfl
  | many t a ih =>
    show digits host t _ ++ (List.map (bytes host a) d).flatten = digits host' t _ ++ (List.map (bytes host' a) d).flatten
    rw [digits_portable h.1, funext (ih h.2)]
  | either t a b iha ihb =>
    cases d with
    | inl x =>
      show digits host t 0 ++ bytes host a x = digits host' t 0 ++ bytes host' a x
      rw [digits_portable h.1, iha h.2.1 x]
    | inr y =>
      show digits host t 1 ++ bytes host b y = digits host' t 1 ++ bytes host' b y
      rw [digits_portable h.1, ihb h.2.2 y]

end Wite.Layouts
