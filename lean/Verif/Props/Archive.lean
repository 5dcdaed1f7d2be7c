import Verif.Lemmas.Archive
import Verif.Props.Compose

/-!
# C212: nested data under UUIDs, kept in a text file
-/

namespace Wite.Props

open Wite Wite.Io Wite.Layouts Wite.Archive Wite.Spec Wite.Spec.IoLayout Wite.Spec.Archive Wite.Lemmas.Archive

section samples

private def note : Layout := .both (.many ⟨2, .littleEndian⟩ (.numbers [⟨2, .bigEndian⟩])) (.numbers [⟨1, .native⟩])

private def noteOf : note.Data := ([[1000], [7]], [5])

private def idOf (n : Nat) : List Nat := List.replicate 15 0 ++ [n]

private theorem note_sensible : Sensible note := by simp [note, Sensible, totalTySize]

private theorem idOf_uuid {n : Nat} (h : n < 256) : Uuid.IsUuid (idOf n) := by
  constructor
  · simp [idOf]
  · intro b hb
    simp only [idOf, List.mem_append, List.mem_replicate, List.mem_singleton] at hb
    rcases hb with ⟨_, rfl⟩ | rfl <;> omega

private theorem noteOf_fits : Fits note noteOf := by
  refine ⟨⟨by show 2 < 256 ^ 2; omega, ?_⟩, .cons (by simp) .nil⟩
  intro x hx
  have hx' : x ∈ ([[1000], [7]] : List (List Nat)) := hx
  rcases List.mem_cons.1 hx' with rfl | h
  · exact .cons (by simp) .nil
  · obtain rfl := List.mem_singleton.1 h
    exact .cons (by simp) .nil

private theorem marks : Marks .D 61 10 := ⟨by decide, by decide, by decide, by decide, by decide, by decide, by decide⟩

private theorem storable (host : Endian) {n : Nat} (h : n < 256) : Storable host 16 note (idOf n, noteOf) :=
  ⟨idOf_uuid h, noteOf_fits, show (bytes host note noteOf).length ≤ 16 by cases host <;> decide⟩

end samples

/-- C212: if every record can be stored, the file holds one line for each, and all other files are as they were. -/
theorem c212_save (host : Endian) (F : Uuid.Layout) (up : Bool) (sep nl cap : Nat) (l : Layout) (hl : Sensible l)
    (os : File.Os) (path : Nat) (rs : List (List Nat × l.Data)) (hr : ∀ r ∈ rs, Storable host cap l r) (fs : File.Fs)
    (hos : CompleteOs os (fileText host F up sep nl l rs).length) :
    ∃ fs', (save host (Uuid.letter F up) sep nl cap l os path rs).run fs = (.ok ⟨⟩, fs') ∧
      fs' path = some (fileText host F up sep nl l rs) ∧ ∀ p, p ≠ path → fs' p = fs p := by
  obtain ⟨fs', h1, _, h3, h4⟩ := c46_write_then_read os path (fileText host F up sep nl l rs) fs hos
  refine ⟨fs', ?_, h3, h4⟩
  have he : each (line host (Uuid.letter F up) sep cap l) rs = .ok (rs.map (lineText host F up sep l)) :=
    each_ok (fun r hrm => by
      obtain ⟨hu, hd, hc⟩ := hr r hrm
      rw [line_eq hl hu hd, if_pos hc])
  rw [save, he]
  show ((St.lift (Join.join 0 (rs.map (lineText host F up sep l)) nl) >>= fun text => File.write os path text)).run fs = _
  rw [Join.join_spec]
  exact h1

/-- C212: if the bytes of a record do not fit into the buffer, saving throws `std::out_of_range` and touches no file. -/
theorem c212_too_small (host : Endian) (F : Uuid.Layout) (up : Bool) (sep nl cap : Nat) (l : Layout) (hl : Sensible l)
    (os : File.Os) (path : Nat) (rs : List (List Nat × l.Data)) (hr : ∀ r ∈ rs, Uuid.IsUuid r.1 ∧ Fits l r.2)
    (hc : ∃ r ∈ rs, cap < (bytes host l r.2).length) (fs : File.Fs) :
    (save host (Uuid.letter F up) sep nl cap l os path rs).run fs =
      (.throw (.outOfRange "Insufficient buffer space for write"), fs) := by
  have he : each (line host (Uuid.letter F up) sep cap l) rs = .throw (.outOfRange "Insufficient buffer space for write") := by
    clear fs
    induction rs with
    | nil => obtain ⟨_, h, _⟩ := hc; cases h
    | cons r rs ih =>
      obtain ⟨hu, hd⟩ := hr r (by simp)
      rw [each, line_eq hl hu hd]
      by_cases h : (bytes host l r.2).length ≤ cap
      · rw [if_pos h, Outcome.bind_ok, ih (fun r h => hr r (by simp [h])) ?_]
        · rfl
        · obtain ⟨r', h1, h2⟩ := hc
          rcases List.mem_cons.1 h1 with rfl | h1
          · omega
          · exact ⟨r', h1, h2⟩
      · rw [if_neg h]; rfl
  rw [save, he]
  rfl

example (fs : File.Fs) : (save .little 'D' 61 10 6 note ⟨true, true, 99, 99⟩ 3 [(idOf 1, noteOf)]).run fs =
    (.throw (.outOfRange "Insufficient buffer space for write"), fs) :=
  c212_too_small .little .D true 61 10 6 note note_sensible _ 3 _ (by
    intro r h; cases List.mem_singleton.1 h; exact ⟨idOf_uuid (by decide), noteOf_fits⟩) ⟨_, List.mem_singleton.2 rfl, by decide⟩ fs

private theorem load_eq {host : Endian} {f : Char} {sep nl : Nat} {l : Layout} {behind : List Nat → List Nat} {os : File.Os} {path : Nat}
    {fs : File.Fs} {content : List Nat} (hf : File.read os path none fs = .ok content) :
    load host f sep nl l behind os path fs = each (recordOf host f sep l behind) (Split.nonEmpty (Split.fields nl content)) := by
  rw [load, hf, Outcome.bind_ok, Split.split, Split.splitTo_drop]

private theorem read_complete {os : File.Os} {path : Nat} {fs : File.Fs} {content : List Nat} (h1 : os.openRead = true)
    (h2 : fs path = some content) (h3 : content.length ≤ os.deliver) : File.read os path none fs = .ok content := by
  simp [File.read, File.openRead, h1, h2, File.fileSize, File.unsafeRead, List.take_of_length_le h3]

/-- C212: what was saved is loaded, in every format, on the same machine; and on any machine if the layout uses no native numbers.  The file
may pass through a different operating system. -/
theorem c212_round_trip (host host' : Endian) (F : Uuid.Layout) (up : Bool) (sep nl cap : Nat) (hm : Marks F sep nl) (l : Layout)
    (hl : Sensible l) (hh : host = host' ∨ Portable l) (behind : List Nat → List Nat) (hz : ∀ s, 0 ∈ behind s) (os os' : File.Os)
    (path : Nat) (rs : List (List Nat × l.Data)) (hr : ∀ r ∈ rs, Storable host cap l r) (fs : File.Fs)
    (hos : CompleteOs os (fileText host F up sep nl l rs).length) (hos' : CompleteOs os' (fileText host F up sep nl l rs).length) :
    ∃ fs', (save host (Uuid.letter F up) sep nl cap l os path rs).run fs = (.ok ⟨⟩, fs') ∧
      load host' (Uuid.letter F up) sep nl l behind os' path fs' = .ok rs := by
  obtain ⟨fs', h1, h2, _⟩ := c212_save host F up sep nl cap l hl os path rs hr fs hos
  refine ⟨fs', h1, ?_⟩
  rw [load_eq (read_complete hos'.2.1 h2 hos'.2.2.2), lines_fileText hm (fun r h => (hr r h).1)]
  have key : ∀ rs : List (List Nat × l.Data), (∀ r ∈ rs, Storable host cap l r) →
      each (recordOf host' (Uuid.letter F up) sep l behind) (rs.map (lineText host F up sep l)) = .ok rs := by
    intro rs
    induction rs with
    | nil => intro _; rfl
    | cons r rs ih =>
      intro hr
      obtain ⟨hu, hd, _⟩ := hr r (by simp)
      have hline : lineText host F up sep l r = lineText host' F up sep l r := by
        rcases hh with rfl | hp
        · rfl
        · rw [lineText, lineText, bytes_portable host host' l hp]
      rw [List.map_cons, each, hline, recordOf_line hm hl hz hu hd, Outcome.bind_ok, ih (fun r h => hr r (by simp [h]))]
      rfl
  exact key rs hr

example (fs : File.Fs) : ∃ fs', (save .big 'D' 61 10 16 note ⟨true, true, 200, 200⟩ 3 [(idOf 1, noteOf), (idOf 9, noteOf)]).run fs =
      (.ok ⟨⟩, fs') ∧
    load .big 'D' 61 10 note (fun _ => [0]) ⟨true, true, 200, 200⟩ 3 fs' = .ok [(idOf 1, noteOf), (idOf 9, noteOf)] :=
  c212_round_trip .big .big .D true 61 10 16 marks note note_sensible (Or.inl rfl) _ (by simp) _ _ 3 _ (by
    intro r h
    simp only [List.mem_cons, List.not_mem_nil, or_false] at h
    rcases h with rfl | rfl
    · exact storable _ (by decide)
    · exact storable _ (by decide)) fs
    ⟨rfl, rfl, by decide +kernel, by decide +kernel⟩ ⟨rfl, rfl, by decide +kernel, by decide +kernel⟩

/-- C212: whatever the file holds, loading returns `rs` exactly if the lines that are not empty mean the records of `rs`, one after the
other. -/
theorem c212_load (host : Endian) (F : Uuid.Layout) (hX : F ≠ .X) (up : Bool) (sep nl : Nat) (l : Layout) (hl : Sensible l)
    (behind : List Nat → List Nat) (hz : ∀ s, 0 ∈ behind s) (os : File.Os) (path : Nat) (fs : File.Fs) (content : List Nat)
    (ho : os.openRead = true) (hf : fs path = some content) (hb : ∀ b ∈ content, IsByte b) (hd : content.length ≤ os.deliver)
    (rs : List (List Nat × l.Data)) :
    load host (Uuid.letter F up) sep nl l behind os path fs = .ok rs ↔
      List.Forall₂ (Says host F sep l) ((Split.fields nl content).filter (fun s => s ≠ [])) rs := by
  rw [load_eq (read_complete ho hf hd)]
  refine each_iff (fun s hs r => recordOf_iff hX hl hz ?_ r) rs
  intro c hc
  have hs' : s ∈ Split.fields nl content := (List.mem_filter.1 hs).1
  exact hb c (by
    rw [← Split.intercalate_fields nl content]
    exact mem_intercalate hs' hc)

private def chars (s : String) : List Nat := s.toList.map Char.toNat

/-- Lower-case digits, an empty line, and a character behind the last pair. -/
example (fs : File.Fs) (h : fs 3 = some (chars "\n00000000-0000-0000-0000-0000000000c8=020003e8000705?")) :
    load .little 'D' 61 10 note (fun _ => [0]) ⟨true, true, 200, 200⟩ 3 fs = .ok [(idOf 200, noteOf)] := by
  refine (c212_load .little .D (by decide) true 61 10 note note_sensible _ (by simp) _ 3 fs _ rfl h
    (by show ∀ b ∈ _, b < 256; decide +kernel) (by decide +kernel) _).2 ?_
  rw [show (Split.fields 10 (chars "\n00000000-0000-0000-0000-0000000000c8=020003e8000705?")).filter (fun s => s ≠ []) =
    [chars "00000000-0000-0000-0000-0000000000c8=020003e8000705?"] by decide +kernel]
  refine .cons ⟨chars "00000000-0000-0000-0000-0000000000c8", chars "020003e8000705?", by decide +kernel, by decide +kernel,
    by decide +kernel, ?_, by decide +kernel, by decide +kernel, noteOf_fits⟩ .nil
  simp [Uuid.HasShape, Uuid.shape, Uuid.shape.dashes, chars, IsHexDigit]

/-- C212: whatever the files hold and however much of them the operating system delivers, loading returns or throws. -/
theorem c212_defined (host : Endian) (F : Uuid.Layout) (hX : F ≠ .X) (up : Bool) (sep nl : Nat) (l : Layout) (hl : Sensible l)
    (behind : List Nat → List Nat) (hz : ∀ s, 0 ∈ behind s) (os : File.Os) (path : Nat) (fs : File.Fs)
    (hb : ∀ content, fs path = some content → ∀ b ∈ content, IsByte b) :
    (∃ rs, load host (Uuid.letter F up) sep nl l behind os path fs = .ok rs) ∨
      ∃ e, load host (Uuid.letter F up) sep nl l behind os path fs = .throw e := by
  cases hr : File.read os path none fs with
  | ok content =>
    rw [load_eq hr]
    refine each_defined (fun s hs => recordOf_defined hX hl hz ?_)
    intro c hc
    have hs' : s ∈ Split.fields nl content := (List.mem_filter.1 hs).1
    have hc' : c ∈ content := by
      rw [← Split.intercalate_fields nl content]
      exact mem_intercalate hs' hc
    rw [File.read] at hr
    cases ho : File.openRead os path fs with
    | none => rw [ho] at hr; cases hr
    | some text =>
      have htext : fs path = some text := by
        rw [File.openRead] at ho
        split at ho
        · exact ho
        · cases ho
      rw [ho] at hr
      simp only [Outcome.ok.injEq] at hr
      subst hr
      simp only [File.unsafeRead, File.fileSize, List.mem_append] at hc'
      rcases hc' with h | h
      · exact hb text htext c (List.mem_of_mem_take (List.mem_of_mem_take h))
      · have := List.mem_of_mem_drop h
        rw [List.eq_of_mem_replicate this]
        decide
  | throw e => exact Or.inr ⟨e, by rw [load, hr]; rfl⟩
  | _ =>
    rw [File.read] at hr
    split at hr <;> cases hr

/-- C212: what was loaded from any file can be saved again, with any format and marks, and is then loaded again. -/
theorem c212_again (host : Endian) (F : Uuid.Layout) (hX : F ≠ .X) (up : Bool) (sep nl : Nat) (l : Layout) (hl : Sensible l)
    (behind : List Nat → List Nat) (hz : ∀ s, 0 ∈ behind s) (os : File.Os) (path : Nat) (fs : File.Fs) (content : List Nat)
    (ho : os.openRead = true) (hf : fs path = some content) (hb : ∀ b ∈ content, IsByte b) (hd : content.length ≤ os.deliver)
    (rs : List (List Nat × l.Data)) (hload : load host (Uuid.letter F up) sep nl l behind os path fs = .ok rs)
    (F' : Uuid.Layout) (up' : Bool) (sep' nl' cap : Nat) (hm : Marks F' sep' nl') (os' : File.Os) (path' : Nat)
    (hcap : ∀ r ∈ rs, (bytes host l r.2).length ≤ cap) (hos : CompleteOs os' (fileText host F' up' sep' nl' l rs).length) :
    ∃ fs', (save host (Uuid.letter F' up') sep' nl' cap l os' path' rs).run fs = (.ok ⟨⟩, fs') ∧
      load host (Uuid.letter F' up') sep' nl' l behind os' path' fs' = .ok rs := by
  have h := (c212_load host F hX up sep nl l hl behind hz os path fs content ho hf hb hd rs).1 hload
  refine c212_round_trip host host F' up' sep' nl' cap hm l hl (Or.inl rfl) behind hz os' os' path' rs ?_ fs hos hos
  intro r hr
  obtain ⟨s, hs⟩ : ∃ s, Says host F sep l s r := by
    clear hload hcap hos
    generalize (Split.fields nl content).filter (fun s => s ≠ []) = ss at h
    induction h with
    | nil => cases hr
    | cons h1 _ ih =>
      rcases List.mem_cons.1 hr with rfl | hr
      · exact ⟨_, h1⟩
      · exact ih hr
  exact ⟨(says_uuid hs).1, (says_uuid hs).2, hcap r hr⟩

private theorem not_loaded {host : Endian} {F : Uuid.Layout} (hX : F ≠ .X) {up : Bool} {sep nl : Nat} {l : Layout} (hl : Sensible l)
    {behind : List Nat → List Nat} (hz : ∀ s, 0 ∈ behind s) {content : List Nat} (hb : ∀ b ∈ content, IsByte b) {s : List Nat}
    (hs : s ∈ Split.nonEmpty (Split.fields nl content)) (hn : ∀ r, ¬ Says host F sep l s r) :
    ∃ e, each (recordOf host (Uuid.letter F up) sep l behind) (Split.nonEmpty (Split.fields nl content)) = .throw e := by
  have hb' : ∀ s ∈ Split.nonEmpty (Split.fields nl content), ∀ c ∈ s, c < 256 := by
    intro s hs c hc
    exact hb c (by
      rw [← Split.intercalate_fields nl content]
      exact mem_intercalate (List.mem_filter.1 hs).1 hc)
  rcases each_defined (fun s hs => recordOf_defined (host := host) (up := up) (sep := sep) hX hl hz (hb' s hs)) with ⟨ys, h⟩ | h
  · have h2 := (each_iff (fun s hs r => recordOf_iff hX hl hz (hb' s hs) r) ys).1 h
    exfalso
    generalize Split.nonEmpty (Split.fields nl content) = ss at hs h2
    clear h hb' hb
    induction h2 with
    | nil => cases hs
    | cons h1 _ ih =>
      rcases List.mem_cons.1 hs with rfl | hs
      · exact hn _ h1
      · exact ih hs
  · exact h

private theorem fileText_byte {host : Endian} {F : Uuid.Layout} {up : Bool} {sep nl : Nat} (hsep : sep < 256) (hnl : nl < 256) {l : Layout}
    {rs : List (List Nat × l.Data)} (hr : ∀ r ∈ rs, Uuid.IsUuid r.1) : ∀ b ∈ fileText host F up sep nl l rs, IsByte b := by
  intro b h
  by_cases hb : b = nl
  · exact hb ▸ hnl
  obtain ⟨s, hs, h⟩ := of_mem_intercalate hb h
  obtain ⟨r, hrm, rfl⟩ := List.mem_map.1 hs
  simp only [lineText, List.mem_append, List.mem_cons] at h
  rcases h with h | rfl | h
  · exact shape_byte (Uuid.ofDigits_text F up (hr r hrm)).1 (fun c hc => by cases F <;> revert c <;> decide) b h
  · exact hsep
  · exact digit_byte (hexText_digits (bytes_byte host l r.2) b h)

/-- C212: a file that was cut short is never mistaken for other data.  If it was cut at the end of a line or directly behind the line end,
the records in front of the cut are loaded; otherwise loading throws. -/
theorem c212_cut (host : Endian) (F : Uuid.Layout) (hX : F ≠ .X) (up up' : Bool) (sep nl : Nat) (hm : Marks F sep nl) (hsep : sep < 256)
    (hnl : nl < 256) (l : Layout) (hl : Sensible l) (behind : List Nat → List Nat) (hz : ∀ s, 0 ∈ behind s) (os : File.Os) (path : Nat)
    (rs : List (List Nat × l.Data)) (hr : ∀ r ∈ rs, Uuid.IsUuid r.1 ∧ Fits l r.2) (k : Nat) (fs : File.Fs) (ho : os.openRead = true)
    (hf : fs path = some ((fileText host F up sep nl l rs).take k)) (hd : k ≤ os.deliver) :
    (∃ j ≤ rs.length, load host (Uuid.letter F up') sep nl l behind os path fs = .ok (rs.take j) ∧
      ((fileText host F up sep nl l rs).take k = fileText host F up sep nl l (rs.take j) ∨
        (fileText host F up sep nl l rs).take k = fileText host F up sep nl l (rs.take j) ++ [nl])) ∨
    ∃ e, load host (Uuid.letter F up') sep nl l behind os path fs = .throw e := by
  have hlen : ((fileText host F up sep nl l rs).take k).length ≤ os.deliver := by rw [List.length_take]; omega
  rw [load_eq (read_complete ho hf hlen)]
  have hb : ∀ b ∈ (fileText host F up sep nl l rs).take k, IsByte b := fun b h =>
    fileText_byte hsep hnl (fun r h => (hr r h).1) b (List.mem_of_mem_take h)
  rcases lines_cut (host := host) (up := up) hm (fun r h => (hr r h).1) k with ⟨j, hj, h1, h2⟩ | ⟨r, hrm, m, hm', h1⟩
  · refine Or.inl ⟨j, hj, ?_, h2.imp_right And.right⟩
    rw [h1]
    have hb' : ∀ s ∈ (rs.take j).map (lineText host F up sep l), ∀ c ∈ s, c < 256 := by
      intro s hs c hc
      rw [← h1] at hs
      exact hb c (by
        rw [← Split.intercalate_fields nl ((fileText host F up sep nl l rs).take k)]
        exact mem_intercalate (List.mem_filter.1 hs).1 hc)
    refine (each_iff (fun s hs r => recordOf_iff hX hl hz (hb' s hs) r) _).2 ?_
    rw [List.forall₂_map_left_iff, List.forall₂_same]
    intro r h
    obtain ⟨hu, hd⟩ := hr r (List.mem_of_mem_take h)
    exact says_line hm hu hd
  · obtain ⟨hu, hd⟩ := hr r hrm
    exact Or.inr (not_loaded hX hl hz hb h1 (not_says_cut hl hu hd hm'))

/-- A file of two records, cut in the middle of the second. -/
example (fs : File.Fs) (h : fs 3 = some ((fileText .little .D true 61 10 note [(idOf 1, noteOf), (idOf 9, noteOf)]).take 93)) :
    ∃ e, load .little 'D' 61 10 note (fun _ => [0]) ⟨true, true, 200, 200⟩ 3 fs = .throw e := by
  rcases c212_cut .little .D (by decide) true true 61 10 marks (by decide) (by decide) note note_sensible (fun _ => [0]) (by simp)
    ⟨true, true, 200, 200⟩ 3 [(idOf 1, noteOf), (idOf 9, noteOf)] (by
      intro r h
      simp only [List.mem_cons, List.not_mem_nil, or_false] at h
      rcases h with rfl | rfl
      · exact ⟨idOf_uuid (by decide), noteOf_fits⟩
      · exact ⟨idOf_uuid (by decide), noteOf_fits⟩) 93 fs rfl h (by decide) with ⟨j, hj, _, h1⟩ | h1
  · exfalso
    have : j = 0 ∨ j = 1 ∨ j = 2 := by simp at hj; omega
    rcases this with rfl | rfl | rfl
    · exact absurd h1 (by decide +kernel)
    · exact absurd h1 (by decide +kernel)
    · exact absurd h1 (by decide +kernel)
  · exact h1

/-- C212: if the operating system delivers fewer bytes than the file has, loading throws. -/
theorem c212_short_read (host : Endian) (F : Uuid.Layout) (hX : F ≠ .X) (up up' : Bool) (sep nl : Nat) (hm : Marks F sep nl)
    (hsep : sep < 256) (hnl : nl < 256) (l : Layout) (hl : Sensible l) (behind : List Nat → List Nat) (hz : ∀ s, 0 ∈ behind s)
    (os : File.Os) (path : Nat) (rs : List (List Nat × l.Data)) (hr : ∀ r ∈ rs, Uuid.IsUuid r.1 ∧ Fits l r.2) (fs : File.Fs)
    (hf : fs path = some (fileText host F up sep nl l rs)) (hd : os.deliver < (fileText host F up sep nl l rs).length) :
    ∃ e, load host (Uuid.letter F up') sep nl l behind os path fs = .throw e := by
  by_cases ho : os.openRead = true
  swap
  · exact ⟨_, by simp [load, File.read, File.openRead, ho]; rfl⟩
  generalize hT : fileText host F up sep nl l rs = T at hf hd
  obtain ⟨n, hn⟩ : ∃ n, T.length = os.deliver + (n + 1) := ⟨T.length - os.deliver - 1, by omega⟩
  have hread : File.read os path none fs = .ok (T.take os.deliver ++ List.replicate (n + 1) 0) := by
    simp only [File.read, File.openRead, ho, hf, File.fileSize, File.unsafeRead, List.length_replicate, if_true, List.take_length,
      List.drop_replicate, List.length_take]
    congr 3
    omega
  rw [load_eq hread]
  have hTb : ∀ b ∈ T, IsByte b := hT ▸ fileText_byte hsep hnl (fun r h => (hr r h).1)
  have hb : ∀ b ∈ T.take os.deliver ++ List.replicate (n + 1) 0, IsByte b := by
    intro b h
    rcases List.mem_append.1 h with h | h
    · exact hTb b (List.mem_of_mem_take h)
    · rw [List.eq_of_mem_replicate h]; show 0 < 256; decide
  cases n with
  | succ n =>
    obtain ⟨q, hq⟩ := last_field nl (T.take os.deliver) (List.replicate (n + 1 + 1) 0) (by
      intro h; exact hm.nl_zero (List.eq_of_mem_replicate h))
    refine not_loaded hX hl hz hb (s := q ++ List.replicate (n + 1 + 1) 0) (List.mem_filter.2 ⟨hq, by simp [List.replicate_succ]⟩) ?_
    intro r h
    rw [List.replicate_succ] at h
    have := (says_zero hm.sep_zero h).1
    simp [List.replicate_succ] at this
  | zero =>
    -- the last character is missing
    have hne : rs ≠ [] := by
      rintro rfl
      rw [← hT] at hn
      simp [fileText, List.intercalate] at hn
    obtain ⟨r, hrm, m, hm1, hm2⟩ := last_char (host := host) (up := up) hm (fun r h => (hr r h).1) hne
    rw [hT, show T.length - 1 = os.deliver by omega] at hm2
    refine not_loaded hX hl hz hb (s := (lineText host F up sep l r).take m ++ [0]) (List.mem_filter.2 ⟨hm2, by simp⟩) ?_
    intro r' h
    have h1 := (says_zero hm.sep_zero h).2
    have h2 := shape_length (Uuid.ofDigits_text F up (hr r hrm).1).1
    have h3 : (lineText host F up sep l r).length = (Uuid.shape F).length + 1 + 2 * (bytes host l r.2).length := by
      simp only [lineText, List.length_append, List.length_cons, Hex.hexText_length, h2]
      omega
    simp only [List.length_append, List.length_take, List.length_cons, List.length_nil] at h1
    omega

/-- All but the last of 51 characters. -/
example (fs : File.Fs) (h : fs 3 = some (fileText .big .D true 61 10 note [(idOf 9, noteOf)])) :
    ∃ e, load .big 'd' 61 10 note (fun _ => [0]) ⟨true, true, 200, 50⟩ 3 fs = .throw e :=
  c212_short_read .big .D (by decide) true false 61 10 marks (by decide) (by decide) note note_sensible _ (by simp) _ 3 _ (by
    intro r h; cases List.mem_singleton.1 h; exact ⟨idOf_uuid (by decide), noteOf_fits⟩) fs h (by decide +kernel)

end Wite.Props
