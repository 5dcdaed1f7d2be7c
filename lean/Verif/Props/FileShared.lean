import Verif.Model.FileShared
import Mathlib.Tactic.ByContra

/-!
# C218: a file that is read while others write it

Executions are arbitrary lists of steps, so the theorems hold for every interleaving of any number of processes.
-/

namespace Wite.Props

open Wite Wite.Io.Shared
open Wite.Io.Stdio (overwrite)

/-- What a call should give for a file with these bytes. -/
def gives : Call → List Nat → List Nat
  | .read none, c => c
  | .read (some k), c => c.take k
  | .tryRead out, c => c.take out.length

/-- All bytes of every write arrive, that is, no device is full. -/
def NoShort (es : List Ev) : Prop := ∀ p, Ev.short p ∉ es

private theorem getElem?_overwrite (c : List Nat) (pos : Nat) (bs : List Nat) (i : Nat) (hbs : bs ≠ []) :
    (overwrite c pos bs)[i]? =
      if i < pos then (if i < c.length then c[i]? else some 0) else if i < pos + bs.length then bs[i - pos]? else c[i]? := by
  unfold overwrite
  rw [if_neg hbs]
  have hl1 : (c.take pos).length = min pos c.length := List.length_take
  by_cases h1 : i < pos
  · rw [if_pos h1, List.append_assoc, List.append_assoc]
    by_cases h2 : i < c.length
    · rw [if_pos h2, List.getElem?_append_left (by omega), List.getElem?_take_of_lt h1]
    · rw [if_neg h2, List.getElem?_append_right (by omega), List.getElem?_append_left (by simp; omega)]
      rw [List.getElem?_replicate, if_pos (by omega)]
  · rw [if_neg h1]
    have hl2 : (c.take pos ++ List.replicate (pos - c.length) 0).length = pos := by simp; omega
    by_cases h2 : i < pos + bs.length
    · rw [if_pos h2, List.append_assoc, List.getElem?_append_right (by omega), hl2, List.getElem?_append_left (by omega)]
    · rw [if_neg h2, List.append_assoc, List.getElem?_append_right (by omega), hl2, List.getElem?_append_right (by omega),
        List.getElem?_drop]
      congr 1; omega

private theorem overwrite_nil (c : List Nat) (pos : Nat) : overwrite c pos [] = c := by unfold overwrite; rw [if_pos rfl]

private theorem overwrite_length (c : List Nat) (pos : Nat) (bs : List Nat) (h : pos + bs.length ≤ c.length) :
    (overwrite c pos bs).length = c.length := by
  by_cases hb : bs = []
  · rw [hb, overwrite_nil]
  · unfold overwrite; rw [if_neg hb]; simp; omega

/-! ## Replacing by renaming -/

private theorem take_length_take (l : List Nat) (m : Nat) : l.take (l.take m).length = l.take m := by
  rw [List.length_take, ← List.take_take, List.take_length]

private theorem overwrite_take (v : List Nat) (pos m : Nat) (h : pos ≤ v.length) :
    overwrite (v.take pos) pos ((v.drop pos).take m) = v.take (pos + ((v.drop pos).take m).length) := by
  by_cases hb : (v.drop pos).take m = []
  · rw [hb, overwrite_nil]; simp
  · unfold overwrite
    have hl : (v.take pos).length = pos := by simp; omega
    have e : (v.take pos).drop (pos + ((v.drop pos).take m).length) = [] := List.drop_eq_nil_of_le (by omega)
    rw [if_neg hb, List.take_take, Nat.min_self, hl, Nat.sub_self, e, List.take_add, take_length_take]
    simp

/-- The inodes of the writing processes are their own, and hold what has arrived; none is that of the path. -/
private structure Own (w : World) : Prop where
  cur : w.cur < w.next
  lt : ∀ p ino v pos, w.writers p = .writing ino v pos → ino < w.next ∧ ino ≠ w.cur ∧ pos ≤ v.length ∧ w.store ino = v.take pos
  one : ∀ p q ino v pos v' pos', w.writers p = .writing ino v pos → w.writers q = .writing ino v' pos' → p = q

/-- An inode that nobody writes any more. -/
private structure Frozen (ino : Nat) (w : World) : Prop where
  lt : ino < w.next
  free : ∀ p v pos, w.writers p ≠ .writing ino v pos

private theorem own_init (old : List Nat) : Own (World.init old) :=
  ⟨Nat.zero_lt_one, (fun _ _ _ _ h => by cases h), (fun _ _ _ _ _ _ _ h => by cases h)⟩

private theorem writers_set (w : World) (p q : Nat) (x : Writer) :
    (w.setWriter p x).writers q = if q = p then x else w.writers q := rfl

private theorem own_idle {w : World} (h : Own w) (p : Nat) : Own (w.setWriter p .idle) := by
  refine ⟨h.cur, fun q ino v pos e => ?_, fun q q' ino v pos v' pos' e e' => ?_⟩
  · rw [writers_set] at e
    split at e
    · cases e
    · exact h.lt q ino v pos e
  · rw [writers_set] at e e'
    split at e
    · cases e
    · split at e'
      · cases e'
      · exact h.one _ _ _ _ _ _ _ e e'

private theorem own_close {w : World} (h : Own w) {p ino : Nat} {v : List Nat} {pos : Nat} (hp : w.writers p = .writing ino v pos) :
    Own (w.closeFile .byRename p ino) := by
  have h' := own_idle h p
  refine ⟨(h.lt p ino v pos hp).1, fun q i u k e => ?_, h'.one⟩
  obtain ⟨a, _, c, d⟩ := h'.lt q i u k e
  refine ⟨a, fun hc => ?_, c, d⟩
  have e2 : (w.setWriter p .idle).writers q = .writing i u k := e
  rw [writers_set] at e2
  split at e2
  · cases e2
  · rename_i hne
    have hc : i = ino := hc
    subst hc
    exact hne (h.one _ _ _ _ _ _ _ e2 hp)

private theorem own_step {w : World} (h : Own w) (e : Ev) : Own (w.step .byRename e) := by
  cases e with
  | start p v =>
    cases hp : w.writers p with
    | writing ino u pos => simp only [World.step, hp]; exact h
    | idle =>
      simp only [World.step, hp]
      refine ⟨?_, fun q ino u k e => ?_, fun q q' ino u k u' k' e e' => ?_⟩
      · show w.cur < w.next + 1
        have := h.cur; omega
      · have e : (if q = p then Writer.writing w.next v 0 else w.writers q) = .writing ino u k := e
        show ino < w.next + 1 ∧ ino ≠ w.cur ∧ k ≤ u.length ∧ (if ino = w.next then [] else w.store ino) = u.take k
        split at e
        · cases e
          have := h.cur
          refine ⟨by omega, by omega, by omega, ?_⟩
          simp
        · obtain ⟨a, b, c, d⟩ := h.lt q ino u k e
          refine ⟨by omega, b, c, ?_⟩
          rw [if_neg (by omega)]; exact d
      · have e : (if q = p then Writer.writing w.next v 0 else w.writers q) = .writing ino u k := e
        have e' : (if q' = p then Writer.writing w.next v 0 else w.writers q') = .writing ino u' k' := e'
        split at e <;> split at e'
        · omega
        · cases e
          have := (h.lt _ _ _ _ e').1; omega
        · cases e'
          have := (h.lt _ _ _ _ e).1; omega
        · exact h.one _ _ _ _ _ _ _ e e'
  | flush p m =>
    cases hp : w.writers p with
    | idle => simp only [World.step, hp]; exact h
    | writing i x n =>
      simp only [World.step, hp]
      obtain ⟨hi, hc, hn, hs⟩ := h.lt p i x n hp
      refine ⟨h.cur, fun q ino u k e => ?_, fun q q' ino u k u' k' e e' => ?_⟩
      · have e : (if q = p then Writer.writing i x (n + ((x.drop n).take m).length) else w.writers q) = .writing ino u k := e
        show ino < w.next ∧ ino ≠ w.cur ∧ k ≤ u.length ∧
          (if ino = i then overwrite (w.store i) n ((x.drop n).take m) else w.store ino) = u.take k
        split at e
        · cases e
          refine ⟨hi, hc, ?_, ?_⟩
          · rw [List.length_take, List.length_drop]; omega
          · rw [if_pos rfl, hs, overwrite_take x n m hn]
        · rename_i hne
          obtain ⟨a, b, c, d⟩ := h.lt q ino u k e
          refine ⟨a, b, c, ?_⟩
          rw [if_neg (fun hh : ino = i => hne (h.one q p _ u k x n (hh ▸ e) hp))]
          exact d
      · have e : (if q = p then Writer.writing i x (n + ((x.drop n).take m).length) else w.writers q) = .writing ino u k := e
        have e' : (if q' = p then Writer.writing i x (n + ((x.drop n).take m).length) else w.writers q') = .writing ino u' k' := e'
        split at e <;> split at e'
        · omega
        · rename_i h1 h2
          cases e
          rw [h1]; exact h.one _ _ _ _ _ _ _ hp e'
        · rename_i h1 h2
          cases e'
          rw [h2]; exact h.one _ _ _ _ _ _ _ e hp
        · exact h.one _ _ _ _ _ _ _ e e'
  | close p =>
    cases hp : w.writers p with
    | idle => simp only [World.step, hp]; exact h
    | writing i x n =>
      simp only [World.step, hp]
      split
      · exact own_close h hp
      · exact h
  | short p =>
    cases hp : w.writers p with
    | idle => simp only [World.step, hp]; exact h
    | writing i x n =>
      simp only [World.step, hp]
      exact own_close h hp
  | kill p => exact own_idle h p
  | ropen call => unfold World.step; dsimp only; split <;> exact ⟨h.cur, h.lt, h.one⟩
  | rsize => unfold World.step; dsimp only; split <;> exact ⟨h.cur, h.lt, h.one⟩
  | rpiece m => unfold World.step; dsimp only; split <;> exact ⟨h.cur, h.lt, h.one⟩
  | rfinish =>
    unfold World.step; dsimp only
    split
    · split <;> exact ⟨h.cur, h.lt, h.one⟩
    · exact h

/-- Nothing happens to an inode that nobody writes, as long as processes rename. -/
private theorem frozen_step {w : World} {ino : Nat} (h : Frozen ino w) (e : Ev) :
    Frozen ino (w.step .byRename e) ∧ (w.step .byRename e).store ino = w.store ino := by
  have hidle : ∀ p, Frozen ino (w.setWriter p .idle) := fun p => by
    refine ⟨h.lt, fun q v pos e => ?_⟩
    rw [writers_set] at e
    split at e
    · cases e
    · exact h.free _ _ _ e
  cases e with
  | start p v =>
    cases hp : w.writers p with
    | writing i u pos => simp only [World.step, hp]; exact ⟨h, trivial⟩
    | idle =>
      simp only [World.step, hp]
      have := h.lt
      refine ⟨⟨by show ino < w.next + 1; omega, fun q u k e => ?_⟩, ?_⟩
      · have e : (if q = p then Writer.writing w.next v 0 else w.writers q) = .writing ino u k := e
        split at e
        · cases e; omega
        · exact h.free _ _ _ e
      · show (if ino = w.next then [] else w.store ino) = w.store ino
        rw [if_neg (by omega)]
  | flush p m =>
    cases hp : w.writers p with
    | idle => simp only [World.step, hp]; exact ⟨h, trivial⟩
    | writing i x n =>
      simp only [World.step, hp]
      have hne : ino ≠ i := fun hh => h.free p x n (hh ▸ hp)
      refine ⟨⟨h.lt, fun q u k e => ?_⟩, ?_⟩
      · have e : (if q = p then Writer.writing i x (n + ((x.drop n).take m).length) else w.writers q) = .writing ino u k := e
        split at e
        · cases e; exact hne rfl
        · exact h.free _ _ _ e
      · show (if ino = i then _ else w.store ino) = w.store ino
        rw [if_neg hne]
  | close p =>
    cases hp : w.writers p with
    | idle => simp only [World.step, hp]; exact ⟨h, trivial⟩
    | writing i x n =>
      simp only [World.step, hp]
      split
      · exact ⟨⟨h.lt, (hidle p).free⟩, rfl⟩
      · exact ⟨h, rfl⟩
  | short p =>
    cases hp : w.writers p with
    | idle => simp only [World.step, hp]; exact ⟨h, trivial⟩
    | writing i x n => simp only [World.step, hp]; exact ⟨⟨h.lt, (hidle p).free⟩, rfl⟩
  | kill p => exact ⟨hidle p, rfl⟩
  | ropen call => unfold World.step; dsimp only; split <;> exact ⟨⟨h.lt, h.free⟩, rfl⟩
  | rsize => unfold World.step; dsimp only; split <;> exact ⟨⟨h.lt, h.free⟩, rfl⟩
  | rpiece m => unfold World.step; dsimp only; split <;> exact ⟨⟨h.lt, h.free⟩, rfl⟩
  | rfinish =>
    unfold World.step; dsimp only
    split
    · split <;> exact ⟨⟨h.lt, h.free⟩, rfl⟩
    · exact ⟨h, rfl⟩

/-! ## Reading an inode that stays as it is -/

private theorem buffer_length (call : Call) (n : Nat) : (call.buffer n).length ≤ n := by
  unfold Call.buffer
  split
  · simp
  · simp; omega
  · split
    · rw [List.length_take]; omega
    · omega

private theorem gives_eq (call : Call) (c : List Nat) : gives call c = c.take (call.buffer c.length).length := by
  rcases call with (_ | k) | out
  · simp [gives, Call.buffer]
  · simp only [gives, Call.buffer, List.length_replicate]
    rw [← List.take_take, List.take_length]
  · simp only [gives, Call.buffer]
    split
    · rw [List.length_take, Nat.min_eq_left (by omega), List.take_length, List.take_of_length_le (by omega)]
    · rfl

/-- The reading process has a handle for `ino`, and has read so far what `c` has. -/
private def Reads (call : Call) (ino : Nat) (c : List Nat) (r : Reader) : Prop :=
  r = .opened call ino ∨ ∃ buf pos, r = .reading ino buf pos ∧ buf.length = (call.buffer c.length).length ∧ pos ≤ buf.length ∧
    ∀ i, i < pos → buf[i]? = c[i]?

/-- The steps of writing processes. -/
def ofWriter : Ev → Bool
  | .start .. | .flush .. | .close .. | .short .. | .kill .. => true
  | _ => false

private theorem closeFile_reader (method : Method) (w : World) (p ino : Nat) :
    (w.closeFile method p ino).reader = w.reader ∧ (w.closeFile method p ino).results = w.results := by
  cases method <;> exact ⟨rfl, rfl⟩

private theorem writer_reader (method : Method) (w : World) (e : Ev) (h : ofWriter e = true) :
    (w.step method e).reader = w.reader ∧ (w.step method e).results = w.results := by
  cases e <;> simp only [ofWriter, Bool.false_eq_true] at h
  · unfold World.step; dsimp only
    split
    · exact ⟨rfl, rfl⟩
    · cases method <;> exact ⟨rfl, rfl⟩
  · unfold World.step; dsimp only
    split <;> exact ⟨rfl, rfl⟩
  · unfold World.step; dsimp only
    split
    · exact ⟨rfl, rfl⟩
    · split
      · exact closeFile_reader _ _ _ _
      · exact ⟨rfl, rfl⟩
  · unfold World.step; dsimp only
    split
    · exact ⟨rfl, rfl⟩
    · exact closeFile_reader _ _ _ _
  · exact ⟨rfl, rfl⟩

private theorem reader_files (method : Method) (w : World) (e : Ev) (h : ofWriter e = false) :
    (w.step method e).store = w.store ∧ (w.step method e).cur = w.cur ∧ (w.step method e).next = w.next ∧
      (w.step method e).writers = w.writers := by
  cases e <;> simp only [ofWriter, Bool.true_eq_false] at h
  · unfold World.step; dsimp only; split <;> exact ⟨rfl, rfl, rfl, rfl⟩
  · unfold World.step; dsimp only; split <;> exact ⟨rfl, rfl, rfl, rfl⟩
  · unfold World.step; dsimp only; split <;> exact ⟨rfl, rfl, rfl, rfl⟩
  · unfold World.step; dsimp only
    split
    · split <;> exact ⟨rfl, rfl, rfl, rfl⟩
    · exact ⟨rfl, rfl, rfl, rfl⟩

/-- A step while a call reads an inode with the content `c`: the call goes on, or it is finished and gave what it should. -/
private theorem reads_step (method : Method) {w : World} {call : Call} {ino : Nat} {c : List Nat} (hc : w.store ino = c)
    (h : Reads call ino c w.reader) (e : Ev) :
    (Reads call ino c (w.step method e).reader ∧ (w.step method e).results = w.results) ∨
    (e = .rfinish ∧ (w.step method e).reader = .idle ∧ (w.step method e).results = w.results ++ [gives call c]) := by
  by_cases hw : ofWriter e = true
  · obtain ⟨a, b⟩ := writer_reader method w e hw
    left
    rw [a, b]; exact ⟨h, rfl⟩
  · obtain h | ⟨buf, pos, hr, hl, hp, hi⟩ := h
    · cases e <;> simp only [ofWriter, not_true_eq_false] at hw
      · left; simp only [World.step, h]; exact ⟨Or.inl rfl, trivial⟩
      · left; simp only [World.step, h]
        refine ⟨Or.inr ⟨_, 0, rfl, by rw [hc], Nat.zero_le _, fun i hi => by omega⟩, trivial⟩
      · left; simp only [World.step, h]; exact ⟨Or.inl rfl, trivial⟩
      · left; simp only [World.step, h]; exact ⟨Or.inl rfl, trivial⟩
    · have hcur : Reads call ino c w.reader := Or.inr ⟨buf, pos, hr, hl, hp, hi⟩
      have hbl := buffer_length call c.length
      cases e <;> simp only [ofWriter, not_true_eq_false] at hw
      · left; simp only [World.step, hr]; exact ⟨hr ▸ hcur, trivial⟩
      · left; simp only [World.step, hr]; exact ⟨hr ▸ hcur, trivial⟩
      · rename_i m
        left; simp only [World.step, hr, hc]
        refine ⟨Or.inr ⟨_, _, rfl, ?_⟩, trivial⟩
        have hbs : ((c.drop pos).take (min m (buf.length - pos))).length ≤ buf.length - pos := by
          rw [List.length_take]; omega
        have hlen : (overwrite buf pos ((c.drop pos).take (min m (buf.length - pos)))).length = buf.length :=
          overwrite_length _ _ _ (by omega)
        refine ⟨by rw [hlen, hl], by rw [hlen]; omega, fun i hlt => ?_⟩
        by_cases hb : (c.drop pos).take (min m (buf.length - pos)) = []
        · rw [hb] at hlt ⊢
          rw [overwrite_nil]; exact hi i (by simpa using hlt)
        · rw [getElem?_overwrite _ _ _ _ hb]
          by_cases h1 : i < pos
          · rw [if_pos h1, if_pos (by omega)]; exact hi i h1
          · rw [if_neg h1, if_pos hlt, List.getElem?_take_of_lt (by rw [List.length_take] at hlt; omega), List.getElem?_drop]
            congr 1; omega
      · simp only [World.step, hr, hc]
        split
        · rename_i hfin
          right
          refine ⟨trivial, rfl, ?_⟩
          have hpe : pos = buf.length := by omega
          show w.results ++ [buf] = w.results ++ [gives call c]
          congr 2
          rw [gives_eq, ← hl]
          apply List.ext_getElem?
          intro i
          by_cases h1 : i < buf.length
          · rw [List.getElem?_take_of_lt h1]; exact hi i (by omega)
          · rw [List.getElem?_eq_none (by omega), List.getElem?_eq_none (by rw [List.length_take]; omega)]
        · left; exact ⟨hr ▸ hcur, rfl⟩

private theorem run_cons (method : Method) (w : World) (e : Ev) (es : List Ev) :
    w.run method (e :: es) = (w.step method e).run method es := rfl

private theorem run_append (method : Method) (w : World) (es es' : List Ev) :
    w.run method (es ++ es') = (w.run method es).run method es' := List.foldl_append

private theorem own_run {w : World} (h : Own w) (es : List Ev) : Own (w.run .byRename es) := by
  induction es generalizing w with
  | nil => exact h
  | cons e es ih => exact ih (own_step h e)

private theorem opened_run {w : World} {call : Call} {ino : Nat} {c : List Nat} (hf : Frozen ino w) (hc : w.store ino = c)
    (h : Reads call ino c w.reader) (es : List Ev) (hes : .rfinish ∉ es) :
    (w.run .byRename es).store ino = c ∧ Reads call ino c (w.run .byRename es).reader ∧ (w.run .byRename es).results = w.results := by
  induction es generalizing w with
  | nil => exact ⟨hc, h, rfl⟩
  | cons e es ih =>
    obtain ⟨hf', hs⟩ := frozen_step hf e
    obtain ⟨h', hr⟩ | ⟨he, _⟩ := reads_step .byRename hc h e
    · obtain ⟨a, b, d⟩ := ih hf' (hs.trans hc) h' (fun hm => hes (List.mem_cons_of_mem _ hm))
      exact ⟨a, b, d.trans hr⟩
    · exact absurd (he ▸ List.mem_cons_self) hes

private theorem not_idle {call : Call} {ino : Nat} {c : List Nat} {r : Reader} (h : Reads call ino c r) : r ≠ .idle := by
  obtain h | ⟨_, _, h, _⟩ := h <;> rw [h] <;> intro hh <;> cases hh

/-- C218 for processes that replace the file by renaming: whatever any number of writing processes do while `read` or `try_read` runs
(`es₂`), also if they are killed or their device is full, and whatever they did before (`es₁`), the call gives what was in the file at the
moment it was opened. -/
theorem c218_rename_partial (old : List Nat) (es₁ es₂ : List Ev) (call : Call) (hf : .rfinish ∉ es₂) (w w' : World)
    (hw : w = (World.init old).run .byRename es₁) (hidle : w.reader = .idle)
    (hw' : w' = w.run .byRename (.ropen call :: es₂ ++ [.rfinish])) :
    (w'.reader = .idle → w'.results = w.results ++ [gives call w.content]) ∧ (w'.reader ≠ .idle → w'.results = w.results) := by
  have ho : Own w := hw ▸ own_run (own_init old) es₁
  have e0 : w.step .byRename (.ropen call) = { w with reader := .opened call w.cur } := by simp only [World.step, hidle]
  rw [List.cons_append, run_cons, e0, run_append] at hw'
  have hfz : Frozen w.cur { w with reader := .opened call w.cur } :=
    ⟨ho.cur, fun p v pos h => (ho.lt p _ v pos h).2.1 rfl⟩
  obtain ⟨a, b, d⟩ := opened_run hfz (c := w.content) rfl (Or.inl rfl) es₂ hf
  obtain ⟨h', hr⟩ | ⟨_, h', hr⟩ := reads_step .byRename a b .rfinish
  · have h1 : Reads call w.cur w.content w'.reader := hw' ▸ h'
    have h2 : w'.results = w.results := hw' ▸ (hr.trans d)
    exact ⟨fun h => absurd h (not_idle h1), fun _ => h2⟩
  · have h1 : w'.reader = .idle := hw' ▸ h'
    have h2 : w'.results = w.results ++ [gives call w.content] := by
      rw [hw']; exact hr.trans (by rw [d])
    exact ⟨fun _ => h2, fun h => absurd h1 h⟩

/-- Two processes replace the file by renaming while a third reads it; the reader gets the bytes that were there when it opened the file. -/
example : ((World.init [1, 2, 3]).run .byRename
    [.start 0 [4, 5], .ropen (.read none), .flush 0 1, .start 1 [6], .rsize, .rpiece 2, .flush 0 5, .close 0, .flush 1 1, .close 1,
      .rpiece 9, .rfinish, .ropen (.read none), .rsize, .rpiece 9, .rfinish]).results = [[1, 2, 3], [6]] := by decide +kernel

/-! ## What is in a file that is replaced by renaming -/

/-- The bytes of all processes are such that `V`. -/
private structure Holds (V : List Nat → Prop) (w : World) : Prop where
  own : Own w
  now : V w.content
  later : ∀ p ino v pos, w.writers p = .writing ino v pos → V v

private theorem holds_idle {V : List Nat → Prop} {w : World} (h : Holds V w) (p : Nat) : Holds V (w.setWriter p .idle) := by
  refine ⟨own_idle h.own p, h.now, fun q i v pos e => ?_⟩
  rw [writers_set] at e
  split at e
  · cases e
  · exact h.later _ _ _ _ e

private theorem holds_step {V : List Nat → Prop} {w : World} (h : Holds V w) (e : Ev) (hs : ∀ p, e ≠ .short p)
    (hv : ∀ p v, e = .start p v → V v) : Holds V (w.step .byRename e) := by
  have ho := own_step h.own e
  cases e with
  | start p v =>
    cases hp : w.writers p with
    | writing ino u pos => simp only [World.step, hp]; exact h
    | idle =>
      refine ⟨ho, ?_, ?_⟩
      · simp only [World.step, hp]
        show V (if w.cur = w.next then [] else w.store w.cur)
        rw [if_neg (by have := h.own.cur; omega)]; exact h.now
      · simp only [World.step, hp]
        intro q ino u k e
        have e : (if q = p then Writer.writing w.next v 0 else w.writers q) = .writing ino u k := e
        split at e
        · cases e; exact hv _ _ rfl
        · exact h.later _ _ _ _ e
  | flush p m =>
    cases hp : w.writers p with
    | idle => simp only [World.step, hp]; exact h
    | writing i x n =>
      refine ⟨ho, ?_, ?_⟩
      · simp only [World.step, hp]
        show V (if w.cur = i then _ else w.store w.cur)
        rw [if_neg (fun hh => (h.own.lt p i x n hp).2.1 hh.symm)]; exact h.now
      · simp only [World.step, hp]
        intro q ino u k e
        have e : (if q = p then Writer.writing i x (n + ((x.drop n).take m).length) else w.writers q) = .writing ino u k := e
        split at e
        · cases e; exact h.later _ _ _ _ hp
        · exact h.later _ _ _ _ e
  | close p =>
    cases hp : w.writers p with
    | idle => simp only [World.step, hp]; exact h
    | writing i x n =>
      by_cases hn : n = x.length
      · refine ⟨ho, ?_, ?_⟩
        · simp only [World.step, hp, if_pos hn]
          show V (w.store i)
          rw [(h.own.lt p i x n hp).2.2.2, hn, List.take_length]; exact h.later _ _ _ _ hp
        · simp only [World.step, hp, if_pos hn]
          exact (holds_idle h p).later
      · simp only [World.step, hp, if_neg hn]; exact h
  | short p => exact absurd rfl (hs p)
  | kill p => exact holds_idle h p
  | ropen call =>
    obtain ⟨a, b, _, d⟩ := reader_files .byRename w (.ropen call) rfl
    exact ⟨ho, by unfold World.content; rw [a, b]; exact h.now, by rw [d]; exact h.later⟩
  | rsize =>
    obtain ⟨a, b, _, d⟩ := reader_files .byRename w .rsize rfl
    exact ⟨ho, by unfold World.content; rw [a, b]; exact h.now, by rw [d]; exact h.later⟩
  | rpiece m =>
    obtain ⟨a, b, _, d⟩ := reader_files .byRename w (.rpiece m) rfl
    exact ⟨ho, by unfold World.content; rw [a, b]; exact h.now, by rw [d]; exact h.later⟩
  | rfinish =>
    obtain ⟨a, b, _, d⟩ := reader_files .byRename w .rfinish rfl
    exact ⟨ho, by unfold World.content; rw [a, b]; exact h.now, by rw [d]; exact h.later⟩

private theorem holds_run {V : List Nat → Prop} {w : World} (h : Holds V w) (es : List Ev) (hs : NoShort es)
    (hv : ∀ p v, .start p v ∈ es → V v) : Holds V (w.run .byRename es) := by
  induction es generalizing w with
  | nil => exact h
  | cons e es ih =>
    refine ih (holds_step h e (fun p hh => hs p (hh ▸ List.mem_cons_self)) (fun p v hh => hv p v (hh ▸ List.mem_cons_self)))
      (fun p hm => hs p (List.mem_cons_of_mem _ hm)) (fun p v hm => hv p v (List.mem_cons_of_mem _ hm))

/-- C218 for processes that replace the file by renaming: if no device is full, the file holds at every moment all bytes of the beginning
or all bytes of one of the writes, even if processes are killed while they write. -/
theorem c218_rename_whole_partial (old : List Nat) (es : List Ev) (hs : NoShort es) :
    ((World.init old).run .byRename es).content = old ∨
    ∃ p v, .start p v ∈ es ∧ ((World.init old).run .byRename es).content = v := by
  have h0 : Holds (fun c => c = old ∨ ∃ p v, .start p v ∈ es ∧ c = v) (World.init old) :=
    ⟨own_init old, Or.inl rfl, (fun _ _ _ _ h => by cases h)⟩
  exact (holds_run h0 es hs (fun p v hm => Or.inr ⟨p, v, hm, rfl⟩)).now

example : ((World.init [1, 2, 3]).run .byRename [.start 0 [4, 5], .flush 0 1, .kill 0, .start 1 [6, 7], .flush 1 1]).content = [1, 2, 3] := by
  decide +kernel

/-! ## Writing in place -/

private theorem quiet_run (method : Method) {w : World} {call : Call} {ino : Nat} {c : List Nat} (hc : w.store ino = c)
    (h : Reads call ino c w.reader) (es : List Ev) (hes : .rfinish ∉ es) (hq : ∀ e ∈ es, ofWriter e = false) :
    (w.run method es).store ino = c ∧ Reads call ino c (w.run method es).reader ∧ (w.run method es).results = w.results := by
  induction es generalizing w with
  | nil => exact ⟨hc, h, rfl⟩
  | cons e es ih =>
    obtain ⟨hs, _⟩ := reader_files method w e (hq e List.mem_cons_self)
    obtain ⟨h', hr⟩ | ⟨he, _⟩ := reads_step method hc h e
    · obtain ⟨a, b, d⟩ := ih (by rw [hs]; exact hc) h' (fun hm => hes (List.mem_cons_of_mem _ hm))
        (fun e' hm => hq e' (List.mem_cons_of_mem _ hm))
      exact ⟨a, b, d.trans hr⟩
    · exact absurd (he ▸ List.mem_cons_self) hes

/-- C218, whichever way the file is written: a call during which no process makes a step of a write gives what is in the file. -/
theorem c218_quiet_partial (method : Method) (w w' : World) (es : List Ev) (call : Call) (hidle : w.reader = .idle)
    (hf : .rfinish ∉ es) (hq : ∀ e ∈ es, ofWriter e = false)
    (hw' : w' = w.run method (.ropen call :: es ++ [.rfinish])) :
    (w'.reader = .idle → w'.results = w.results ++ [gives call w.content]) ∧ (w'.reader ≠ .idle → w'.results = w.results) := by
  have e0 : w.step method (.ropen call) = { w with reader := .opened call w.cur } := by simp only [World.step, hidle]
  rw [List.cons_append, run_cons, e0, run_append] at hw'
  obtain ⟨a, b, d⟩ := quiet_run method (w := { w with reader := .opened call w.cur }) (c := w.content) rfl (Or.inl rfl) es hf hq
  obtain ⟨h', hr⟩ | ⟨_, h', hr⟩ := reads_step method a b .rfinish
  · have h1 : Reads call w.cur w.content w'.reader := hw' ▸ h'
    have h2 : w'.results = w.results := hw' ▸ (hr.trans d)
    exact ⟨fun h => absurd h (not_idle h1), fun _ => h2⟩
  · have h1 : w'.reader = .idle := hw' ▸ h'
    have h2 : w'.results = w.results ++ [gives call w.content] := by
      rw [hw']; exact hr.trans (by rw [d])
    exact ⟨fun _ => h2, fun h => absurd h1 h⟩

example : ((World.init [1, 2, 3]).run .inPlace
    [.start 0 [4, 5], .flush 0 1, .ropen (.tryRead [8, 9]), .rsize, .rpiece 1, .rfinish]).results = [[4]] := by decide +kernel

private theorem flushes (w : World) (p ino : Nat) (v : List Nat) (pos : Nat) (ms : List Nat) (hw : w.writers p = .writing ino v pos)
    (hs : w.store ino = v.take pos) (hp : pos ≤ v.length) :
    ∃ k, (w.run .inPlace (ms.map (.flush p))).writers p = .writing ino v k ∧ k ≤ v.length ∧
      (w.run .inPlace (ms.map (.flush p))).store ino = v.take k ∧ (w.run .inPlace (ms.map (.flush p))).cur = w.cur := by
  induction ms generalizing w pos with
  | nil => exact ⟨pos, hw, hp, hs, rfl⟩
  | cons m ms ih =>
    rw [List.map_cons, run_cons]
    have e : w.step .inPlace (.flush p m) = (w.put ino (overwrite (w.store ino) pos ((v.drop pos).take m))).setWriter p
        (.writing ino v (pos + ((v.drop pos).take m).length)) := by simp only [World.step, hw]
    have hle : pos + ((v.drop pos).take m).length ≤ v.length := by
      rw [List.length_take, List.length_drop]; omega
    obtain ⟨k, a, b, c, d⟩ := ih (w.step .inPlace (.flush p m)) (pos + ((v.drop pos).take m).length)
      (by rw [e]; show (if p = p then _ else _) = _; rw [if_pos rfl])
      (by
        rw [e]; show (if ino = ino then _ else _) = _
        rw [if_pos rfl, hs]; exact overwrite_take v pos m hp) hle
    exact ⟨k, a, b, c, by rw [d, e]; rfl⟩

/-- C218 for a write in place that nobody else disturbs: when it has returned, and all bytes found room, the file holds what was written and
nothing of what was there before. -/
theorem c218_write_partial (w w' : World) (p : Nat) (v : List Nat) (ms : List Nat) (hp : w.writers p = .idle)
    (hw' : w' = w.run .inPlace (.start p v :: ms.map (.flush p) ++ [.close p])) (hd : w'.writers p = .idle) : w'.content = v := by
  rw [List.cons_append, run_cons, run_append] at hw'
  have e : w.step .inPlace (.start p v) = (w.put w.cur []).setWriter p (.writing w.cur v 0) := by simp only [World.step, hp]
  obtain ⟨k, a, b, c, d⟩ := flushes (w.step .inPlace (.start p v)) p w.cur v 0 ms
    (by rw [e]; show (if p = p then _ else _) = _; rw [if_pos rfl])
    (by rw [e]; show (if w.cur = w.cur then _ else _) = _; rw [if_pos rfl]; simp) (Nat.zero_le _)
  have hcur : ((w.step .inPlace (.start p v)).run .inPlace (ms.map (.flush p))).cur = w.cur := by rw [d, e]; rfl
  generalize (w.step .inPlace (.start p v)).run .inPlace (ms.map (.flush p)) = u at hw' a c hcur
  have hw2 : w' = u.step .inPlace (.close p) := hw'
  by_cases hk : k = v.length
  · have e2 : u.step .inPlace (.close p) = u.setWriter p .idle := by
      simp only [World.step, a, if_pos hk, World.closeFile]
    rw [hw2, e2]
    show u.store u.cur = v
    rw [hcur, c, hk, List.take_length]
  · have e2 : u.step .inPlace (.close p) = u := by simp only [World.step, a, if_neg hk]
    rw [hw2, e2, a] at hd
    cases hd

example : ((World.init [1, 2, 3]).run .inPlace [.start 0 [4, 5], .flush 0 1, .flush 0 7, .close 0]).content = [4, 5] := by decide +kernel

private theorem overwrite_fit (c : List Nat) (pos : Nat) (bs : List Nat) (h : pos ≤ c.length) :
    overwrite c pos bs = c.take pos ++ bs ++ c.drop (pos + bs.length) := by
  by_cases hb : bs = []
  · rw [hb, overwrite_nil]; simp
  · unfold overwrite
    rw [if_neg hb, Nat.sub_eq_zero_of_le h]; simp

/-- C218 is false of writing in place: whatever was in the file and whatever is written, a call that opens the file after the writing process
did, and before any bytes arrived, succeeds and gives nothing. -/
theorem c218_refuted_empty (old new : List Nat) (p : Nat) (call : Call) :
    ((World.init old).run .inPlace [.start p new, .ropen call, .rsize, .rfinish]).results = [[]] := by
  rcases call with (_ | k) | out
  · simp [World.run, World.step, World.init, World.put, World.setWriter, Call.buffer]
  · simp [World.run, World.step, World.init, World.put, World.setWriter, Call.buffer]
  · simp only [World.run, List.foldl, World.step, World.init, World.put, World.setWriter, Call.buffer, if_true]
    cases out <;> simp

example : ((World.init [1, 2]).run .inPlace [.start 0 [3], .ropen (.tryRead [7, 8]), .rsize, .rfinish]).results = [[]] := by
  decide +kernel

/-- C218 is false of writing in place: for all old and new bytes, and for every place, a `read` during which the file is replaced can give the
old bytes before that place and the new ones behind it, and zeros where the new ones are fewer than the old ones. -/
theorem c218_refuted_torn (old new : List Nat) (p i : Nat) (hi : i ≤ old.length) (hi' : i ≤ new.length) :
    ((World.init old).run .inPlace [.ropen (.read none), .rsize, .rpiece i, .start p new, .flush p new.length, .close p,
      .rpiece old.length, .rfinish]).results =
    [(old.take i ++ new.drop i ++ List.replicate (old.length - new.length) 0).take old.length] := by
  have h1 : overwrite (List.replicate old.length 0) 0 (old.take (min i old.length)) = old.take i ++ List.replicate (old.length - i) 0 := by
    rw [overwrite_fit _ _ _ (Nat.zero_le _), Nat.min_eq_left hi]
    simp [Nat.min_eq_left hi]
  have hl : (old.take i ++ List.replicate (old.length - i) 0).length = old.length := by simp; omega
  have h2 : overwrite [] 0 new = new := by
    rw [overwrite_fit _ _ _ (Nat.zero_le _)]; simp
  have h3 : (old.take (min i old.length)).length = i := by simp; omega
  have h4 : overwrite (old.take i ++ List.replicate (old.length - i) 0) i ((new.drop i).take (min old.length (old.length - i))) =
      (old.take i ++ new.drop i ++ List.replicate (old.length - new.length) 0).take old.length := by
    rw [overwrite_fit _ _ _ (by omega)]
    have hti : (old.take i).length = i := by simp; omega
    generalize hg : (new.drop i).take (min old.length (old.length - i)) = g
    have hgl : g.length = min (old.length - i) (new.length - i) := by
      rw [← hg, List.length_take, List.length_drop]; omega
    have e1 : (old.take i ++ List.replicate (old.length - i) 0).take i = old.take i := by
      rw [List.take_append_of_le_length (by omega), List.take_take, Nat.min_self]
    have e2 : (old.take i ++ List.replicate (old.length - i) 0).drop (i + g.length) = List.replicate (old.length - i - g.length) 0 := by
      rw [List.drop_append, List.drop_eq_nil_of_le (by omega), List.nil_append, hti, List.drop_replicate]
      congr 1; omega
    have e3 : (old.take i ++ new.drop i ++ List.replicate (old.length - new.length) 0).take old.length =
        old.take i ++ (new.drop i ++ List.replicate (old.length - new.length) 0).take (old.length - i) := by
      rw [List.append_assoc, List.take_append, List.take_of_length_le (by omega), hti]
    rw [e1, e2, e3, List.append_assoc]
    congr 1
    rw [List.take_append, ← hg, Nat.min_eq_right (by omega), List.take_replicate, List.length_drop]
    congr 2
    rw [List.length_take, List.length_drop]; omega
  simp only [World.run, List.foldl, World.step, World.init, World.put, World.setWriter, Call.buffer, World.closeFile, if_true,
    List.drop_zero, List.length_replicate, Nat.sub_zero, Nat.zero_add, h1, hl, h2, h3, h4, List.take_length]
  rw [if_pos]
  · rfl
  · rw [List.length_take, List.length_take]
    simp only [List.length_append, List.length_take, List.length_drop, List.length_replicate]
    omega

example : ((World.init [1, 2, 3, 4]).run .inPlace [.ropen (.read none), .rsize, .rpiece 1, .start 0 [5, 6, 7], .flush 0 3, .close 0,
      .rpiece 4, .rfinish]).results = [[1, 6, 7, 0]] := by decide +kernel

/-- C218 is false of writing in place: a process that is killed while it writes leaves the bytes that have arrived, as few as they may be, and
nothing of what was there before. -/
theorem c218_refuted_killed (old new : List Nat) (p k : Nat) :
    ((World.init old).run .inPlace [.start p new, .flush p k, .kill p]).content = new.take k := by
  have h : overwrite [] 0 (new.take k) = new.take k := by rw [overwrite_fit _ _ _ (Nat.zero_le _)]; simp
  simp [World.run, World.step, World.init, World.put, World.setWriter, World.content, h]

example : ((World.init [1, 2]).run .inPlace [.start 0 [3, 4, 5], .flush 0 1, .kill 0]).content = [3] := by decide +kernel

/-- C218 is false of two processes that write in place at the same time: both calls return, and the file can hold the beginning of one and the
end of the other. -/
theorem c218_refuted_two (old a b : List Nat) (p q k : Nat) (hpq : p ≠ q) (hk : k ≤ a.length) (hab : b.length = a.length) :
    ((World.init old).run .inPlace [.start p a, .start q b, .flush p k, .flush q b.length, .close q, .flush p a.length, .close p]).content =
      b.take k ++ a.drop k ∧
    ∀ r, ((World.init old).run .inPlace [.start p a, .start q b, .flush p k, .flush q b.length, .close q, .flush p a.length,
      .close p]).writers r = .idle := by
  have h1 : overwrite [] 0 (a.take k) = a.take k := by rw [overwrite_fit _ _ _ (Nat.zero_le _)]; simp
  have h2 : overwrite (a.take k) 0 b = b := by
    rw [overwrite_fit _ _ _ (Nat.zero_le _), List.drop_eq_nil_of_le (by simp; omega)]; simp
  have h3 : overwrite b k (a.drop k) = b.take k ++ a.drop k := by
    have e : b.drop (k + (a.drop k).length) = [] := List.drop_eq_nil_of_le (by rw [List.length_drop]; omega)
    rw [overwrite_fit _ _ _ (by omega), e, List.append_nil]
  have h4 : (a.take k).length = k := by simp; omega
  have h5 : (a.drop k).take a.length = a.drop k := List.take_of_length_le (by simp)
  have h6 : k + (a.drop k).length = a.length := by simp; omega
  simp only [World.run, List.foldl, World.step, World.init, World.put, World.setWriter, World.content, World.closeFile, if_true,
    List.drop_zero, Nat.zero_add, h1, h2, h3, h4, h5, h6, if_neg hpq, if_neg (Ne.symm hpq), List.take_length]
  refine ⟨trivial, fun r => ?_⟩
  by_cases hp : r = p
  · rw [if_pos hp]
  · rw [if_neg hp, if_neg hp]
    by_cases hq : r = q
    · rw [if_pos hq]
    · simp only [if_neg hq, if_neg hp]

example : ((World.init [1]).run .inPlace [.start 0 [2, 3, 4], .start 1 [5, 6, 7], .flush 0 1, .flush 1 3, .close 1, .flush 0 3,
      .close 0]).content = [5, 3, 4] := by decide +kernel

/-- C218 is false of replacing by renaming too when the device is full: `write` returns as if all bytes had arrived, and the rename puts the
part of them that did in the place of what was there. -/
theorem c218_refuted_short (old new : List Nat) (p k : Nat) :
    ((World.init old).run .byRename [.start p new, .flush p k, .short p]).content = new.take k := by
  have h : overwrite [] 0 (new.take k) = new.take k := by rw [overwrite_fit _ _ _ (Nat.zero_le _)]; simp
  simp [World.run, World.step, World.init, World.put, World.setWriter, World.content, World.closeFile, h]

example : ((World.init [1, 2]).run .byRename [.start 0 [3, 4, 5], .flush 0 2, .short 0]).content = [3, 4] := by decide +kernel

/-! ## Where the bytes come from -/

/-- Bytes that may be in the file. -/
private structure Bytes (B P : Nat → Nat → Prop) (w : World) : Prop where
  zero : ∀ i, B i 0
  weaker : ∀ i b, B i b → P i b
  store : ∀ ino i b, (w.store ino)[i]? = some b → B i b
  later : ∀ p ino v pos, w.writers p = .writing ino v pos → ∀ i b, v[i]? = some b → B i b
  opened : ∀ call ino, w.reader = .opened call ino → ∀ n i b, (call.buffer n)[i]? = some b → P i b
  reading : ∀ ino buf pos, w.reader = .reading ino buf pos → ∀ i b, buf[i]? = some b → P i b
  results : ∀ r ∈ w.results, ∀ i b, r[i]? = some b → P i b

private theorem bytes_overwrite {B : Nat → Nat → Prop} (hz : ∀ i, B i 0) (c bs : List Nat) (pos : Nat)
    (hc : ∀ i b, c[i]? = some b → B i b) (hb : ∀ i b, bs[i]? = some b → B (pos + i) b) (i b : Nat)
    (h : (overwrite c pos bs)[i]? = some b) : B i b := by
  by_cases hn : bs = []
  · rw [hn, overwrite_nil] at h; exact hc i b h
  · rw [getElem?_overwrite _ _ _ _ hn] at h
    split at h
    · split at h
      · exact hc i b h
      · cases h; exact hz i
    · split at h
      · have := hb _ _ h
        rwa [show pos + (i - pos) = i by omega] at this
      · exact hc i b h

private theorem bytes_piece {B : Nat → Nat → Prop} (v : List Nat) (pos m : Nat) (hv : ∀ i b, v[i]? = some b → B i b) (i b : Nat)
    (h : ((v.drop pos).take m)[i]? = some b) : B (pos + i) b := by
  rw [List.getElem?_take] at h
  split at h
  · rw [List.getElem?_drop] at h; exact hv _ _ h
  · cases h

private theorem bytes_writers {B P : Nat → Nat → Prop} {w : World} (h : Bytes B P w) (p : Nat) (x : Writer)
    (hx : ∀ ino v pos, x = .writing ino v pos → ∀ i b, v[i]? = some b → B i b) : Bytes B P (w.setWriter p x) := by
  refine ⟨h.zero, h.weaker, h.store, fun q ino v pos e => ?_, h.opened, h.reading, h.results⟩
  rw [writers_set] at e
  split at e
  · exact hx _ _ _ e
  · exact h.later _ _ _ _ e

private theorem bytes_put {B P : Nat → Nat → Prop} {w : World} (h : Bytes B P w) (ino : Nat) (c : List Nat)
    (hc : ∀ i b, c[i]? = some b → B i b) : Bytes B P (w.put ino c) := by
  refine ⟨h.zero, h.weaker, fun j i b e => ?_, h.later, h.opened, h.reading, h.results⟩
  have e : (if j = ino then c else w.store j)[i]? = some b := e
  split at e
  · exact hc i b e
  · exact h.store _ _ _ e

private theorem bytes_close {B P : Nat → Nat → Prop} {w : World} (h : Bytes B P w) (method : Method) (p ino : Nat) :
    Bytes B P (w.closeFile method p ino) := by
  have := bytes_writers h p .idle (fun _ _ _ hh => by cases hh)
  cases method
  · exact this
  · exact ⟨this.zero, this.weaker, this.store, this.later, this.opened, this.reading, this.results⟩

private theorem bytes_step {B P : Nat → Nat → Prop} {w : World} (h : Bytes B P w) (method : Method) (e : Ev)
    (hv : ∀ p v, e = .start p v → ∀ i b, v[i]? = some b → B i b)
    (ho : ∀ out, e = .ropen (.tryRead out) → ∀ i b, out[i]? = some b → P i b) : Bytes B P (w.step method e) := by
  cases e with
  | start p v =>
    cases hp : w.writers p with
    | writing ino u pos => simp only [World.step, hp]; exact h
    | idle =>
      cases method with
      | inPlace =>
        simp only [World.step, hp]
        exact bytes_writers (bytes_put h _ [] (fun i b e => by cases e)) p _ (fun _ _ _ hh => by cases hh; exact hv p v rfl)
      | byRename =>
        simp only [World.step, hp]
        have := bytes_writers (bytes_put h w.next [] (fun i b e => by cases e)) p (.writing w.next v 0)
          (fun _ _ _ hh => by cases hh; exact hv p v rfl)
        exact ⟨this.zero, this.weaker, this.store, this.later, this.opened, this.reading, this.results⟩
  | flush p m =>
    cases hp : w.writers p with
    | idle => simp only [World.step, hp]; exact h
    | writing ino u pos =>
      simp only [World.step, hp]
      have hu := h.later p ino u pos hp
      refine bytes_writers (bytes_put h _ _ (bytes_overwrite h.zero _ _ _ (h.store ino) (bytes_piece u pos m hu))) p _ ?_
      intro _ _ _ hh; cases hh; exact hu
  | close p =>
    cases hp : w.writers p with
    | idle => simp only [World.step, hp]; exact h
    | writing ino u pos =>
      simp only [World.step, hp]
      split
      · exact bytes_close h _ _ _
      · exact h
  | short p =>
    cases hp : w.writers p with
    | idle => simp only [World.step, hp]; exact h
    | writing ino u pos => simp only [World.step, hp]; exact bytes_close h _ _ _
  | kill p => exact bytes_writers h p .idle (fun _ _ _ hh => by cases hh)
  | ropen call =>
    unfold World.step; dsimp only
    split
    · refine ⟨h.zero, h.weaker, h.store, h.later, fun c ino e n i b hb => ?_, (fun _ _ _ e => by cases e), h.results⟩
      cases e
      rcases call with (_ | k) | out
      · have : b = 0 := by
          have := List.mem_of_getElem? hb
          exact List.eq_of_mem_replicate this
        rw [this]; exact h.weaker _ _ (h.zero i)
      · have : b = 0 := by
          have := List.mem_of_getElem? hb
          exact List.eq_of_mem_replicate this
        rw [this]; exact h.weaker _ _ (h.zero i)
      · refine ho out rfl i b ?_
        simp only [Call.buffer] at hb
        split at hb
        · rw [List.getElem?_take] at hb
          split at hb
          · exact hb
          · cases hb
        · exact hb
    · exact h
  | rsize =>
    unfold World.step; dsimp only
    split
    · rename_i call ino hr
      refine ⟨h.zero, h.weaker, h.store, h.later, fun _ _ e => (by cases e), fun _ _ _ e i b hb => ?_, h.results⟩
      cases e
      exact h.opened call ino hr _ i b hb
    · exact h
  | rpiece m =>
    unfold World.step; dsimp only
    split
    · rename_i ino buf pos hr
      refine ⟨h.zero, h.weaker, h.store, h.later, fun _ _ e => (by cases e), fun _ _ _ e i b hb => ?_, h.results⟩
      cases e
      exact bytes_overwrite (fun i => h.weaker _ _ (h.zero i)) _ _ _ (h.reading _ _ _ hr)
        (bytes_piece _ _ _ (fun i b hh => h.weaker _ _ (h.store _ i b hh))) i b hb
    · exact h
  | rfinish =>
    unfold World.step; dsimp only
    split
    · rename_i ino buf pos hr
      split
      · refine ⟨h.zero, h.weaker, h.store, h.later, fun _ _ e => (by cases e), fun _ _ _ e => (by cases e), fun r hm => ?_⟩
        rw [List.mem_append, List.mem_singleton] at hm
        obtain hm | hm := hm
        · exact h.results r hm
        · rw [hm]; exact h.reading _ _ _ hr
      · exact h
    · exact h

private theorem bytes_run {B P : Nat → Nat → Prop} {w : World} (h : Bytes B P w) (method : Method) (es : List Ev)
    (hv : ∀ p v, .start p v ∈ es → ∀ i b, v[i]? = some b → B i b)
    (ho : ∀ out, .ropen (.tryRead out) ∈ es → ∀ i b, out[i]? = some b → P i b) : Bytes B P (w.run method es) := by
  induction es generalizing w with
  | nil => exact h
  | cons e es ih =>
    refine ih (bytes_step h method e (fun p v hh => hv p v (hh ▸ List.mem_cons_self)) (fun o hh => ho o (hh ▸ List.mem_cons_self)))
      (fun p v hm => hv p v (List.mem_cons_of_mem _ hm)) (fun o hm => ho o (List.mem_cons_of_mem _ hm))

/-- A byte that an execution may show at index `i`: a zero, or one that the file had there at the beginning or that was written there. -/
def Known (old : List Nat) (es : List Ev) (i b : Nat) : Prop :=
  b = 0 ∨ old[i]? = some b ∨ ∃ p v, .start p v ∈ es ∧ v[i]? = some b

/-- C218, whichever way any number of processes write, also if they are killed or their device is full: every byte in the file and every byte
that a `read` gives is zero or stands in the same place in the old bytes or in those of some write; `try_read` may also leave a byte of the
caller's range as it was.  Nothing else is ever seen, and no byte in another place. -/
theorem c218_bytes_partial (method : Method) (old : List Nat) (es : List Ev) :
    (∀ i b, ((World.init old).run method es).content[i]? = some b → Known old es i b) ∧
    ∀ r ∈ ((World.init old).run method es).results, ∀ i b, r[i]? = some b →
      Known old es i b ∨ ∃ out, .ropen (.tryRead out) ∈ es ∧ out[i]? = some b := by
  have h0 : Bytes (Known old es) (fun i b => Known old es i b ∨ ∃ out, .ropen (.tryRead out) ∈ es ∧ out[i]? = some b) (World.init old) :=
    ⟨fun i => Or.inl rfl, fun i b h => Or.inl h, fun _ i b h => Or.inr (Or.inl h), (fun _ _ _ _ h => by cases h),
      (fun _ _ h => by cases h), (fun _ _ _ h => by cases h), (fun r h => by cases h)⟩
  have h := bytes_run h0 method es (fun p v hm i b hb => Or.inr (Or.inr ⟨p, v, hm, hb⟩)) (fun out hm i b hb => Or.inr ⟨out, hm, hb⟩)
  exact ⟨fun i b hb => h.store _ i b hb, h.results⟩

example : Known [1, 2] [.start 0 [3, 4, 5]] 2 5 ∧ ¬ Known [1, 2] [.start 0 [3, 4, 5]] 1 3 := by
  refine ⟨Or.inr (Or.inr ⟨0, [3, 4, 5], List.mem_singleton.2 rfl, rfl⟩), fun h => ?_⟩
  obtain h | h | ⟨p, v, hm, hv⟩ := h
  · cases h
  · cases h
  · rw [List.mem_singleton] at hm
    cases hm; cases hv

/-- C218 for a file that only grows, that is, whose old bytes and all bytes written into it are beginnings of one text: a `read` gives bytes of
that text in their places, or zeros. -/
theorem c218_growing_partial (method : Method) (old text : List Nat) (es : List Ev) (hold : old <+: text)
    (hes : ∀ p v, .start p v ∈ es → v <+: text) (hr : ∀ out, .ropen (.tryRead out) ∉ es) :
    ∀ r ∈ ((World.init old).run method es).results, ∀ (i b : Nat), r[i]? = some b → b = 0 ∨ text[i]? = some b := by
  have hpre : ∀ (v : List Nat) (i b : Nat), v <+: text → v[i]? = some b → text[i]? = some b := by
    rintro v i b ⟨t, rfl⟩ h
    rw [List.getElem?_append_left (List.getElem?_eq_some_iff.1 h).1]; exact h
  intro r hm i b hb
  obtain (h | h | ⟨p, v, hs, hv⟩) | ⟨out, ho, _⟩ := (c218_bytes_partial method old es).2 r hm i b hb
  · exact Or.inl h
  · exact Or.inr (hpre _ _ _ hold h)
  · exact Or.inr (hpre _ _ _ (hes p v hs) hv)
  · exact absurd ho (hr out)

example : ((World.init [1, 2]).run .inPlace [.ropen (.read none), .rsize, .start 0 [1, 2, 3], .flush 0 1, .rpiece 9, .rfinish]).results =
    [[1, 0]] := by decide +kernel

end Wite.Props
