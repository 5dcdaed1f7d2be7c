import Verif.Spec.IoStdio
import Mathlib.Tactic.Ring
import Mathlib.Tactic.ByContra

/-!
# Lemmas about the model of `wite/io/byte_buffer_file.hpp` on C streams
-/

namespace Wite.Io.Stdio

theorem cString_idem (p : Path) : cString (cString p) = cString p := by
  unfold cString
  induction p with
  | nil => rfl
  | cons a p ih =>
    by_cases h : a = 0
    · simp [h]
    · simpa [List.takeWhile_cons, h] using ih

theorem cString_of_no_nul {p : Path} (h : 0 ∉ p) : cString p = p := by
  unfold cString
  induction p with
  | nil => rfl
  | cons x p ih =>
    simp only [List.mem_cons, not_or] at h
    have hx : x ≠ 0 := fun e => h.1 e.symm
    simpa [List.takeWhile_cons, hx] using ih h.2

theorem cString_append_nul (a b : Path) (h : 0 ∉ a) : cString (a ++ 0 :: b) = a := by
  unfold cString
  induction a with
  | nil => simp
  | cons x a ih =>
    simp only [List.mem_cons, not_or] at h
    have hx : x ≠ 0 := fun e => h.1 e.symm
    simpa [List.takeWhile_cons, hx] using ih h.2

theorem moveTo_self {s : Sys} {id : Nat} {h : Handle} (ho : s.opened id = some h) :
    s.moveTo id h h.pos = s := by
  unfold Sys.moveTo
  have : (fun i => if i = id then some { h with pos := h.pos } else s.opened i) = s.opened := by
    funext i
    by_cases hi : i = id
    · subst hi; simp [ho]
    · simp [hi]
  rw [this]

theorem moveTo_moveTo (s : Sys) (id : Nat) (h : Handle) (p q : Nat) :
    (s.moveTo id h p).moveTo id { h with pos := p } q = s.moveTo id h q := by
  unfold Sys.moveTo
  simp only [Sys.mk.injEq, true_and, and_true]
  funext i
  by_cases hi : i = id <;> simp [hi]

@[simp] theorem moveTo_opened (s : Sys) (id : Nat) (h : Handle) (p : Nat) :
    (s.moveTo id h p).opened id = some { h with pos := p } := by simp [Sys.moveTo]

@[simp] theorem moveTo_fs (s : Sys) (id : Nat) (h : Handle) (p : Nat) : (s.moveTo id h p).fs = s.fs := rfl

theorem withHandle_run {α : Type} {s : Sys} {id : Nat} {h : Handle} {c : List Nat}
    (ho : s.opened id = some h) (hc : s.fs h.path = some c) (f : Handle → List Nat → Sys → Outcome α × Sys) :
    (withHandle id f).run s = f h c s := by
  simp [St.run, withHandle, ho, hc]

/-- The number `file_size` returns for a file of `len` bytes with the handle at `pos`. -/
def sizeSeen (env : Env) (path : Path) (len pos : Nat) : Nat :=
  if env.seekable path = true then
    if len ≤ env.longMax then len % 2 ^ 64
    else if env.seekFar = true then 2 ^ 64 - 1
    else if pos ≤ env.longMax then pos % 2 ^ 64
    else 2 ^ 64 - 1
  else 2 ^ 64 - 1

/-- Where `file_size` leaves the handle. -/
def posAfter (env : Env) (path : Path) (len pos : Nat) : Nat :=
  if env.seekable path = true ∧ ¬ pos ≤ env.longMax ∧ (len ≤ env.longMax ∨ env.seekFar = true) then len
  else pos

theorem nat_mod_toNat (n : Nat) : ((n : Int) % 2 ^ 64).toNat = n % 2 ^ 64 := by omega

theorem minus_one_toNat : ((-1 : Int) % 2 ^ 64).toNat = 2 ^ 64 - 1 := by decide

theorem fileSize_run (env : Env) {s : Sys} {id : Nat} {h : Handle} {c : List Nat}
    (ho : s.opened id = some h) (hc : s.fs h.path = some c) :
    (fileSize env id).run s =
      (.ok (sizeSeen env h.path c.length h.pos), s.moveTo id h (posAfter env h.path c.length h.pos)) := by
  unfold fileSize ftell fseekEnd fseekSet
  rw [St.run_bind, withHandle_run ho hc]
  simp only
  rw [St.run_bind, withHandle_run ho hc]
  by_cases hs : env.seekable h.path = true
  · by_cases hf : c.length ≤ env.longMax ∨ env.seekFar = true
    · simp only [hs, hf, and_self, if_true, true_and]
      rw [St.run_bind, withHandle_run (moveTo_opened s id h c.length) (by simpa using hc)]
      simp only [hs, true_and]
      rw [St.run_bind, withHandle_run (moveTo_opened s id h c.length) (by simpa using hc)]
      simp only [hs, true_and]
      by_cases hp : h.pos ≤ env.longMax
      · simp only [hp, if_true, Int.natCast_nonneg, Int.toNat_natCast, moveTo_moveTo, St.run_pure]
        simp only [posAfter, hp, not_true_eq_false, false_and, and_false, if_false, sizeSeen, hs, if_true]
        by_cases hl : c.length ≤ env.longMax
        · simp only [hl, if_true, nat_mod_toNat]
        · have hf2 : env.seekFar = true := by simpa [hl] using hf
          simp only [hl, if_false, hf2, if_true, minus_one_toNat]
      · simp only [hp, if_false, St.run_pure]
        have h1 : ¬ (0 : Int) ≤ -1 := by decide
        simp only [h1, if_false, posAfter, hs, hp, not_false_eq_true, hf, and_self, if_true, sizeSeen]
        by_cases hl : c.length ≤ env.longMax
        · simp only [hl, if_true, nat_mod_toNat]
        · have hf2 : env.seekFar = true := by simpa [hl] using hf
          simp only [hl, if_false, hf2, if_true, minus_one_toNat]
    · simp only [hs, hf, and_false, if_false]
      rw [St.run_bind, withHandle_run ho hc]
      simp only [hs, true_and]
      rw [St.run_bind, withHandle_run ho hc]
      simp only [hs, true_and]
      have hl : ¬ c.length ≤ env.longMax := fun h => hf (.inl h)
      have hf2 : ¬ env.seekFar = true := fun h => hf (.inr h)
      by_cases hp : h.pos ≤ env.longMax
      · simp only [hp, if_true, Int.natCast_nonneg, Int.toNat_natCast, St.run_pure]
        simp [posAfter, hp, sizeSeen, hs, hl, hf2]
        omega
      · have h1 : ¬ (0 : Int) ≤ -1 := by decide
        simp only [hp, if_false, St.run_pure, h1]
        simp [posAfter, hl, hf2, sizeSeen, hs, hp, moveTo_self ho]
  · have hs' : env.seekable h.path = false := by simpa using hs
    simp only [hs', false_and, if_false, Bool.false_eq_true]
    rw [St.run_bind, withHandle_run ho hc]
    simp only [hs', Bool.false_eq_true, false_and, if_false]
    rw [St.run_bind, withHandle_run ho hc]
    simp [hs', posAfter, sizeSeen, moveTo_self ho]

/-- The bytes an `fread` of `n` bytes delivers. -/
def gotten (env : Env) (h : Handle) (c : List Nat) (n : Nat) : List Nat :=
  if h.mode = .read then ((c.drop h.pos).take n).take env.deliver else []

theorem unsafeRead_run (env : Env) {s : Sys} {id : Nat} {h : Handle} {c : List Nat}
    (ho : s.opened id = some h) (hc : s.fs h.path = some c) (out : Range) :
    (unsafeRead env id out).run s =
      (.ok { out with data := gotten env h c out.elems ++ out.data.drop (gotten env h c out.elems).length },
        s.moveTo id h (h.pos + (gotten env h c out.elems).length)) := by
  unfold unsafeRead fread
  rw [St.run_bind, withHandle_run ho hc]
  by_cases hm : h.mode = .read
  · simp [hm, gotten]
  · simp [hm, gotten, moveTo_self ho]

theorem fwrite_run (env : Env) {s : Sys} {id : Nat} {h : Handle} {c : List Nat}
    (ho : s.opened id = some h) (hc : s.fs h.path = some c) (hm : h.mode = .write) (bs : List Nat) :
    (fwrite env id bs).run s =
      (.ok (), { s.moveTo id h (h.pos + (bs.take env.accept).length) with
        fs := s.fs.put h.path (overwrite c h.pos (bs.take env.accept)) }) := by
  unfold fwrite
  rw [withHandle_run ho hc]
  simp [hm]

theorem unsafeWrite_run (env : Env) {s : Sys} {id : Nat} {h : Handle} {c : List Nat}
    (ho : s.opened id = some h) (hc : s.fs h.path = some c) (hm : h.mode = .write) (count : Nat) (r : Range)
    (hn : count ≤ r.data.length) :
    (unsafeWrite env id count r).run s =
      (.ok (), { s.moveTo id h (h.pos + ((r.data.take count).take env.accept).length) with
        fs := s.fs.put h.path (overwrite c h.pos ((r.data.take count).take env.accept)) }) := by
  unfold unsafeWrite
  rw [if_pos hn, fwrite_run env ho hc hm]

/-- The state after `fopen` has succeeded. -/
def Sys.afterOpen (s : Sys) (mode : Mode) (path : Path) : Sys :=
  { fs := if mode = .write then s.fs.put path [] else s.fs
    opened := fun i => if i = s.next then some ⟨path, 0, mode⟩ else s.opened i
    used := s.used + 1
    next := s.next + 1 }

theorem fopen_ok {env : Env} {mode : Mode} {path : Path} {s : Sys} (h : CanOpen env mode path s) :
    (fopen env mode path).run s = (.ok (some s.next), s.afterOpen mode path) := by
  unfold CanOpen at h
  simp only [St.run, fopen, Sys.afterOpen]
  rw [if_pos h]

theorem fopen_null {env : Env} {mode : Mode} {path : Path} {s : Sys} (h : ¬ CanOpen env mode path s) :
    (fopen env mode path).run s = (.ok none, s) := by
  unfold CanOpen at h
  simp only [St.run, fopen, h, if_false]

theorem fclose_run {s : Sys} {id : Nat} {h : Handle} {c : List Nat}
    (ho : s.opened id = some h) (hc : s.fs h.path = some c) :
    (fclose id).run s =
      (.ok (), { s with opened := fun i => if i = id then none else s.opened i, used := s.used - 1 }) := by
  unfold fclose
  rw [withHandle_run ho hc]

/-- The state after a file has been opened, used and closed: only the counter for the next handle and
possibly the content have changed. -/
def Sys.done (s : Sys) (fs : Fs) : Sys := { fs := fs, opened := s.opened, used := s.used, next := s.next + 1 }

theorem closed_eq {s : Sys} (hfresh : s.opened s.next = none) (mode : Mode) (path : Path) (h : Handle) (p : Nat)
    (fs : Fs) :
    ({ fs := fs
       opened := fun i => if i = s.next then none
         else ((s.afterOpen mode path).moveTo s.next h p).opened i
       used := (s.afterOpen mode path).used - 1
       next := (s.afterOpen mode path).next } : Sys) = s.done fs := by
  simp only [Sys.done, Sys.afterOpen, Sys.moveTo, Sys.mk.injEq, true_and, Nat.add_sub_cancel, and_true]
  funext i
  by_cases hi : i = s.next
  · subst hi; simp [hfresh]
  · simp [hi]

theorem posAfter_zero (env : Env) (path : Path) (len : Nat) : posAfter env path len 0 = 0 := by
  simp [posAfter]

/-- `read` of a file that cannot be opened. -/
theorem read_closed {env : Env} {path : Path} {count : Option Nat} {s : Sys}
    (hp : env.pathFails 0 = false ∧ env.pathFails 1 = false ∧ env.pathFails 2 = false)
    (h : ¬ CanOpen env .read (cString path) s) :
    (read env path count).run s = (.throw (.invalidArgument "cannot read invalid path"), s) := by
  unfold read getReadFilePointer getFilePointer
  simp only [hp, Bool.or_self, Bool.false_eq_true, if_false, cString_idem]
  rw [St.run_bind, fopen_null h]
  rfl

/-- How many bytes `read` asks memory for. -/
def wanted (count : Option Nat) (size : Nat) : Nat :=
  match count with
  | none => size
  | some c => min c size

/-- `read` of a file that can be opened: everything depends on the vector. -/
theorem read_open {env : Env} {path : Path} {count : Option Nat} {s : Sys} {c : List Nat}
    (hfresh : s.opened s.next = none)
    (hp : env.pathFails 0 = false ∧ env.pathFails 1 = false ∧ env.pathFails 2 = false)
    (h : CanOpen env .read (cString path) s) (hc : s.fs (cString path) = some c) :
    (read env path count).run s =
      let n := wanted count (sizeSeen env (cString path) c.length 0)
      if 2 ^ 63 - 1 < n then
        (.throw (.lengthError "cannot create std::vector larger than max_size()"),
          s.afterOpen .read (cString path))
      else if env.room < n then (.throw .badAlloc, s.afterOpen .read (cString path))
      else (.ok ((c.take n).take env.deliver ++
          List.replicate (n - ((c.take n).take env.deliver).length) 0), s.done s.fs) := by
  unfold read getReadFilePointer getFilePointer
  simp only [hp, Bool.or_self, Bool.false_eq_true, if_false, cString_idem]
  rw [St.run_bind, fopen_ok h]
  simp only
  have ho : (s.afterOpen .read (cString path)).opened s.next = some ⟨cString path, 0, .read⟩ := by
    simp [Sys.afterOpen]
  have hc1 : (s.afterOpen .read (cString path)).fs (cString path) = some c := by
    simpa [Sys.afterOpen] using hc
  rw [St.run_bind, fileSize_run env ho hc1]
  simp only [posAfter_zero]
  have hm : (s.afterOpen .read (cString path)).moveTo s.next ⟨cString path, 0, .read⟩ 0 =
      s.afterOpen .read (cString path) := moveTo_self ho
  rw [hm]
  have key : ∀ n, (do
      let out ← St.lift (makeVector env n)
      let out ← unsafeRead env s.next out
      let _ ← fclose s.next
      pure out.data : St Sys (List Nat)).run (s.afterOpen .read (cString path)) =
      if 2 ^ 63 - 1 < n then
        (.throw (.lengthError "cannot create std::vector larger than max_size()"),
          s.afterOpen .read (cString path))
      else if env.room < n then (.throw .badAlloc, s.afterOpen .read (cString path))
      else (.ok ((c.take n).take env.deliver ++
          List.replicate (n - ((c.take n).take env.deliver).length) 0), s.done s.fs) := by
    intro n
    rw [St.run_bind, St.run_lift]
    unfold makeVector
    by_cases h1 : 2 ^ 63 - 1 < n
    · simp only [h1, if_true]
    · by_cases h2 : env.room < n
      · simp only [h1, h2, if_true, if_false]
      · simp only [h1, h2, if_false]
        rw [St.run_bind, unsafeRead_run env ho hc1]
        simp only
        rw [St.run_bind, fclose_run (moveTo_opened _ _ _ _) (by simpa using hc1)]
        simp only [St.run_pure, gotten, if_true, List.drop_zero, List.drop_replicate]
        rw [← closed_eq hfresh .read (cString path) ⟨cString path, 0, .read⟩]
        rfl
  cases count with
  | none => exact key _
  | some k => exact key _

theorem read_open_ok {env : Env} {path : Path} {count : Option Nat} {s : Sys} {c : List Nat} {n : Nat}
    (hfresh : s.opened s.next = none)
    (hp : env.pathFails 0 = false ∧ env.pathFails 1 = false ∧ env.pathFails 2 = false)
    (h : CanOpen env .read (cString path) s) (hc : s.fs (cString path) = some c)
    (hn : wanted count (sizeSeen env (cString path) c.length 0) = n) (h1 : n < 2 ^ 63) (h2 : n ≤ env.room) :
    (read env path count).run s = (.ok ((c.take n).take env.deliver ++
          List.replicate (n - ((c.take n).take env.deliver).length) 0), s.done s.fs) := by
  rw [read_open hfresh hp h hc]
  simp only [hn]
  rw [if_neg (show ¬ 2 ^ 63 - 1 < n by omega), if_neg (show ¬ env.room < n by omega)]

theorem read_open_huge {env : Env} {path : Path} {count : Option Nat} {s : Sys} {c : List Nat}
    (hfresh : s.opened s.next = none)
    (hp : env.pathFails 0 = false ∧ env.pathFails 1 = false ∧ env.pathFails 2 = false)
    (h : CanOpen env .read (cString path) s) (hc : s.fs (cString path) = some c)
    (h1 : 2 ^ 63 ≤ wanted count (sizeSeen env (cString path) c.length 0)) :
    (read env path count).run s = (.throw (.lengthError "cannot create std::vector larger than max_size()"),
      s.afterOpen .read (cString path)) := by
  rw [read_open hfresh hp h hc]
  simp only
  rw [if_pos (show 2 ^ 63 - 1 < wanted count (sizeSeen env (cString path) c.length 0) by omega)]

theorem read_open_room {env : Env} {path : Path} {count : Option Nat} {s : Sys} {c : List Nat}
    (hfresh : s.opened s.next = none)
    (hp : env.pathFails 0 = false ∧ env.pathFails 1 = false ∧ env.pathFails 2 = false)
    (h : CanOpen env .read (cString path) s) (hc : s.fs (cString path) = some c)
    (h1 : wanted count (sizeSeen env (cString path) c.length 0) < 2 ^ 63)
    (h2 : env.room < wanted count (sizeSeen env (cString path) c.length 0)) :
    (read env path count).run s = (.throw .badAlloc, s.afterOpen .read (cString path)) := by
  rw [read_open hfresh hp h hc]
  simp only
  rw [if_neg (show ¬ 2 ^ 63 - 1 < wanted count (sizeSeen env (cString path) c.length 0) by omega), if_pos h2]

/-- `try_read` of a file that cannot be opened. -/
theorem tryRead_closed {env : Env} {path : Path} {out : Range} {s : Sys}
    (hp : env.pathFails 0 = false ∧ env.pathFails 1 = false ∧ env.pathFails 2 = false)
    (h : ¬ CanOpen env .read (cString path) s) :
    (tryRead env path out).run s = (.ok (.error .fileNotFound, out), s) := by
  unfold tryRead getReadFilePointer getFilePointer
  simp only [hp, Bool.or_self, Bool.false_eq_true, if_false, cString_idem]
  rw [St.run_bind, fopen_null h]
  rfl

/-- `try_read` of a file that can be opened. -/
theorem tryRead_open {env : Env} {path : Path} {out : Range} {s : Sys} {c : List Nat}
    (hfresh : s.opened s.next = none)
    (hp : env.pathFails 0 = false ∧ env.pathFails 1 = false ∧ env.pathFails 2 = false)
    (h : CanOpen env .read (cString path) s) (hc : s.fs (cString path) = some c) :
    (tryRead env path out).run s =
      let size := sizeSeen env (cString path) c.length 0
      let out1 := if size < out.elems then out.shrink size else out
      let got := (c.take out1.elems).take env.deliver
      (.ok (.value out1.elems, { out1 with data := got ++ out1.data.drop got.length }), s.done s.fs) := by
  unfold tryRead getReadFilePointer getFilePointer
  simp only [hp, Bool.or_self, Bool.false_eq_true, if_false, cString_idem]
  rw [St.run_bind, fopen_ok h]
  simp only
  have ho : (s.afterOpen .read (cString path)).opened s.next = some ⟨cString path, 0, .read⟩ := by
    simp [Sys.afterOpen]
  have hc1 : (s.afterOpen .read (cString path)).fs (cString path) = some c := by
    simpa [Sys.afterOpen] using hc
  rw [St.run_bind, fileSize_run env ho hc1]
  simp only [posAfter_zero]
  have hm : (s.afterOpen .read (cString path)).moveTo s.next ⟨cString path, 0, .read⟩ 0 =
      s.afterOpen .read (cString path) := moveTo_self ho
  rw [hm, St.run_bind, unsafeRead_run env ho hc1]
  simp only
  rw [St.run_bind, fclose_run (moveTo_opened _ _ _ _) (by simpa using hc1)]
  simp only [St.run_pure, gotten, if_true, List.drop_zero]
  rw [← closed_eq hfresh .read (cString path) ⟨cString path, 0, .read⟩]
  rfl

theorem overwrite_nil (bs : List Nat) : overwrite [] 0 bs = bs := by
  unfold overwrite
  split <;> simp_all

theorem put_put (fs : Fs) (p : Path) (a b : List Nat) : (fs.put p a).put p b = fs.put p b := by
  funext q
  simp only [Fs.put]
  split <;> rfl

/-- Opening, writing and closing. -/
theorem write_steps {env : Env} {path : Path} {s : Sys} (hfresh : s.opened s.next = none)
    {count : Nat} {r : Range} (hn : count ≤ r.data.length) :
    (do let _ ← unsafeWrite env s.next count r; fclose s.next : St Sys Unit).run
        (s.afterOpen .write path) =
      (.ok (), s.done (s.fs.put path ((r.data.take count).take env.accept))) := by
  have ho : (s.afterOpen .write path).opened s.next = some ⟨path, 0, .write⟩ := by
    simp [Sys.afterOpen]
  have hc1 : (s.afterOpen .write path).fs path = some [] := by
    simp [Sys.afterOpen, Fs.put]
  rw [St.run_bind, unsafeWrite_run env ho hc1 rfl count r hn]
  simp only
  rw [fclose_run (h := ⟨path, 0 + ((r.data.take count).take env.accept).length, .write⟩)
    (c := (r.data.take count).take env.accept) (by simp [Sys.moveTo]) (by simp [Fs.put, overwrite_nil])]
  rw [← closed_eq hfresh .write path ⟨path, 0, .write⟩ (0 + ((r.data.take count).take env.accept).length)]
  simp [overwrite_nil, Sys.afterOpen, Sys.moveTo, put_put]

theorem writeN_open {env : Env} {path : Path} {s : Sys} (hfresh : s.opened s.next = none)
    (hp : env.pathFails 0 = false) (h : CanOpen env .write (cString path) s)
    {count : Nat} {r : Range} (hn : count ≤ r.data.length) :
    (writeN env path count r).run s =
      (.ok (), s.done (s.fs.put (cString path) ((r.data.take count).take env.accept))) := by
  unfold writeN getWriteFilePointer getFilePointer
  simp only [hp, Bool.false_eq_true, if_false]
  rw [St.run_bind, fopen_ok h]
  exact write_steps hfresh hn

theorem tryWriteN_open {env : Env} {path : Path} {s : Sys} (hfresh : s.opened s.next = none)
    (hp : env.pathFails 0 = false) (h : CanOpen env .write (cString path) s)
    {count : Nat} {r : Range} (hn : count ≤ r.data.length) :
    (tryWriteN env path count r).run s =
      (.ok true, s.done (s.fs.put (cString path) ((r.data.take count).take env.accept))) := by
  unfold tryWriteN getWriteFilePointer getFilePointer
  simp only [hp, Bool.false_eq_true, if_false]
  rw [St.run_bind, fopen_ok h]
  have e : (unsafeWrite env s.next count r >>= fun _ => fclose s.next >>= fun _ => pure true : St Sys Bool) =
      ((unsafeWrite env s.next count r >>= fun _ => fclose s.next) >>= fun _ => pure true) := by
    funext t
    change St.run _ t = St.run _ t
    simp only [St.run_bind]
    cases (unsafeWrite env s.next count r).run t with
    | mk o t' => cases o <;> rfl
  simp only
  rw [e, St.run_bind, write_steps hfresh hn]
  rfl

theorem write_closed {env : Env} {path : Path} {s : Sys}
    (hp : env.pathFails 0 = false) (h : ¬ CanOpen env .write (cString path) s) (count : Nat) (r : Range) :
    (writeN env path count r).run s = (.throw (.invalidArgument "cannot write to invalid path"), s) ∧
    (tryWriteN env path count r).run s = (.ok false, s) ∧
    (write env path r).run s = (.throw (.invalidArgument "cannot write to invalid path"), s) ∧
    (tryWrite env path r).run s = (.ok false, s) := by
  refine ⟨?_, ?_, ?_, ?_⟩
  · unfold writeN getWriteFilePointer getFilePointer
    simp only [hp, Bool.false_eq_true, if_false]
    rw [St.run_bind, fopen_null h]; rfl
  · unfold tryWriteN getWriteFilePointer getFilePointer
    simp only [hp, Bool.false_eq_true, if_false]
    rw [St.run_bind, fopen_null h]; rfl
  · unfold write getWriteFilePointer getFilePointer
    simp only [hp, Bool.false_eq_true, if_false]
    rw [St.run_bind, fopen_null h]; rfl
  · unfold tryWrite getWriteFilePointer getFilePointer
    simp only [hp, Bool.false_eq_true, if_false]
    rw [St.run_bind, fopen_null h]; rfl

theorem write_eq (env : Env) (path : Path) (r : Range) : write env path r = writeN env path r.elems r := rfl

theorem tryWrite_eq (env : Env) (path : Path) (r : Range) :
    tryWrite env path r = tryWriteN env path r.elems r := rfl

/-- A write whose count exceeds the range is undefined once the file is open. -/
theorem writeN_over {env : Env} {path : Path} {s : Sys}
    (hp : env.pathFails 0 = false) (h : CanOpen env .write (cString path) s)
    {count : Nat} {r : Range} (hn : ¬ count ≤ r.data.length) :
    ((writeN env path count r).run s).1 = .ub ∧ ((tryWriteN env path count r).run s).1 = .ub := by
  constructor
  · unfold writeN getWriteFilePointer getFilePointer
    simp only [hp, Bool.false_eq_true, if_false]
    rw [St.run_bind, fopen_ok h]
    simp only
    rw [St.run_bind]
    simp [unsafeWrite, hn]
  · unfold tryWriteN getWriteFilePointer getFilePointer
    simp only [hp, Bool.false_eq_true, if_false]
    rw [St.run_bind, fopen_ok h]
    simp only
    rw [St.run_bind]
    simp [unsafeWrite, hn]

/-- No string can be made from the path. -/
theorem write_no_path {env : Env} {path : Path} {s : Sys} (hp : env.pathFails 0 = true) (count : Nat)
    (r : Range) :
    (writeN env path count r).run s = (.terminate, s) ∧ (tryWriteN env path count r).run s = (.terminate, s) := by
  constructor
  · unfold writeN getWriteFilePointer getFilePointer
    simp only [hp, if_true]
    rfl
  · unfold tryWriteN getWriteFilePointer getFilePointer
    simp only [hp, if_true]
    rfl

end Wite.Io.Stdio
