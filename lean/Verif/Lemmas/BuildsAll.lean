import Verif.Lemmas.Builds
import Verif.Model.Index
import Verif.Model.FragmentLive
import Verif.Model.ReverseIter
import Verif.Model.CollIter
import Verif.Model.ValueRange
import Verif.Model.CollectionThrow
import Verif.Model.CollectionMove

namespace Wite.Builds

open Wite.Collections Wite.Maths

/-- Steps that need no thought. -/
local macro "agr" : tactic => `(tactic| with_reducible repeat' (first
  | assumption
  | exact agree_ok _ | exact agree_pure _ | exact agree_ub | exact agree_diverge | exact agree_assert _ _
  | exact agree_outOfRange _
  | refine agree_bind ?_ fun _ => ?_
  | refine agree_noexcept ?_
  | refine agree_ite ?_ ?_))

/-! ## Iterators of a static vector -/

theorem plain_ptrAdd (n p : Nat) (d : Int) : plain (DerefIter.ptrAdd n p d) := by
  intro m h; unfold DerefIter.ptrAdd at h; split at h <;> cases h

theorem agree_ptrAdd (n p : Nat) (d : Int) : Agree (fun _ => DerefIter.ptrAdd n p d) := agree_const (plain_ptrAdd n p d)

theorem assertPtr_ok (b : Build) (p : Nat) (c : Nat → Bool) (m : String) :
    DerefIter.assertPtr b (.ok p) c m = debugAssert b (c p) m := by cases b <;> rfl

theorem agree_derefIncr (n : Nat) (it : DerefIter) : Agree (fun b => DerefIter.incr b n it) := by
  unfold DerefIter.incr
  agr
  exact agree_ptrAdd _ _ _

theorem agree_derefDecr (n : Nat) (it : DerefIter) : Agree (fun b => DerefIter.decr b n it) := by
  unfold DerefIter.decr
  agr
  exact agree_ptrAdd _ _ _

theorem ptrAdd_cases (n p : Nat) (d : Int) : (∃ q, DerefIter.ptrAdd n p d = .ok q) ∨ DerefIter.ptrAdd n p d = .ub := by
  unfold DerefIter.ptrAdd
  split
  · exact Or.inl ⟨_, rfl⟩
  · exact Or.inr rfl

theorem agree_all_ub {α : Type} {f : Build → Outcome α} (h : ∀ b, f b = .ub) : Agree f := by
  have : f = fun _ => .ub := funext h
  rw [this]; exact agree_ub

theorem agree_derefAddAssign (n : Nat) (d : Int) (it : DerefIter) : Agree (fun b => DerefIter.addAssign b n d it) := by
  rcases ptrAdd_cases n it.pos d with ⟨q, h⟩ | h
  · simp only [DerefIter.addAssign, h, assertPtr_ok]; agr
  · exact agree_all_ub (by intro b; simp only [DerefIter.addAssign, h]; cases b <;> rfl)

theorem agree_derefSubAssign (n : Nat) (d : Int) (it : DerefIter) : Agree (fun b => DerefIter.subAssign b n d it) := by
  rcases ptrAdd_cases n it.pos (-d) with ⟨q, h⟩ | h
  · simp only [DerefIter.subAssign, h, assertPtr_ok]; agr
  · exact agree_all_ub (by intro b; simp only [DerefIter.subAssign, h]; cases b <;> rfl)

theorem agree_derefPlus (n : Nat) (d : Int) (it : DerefIter) : Agree (fun b => DerefIter.plus b n it d) := by
  rcases ptrAdd_cases n it.pos d with ⟨q, h⟩ | h
  · simp only [DerefIter.plus, h, assertPtr_ok]
    agr
    exact agree_derefAddAssign _ _ _
  · exact agree_all_ub (by intro b; simp only [DerefIter.plus, DerefIter.addAssign, h]; cases b <;> rfl)

theorem agree_derefMinus (n : Nat) (d : Int) (it : DerefIter) : Agree (fun b => DerefIter.minus b n it d) := by
  rcases ptrAdd_cases n it.pos (-d) with ⟨q, h⟩ | h
  · simp only [DerefIter.minus, h, assertPtr_ok]
    agr
    exact agree_derefSubAssign _ _ _
  · exact agree_all_ub (by intro b; simp only [DerefIter.minus, DerefIter.subAssign, h]; cases b <;> rfl)

theorem agree_derefDistance (x y : DerefIter) : Agree (fun b => DerefIter.distance b x y) := by
  unfold DerefIter.distance; agr

theorem agree_derefCmp (u : DerefIter → DerefIter → Ordering) (x y : DerefIter) : Agree (fun b => DerefIter.cmp b u x y) := by
  unfold DerefIter.cmp; agr

theorem agree_index {α : Type} (v : StaticVector α) (i : Nat) : Agree (fun _ => v.index i) := by
  refine agree_const ?_
  intro m h
  unfold StaticVector.index at h
  split at h <;> cases h

theorem agree_derefLoop {α : Type} (v : StaticVector α) (last : DerefIter) (fuel : Nat) (it : DerefIter) :
    Agree (fun b => DerefIter.loop b v last fuel it) := by
  induction fuel generalizing it with
  | zero => unfold DerefIter.loop; agr
  | succ k ih =>
    simp only [DerefIter.loop]
    agr
    · exact agree_index _ _
    · exact agree_derefIncr _ _
    · exact ih _

theorem agree_derefIncrs (n k : Nat) (it : DerefIter) : Agree (fun b => DerefIter.incrs b n k it) := by
  induction k generalizing it with
  | zero => unfold DerefIter.incrs; agr
  | succ k ih =>
    simp only [DerefIter.incrs]
    agr
    · exact agree_derefIncr _ _
    · exact ih _

theorem agree_derefDecrs (n k : Nat) (it : DerefIter) : Agree (fun b => DerefIter.decrs b n k it) := by
  induction k generalizing it with
  | zero => unfold DerefIter.decrs; agr
  | succ k ih =>
    simp only [DerefIter.decrs]
    agr
    · exact agree_derefDecr _ _
    · exact ih _

/-! ## Fragment strings -/

section
variable {C : Type}
open Wite.Str

theorem agree_fragAt (fs : FragStr C) (i : Nat) : Agree (fun _ => fragAt fs i) := by
  refine agree_const ?_
  intro m h; unfold fragAt at h; split at h <;> cases h

theorem agree_begin (fs : FragStr C) : Agree (fun _ => begin' fs) := by
  refine agree_const ?_
  intro m h; unfold begin' at h; split at h <;> cases h

theorem agree_end (fs : FragStr C) : Agree (fun _ => end' fs) := by
  refine agree_const ?_
  intro m h; unfold end' at h; split at h <;> cases h

theorem agree_negDiff (d : Int) : Agree (fun _ => negDiff d) := by
  refine agree_const ?_
  intro m h; unfold negDiff at h; split at h <;> cases h

theorem agree_strDeref (fs : FragStr C) (it : It) : Agree (fun b => Str.deref b fs it) := by
  unfold Str.deref
  agr
  · exact agree_fragAt _ _
  · split <;> agr

theorem agree_strIncr (fs : FragStr C) (it : It) : Agree (fun b => Str.incr b fs it) := by
  unfold Str.incr
  agr
  exact agree_fragAt _ _

theorem agree_strDecr (fs : FragStr C) (it : It) : Agree (fun b => Str.decr b fs it) := by
  unfold Str.decr
  agr
  exact agree_fragAt _ _

theorem agree_seekForward (i : Nat) (fs : FragStr C) (cur off : Nat) : Agree (fun b => seekForward b i fs cur off) := by
  induction fs generalizing i cur off with
  | nil => unfold seekForward; agr
  | cons s fs ih =>
    cases fs with
    | nil => simp only [seekForward]; agr
    | cons t rest => simp only [seekForward]; agr; exact ih _ _ _

theorem agree_seekBackward (fs : FragStr C) (i cur off : Nat) : Agree (fun b => seekBackward b fs i cur off) := by
  induction i generalizing cur off with
  | zero => simp only [seekBackward]; agr
  | succ i ih => simp only [seekBackward]; agr; exacts [agree_fragAt _ _, ih _ _]

theorem agree_seek (fs : FragStr C) (it : It) (d : Int) : Agree (fun b => seek b fs it d) := by
  unfold seek
  agr
  · exact agree_seekForward _ _ _ _
  · exact agree_negDiff _
  · exact agree_seekBackward _ _ _ _

theorem agree_strPlus (fs : FragStr C) (it : It) (d : Int) : Agree (fun b => Str.plus b fs it d) := agree_seek fs it d

theorem agree_strMinus (fs : FragStr C) (it : It) (d : Int) : Agree (fun b => Str.minus b fs it d) := by
  unfold Str.minus
  agr
  · exact agree_negDiff _
  · exact agree_seek _ _ _

/-- The operations of an iterator type agree. -/
structure AgreeI {σ : Type} (I : Build → Iter σ C) : Prop where
  deref : ∀ i, Agree (fun b => (I b).deref i)
  next : ∀ i, Agree (fun b => (I b).next i)
  plus : ∀ i d, Agree (fun b => (I b).plus i d)
  diff : ∀ b b', (I b).diff = (I b').diff
  eq : ∀ b b', (I b).eq = (I b').eq

theorem agreeI_fwd (fs : FragStr C) : AgreeI (fun b => fwd b fs) :=
  ⟨agree_strDeref fs, agree_strIncr fs, agree_strPlus fs, fun _ _ => rfl, fun _ _ => rfl⟩

theorem agreeI_rev (fs : FragStr C) : AgreeI (fun b => rev b fs) :=
  ⟨fun i => agree_bind (agree_strDecr fs i) (agree_strDeref fs), agree_strDecr fs, agree_strMinus fs, fun _ _ => rfl,
    fun _ _ => rfl⟩

theorem agreeI_view (s : List C) : AgreeI (fun _ => view s) := by
  refine ⟨fun i => agree_const ?_, fun i => agree_const ?_, fun i d => agree_const ?_, fun _ _ => rfl, fun _ _ => rfl⟩ <;>
    · intro m h
      simp only [view] at h
      split at h <;> cases h

theorem agreeI_rview (s : List C) : AgreeI (fun _ => rview s) := by
  refine ⟨fun i => agree_const ?_, fun i => agree_const ?_, fun i d => agree_const ?_, fun _ _ => rfl, fun _ _ => rfl⟩
  · intro m h
    simp only [rview] at h
    split at h
    · split at h <;> cases h
    · cases h
  · intro m h
    simp only [rview] at h
    split at h <;> cases h
  · intro m h
    simp only [rview] at h
    split at h <;> cases h

variable {σ τ : Type}

theorem agree_readLoop {I : Build → Iter σ C} (hI : AgreeI I) (fuel : Nat) (i last : σ) :
    Agree (fun b => readLoop (I b) fuel i last) := by
  induction fuel generalizing i with
  | zero => simp only [readLoop]; agr
  | succ k ih =>
    simp only [readLoop, hI.eq _ .debug]
    agr
    · exact hI.deref _
    · exact hI.next _
    · exact ih _

theorem agree_readRange {I : Build → Iter σ C} (hI : AgreeI I) (first last : σ) :
    Agree (fun b => readRange (I b) first last) := by
  simp only [readRange, hI.diff _ .debug]
  agr
  exact agree_readLoop hI _ _ _

theorem agree_copyN {I : Build → Iter σ C} (hI : AgreeI I) (n : Nat) (i : σ) :
    Agree (fun b => copyN (I b) n i) := by
  induction n generalizing i with
  | zero => simp only [copyN]; agr
  | succ k ih =>
    simp only [copyN]
    agr
    · exact hI.deref _
    · exact hI.next _
    · exact ih _

theorem agree_equalLoop [DecidableEq C] {I : Build → Iter σ C} {J : Build → Iter τ C} (hI : AgreeI I) (hJ : AgreeI J)
    (fuel : Nat) (i last : σ) (j : τ) : Agree (fun b => equalLoop (I b) (J b) fuel i last j) := by
  induction fuel generalizing i j with
  | zero => simp only [equalLoop]; agr
  | succ k ih =>
    simp only [equalLoop, hI.eq _ .debug]
    agr
    · exact hI.deref _
    · exact hJ.deref _
    · exact hI.next _
    · exact hJ.next _
    · exact ih _ _

theorem agree_stdEqual [DecidableEq C] {I : Build → Iter σ C} {J : Build → Iter τ C} (hI : AgreeI I) (hJ : AgreeI J)
    (a b : σ) (c d : τ) : Agree (fun bd => stdEqual (I bd) (J bd) a b c d) := by
  simp only [stdEqual, hI.diff _ .debug, hJ.diff _ .debug]
  agr
  exact agree_equalLoop hI hJ _ _ _ _

theorem agree_strIndex (fs : FragStr C) (pos : Nat) : Agree (fun b => Str.index b fs pos) := by
  unfold Str.index
  agr
  · exact agree_begin _
  · exact agree_strPlus _ _ _
  · exact agree_strDeref _ _

theorem agree_strAt (fs : FragStr C) (pos : Nat) : Agree (fun b => Str.at' b fs pos) := by
  unfold Str.at'
  agr
  exact agree_strIndex _ _

theorem agree_front (fs : FragStr C) : Agree (fun b => Str.front b fs) := by
  unfold Str.front
  agr
  split
  · agr
  · split <;> agr

theorem agree_back (fs : FragStr C) : Agree (fun b => Str.back b fs) := by
  unfold Str.back
  agr
  split
  · agr
  · split <;> agr

theorem agree_compareLoop [LinearOrder C] (fs : FragStr C) {J : Build → Iter σ C} (hJ : AgreeI J) (e : It) (last : σ)
    (fuel : Nat) (it : It) (j : σ) : Agree (fun b => compareLoop b fs (J b) e last fuel it j) := by
  induction fuel generalizing it j with
  | zero => simp only [compareLoop]; agr
  | succ k ih =>
    simp only [compareLoop, hJ.eq _ .debug]
    agr
    · exact agree_strDeref _ _
    · exact hJ.deref _
    · exact agree_strIncr _ _
    · exact hJ.next _
    · exact ih _ _

theorem agree_compareIter [LinearOrder C] (fs : FragStr C) {J : Build → Iter σ C} (hJ : AgreeI J) (first last : σ) :
    Agree (fun b => compareIter b fs (J b) first last) := by
  unfold compareIter
  agr
  · exact agree_begin _
  · exact agree_end _
  · exact agree_compareLoop fs hJ _ _ _ _ _

theorem agree_compareFs [LinearOrder C] (fs gs : FragStr C) : Agree (fun b => compareFs b fs gs) := by
  unfold compareFs
  agr
  · exact agree_begin _
  · exact agree_end _
  · exact agree_compareIter fs (agreeI_fwd gs) _ _

theorem agree_matchSubstring [DecidableEq C] {I : Build → Iter σ C} {J : Build → Iter τ C} (hI : AgreeI I) (hJ : AgreeI J)
    (a : σ) (n : Nat) (c d : τ) (k : Nat) : Agree (fun b => matchSubstring (I b) (J b) a n c d k) := by
  unfold matchSubstring
  agr
  · exact hI.plus _ _
  · exact agree_stdEqual hJ hI _ _ _ _

theorem agree_startsWithFs [DecidableEq C] (fs gs : FragStr C) : Agree (fun b => startsWithFs b fs gs) := by
  unfold startsWithFs
  agr
  · exact agree_begin _
  · exact agree_begin _
  · exact agree_end _
  · exact agree_matchSubstring (agreeI_fwd fs) (agreeI_fwd gs) _ _ _ _ _

theorem agree_endsWithFs [DecidableEq C] (fs gs : FragStr C) : Agree (fun b => endsWithFs b fs gs) := by
  unfold endsWithFs
  agr
  · exact agree_end _
  · exact agree_begin _
  · exact agree_end _
  · exact agree_matchSubstring (agreeI_rev fs) (agreeI_rev gs) _ _ _ _ _

theorem agree_startsWithView [DecidableEq C] (fs : FragStr C) (s : List C) : Agree (fun b => startsWithView b fs s) := by
  unfold startsWithView
  agr
  · exact agree_begin _
  · exact agree_matchSubstring (agreeI_fwd fs) (agreeI_view s) _ _ _ _ _

theorem agree_endsWithView [DecidableEq C] (fs : FragStr C) (s : List C) : Agree (fun b => endsWithView b fs s) := by
  unfold endsWithView
  agr
  · exact agree_end _
  · exact agree_matchSubstring (agreeI_rev fs) (agreeI_rview s) _ _ _ _ _

theorem agree_startsWithChar [DecidableEq C] (fs : FragStr C) (c : C) : Agree (fun b => startsWithChar b fs c) := by
  unfold startsWithChar
  agr
  exact agree_front _

theorem agree_endsWithChar [DecidableEq C] (fs : FragStr C) (c : C) : Agree (fun b => endsWithChar b fs c) := by
  unfold endsWithChar
  agr
  exact agree_back _

theorem agree_seekFragment (fs : FragStr C) (pos : Nat) : Agree (fun _ => seekFragment fs pos) := by
  have loop : ∀ (fs : FragStr C) (i c p : Nat), plain (seekFragmentLoop pos i c p fs) := by
    intro fs
    induction fs with
    | nil => intro i c p m h; unfold seekFragmentLoop at h; split at h <;> cases h
    | cons f fs ih =>
      intro i c p m h
      unfold seekFragmentLoop at h
      split at h
      · exact ih _ _ _ m h
      · cases h
  refine agree_const ?_
  intro m h
  unfold seekFragment at h
  split at h
  · cases h
  · exact loop _ _ _ _ m h

theorem agree_findLoop [DecidableEq C] (fs : FragStr C) (s : List C) (e : It) (fuel : Nat) (it ce : It) (out : Nat) :
    Agree (fun b => findLoop b fs s e fuel it ce out) := by
  induction fuel generalizing it ce out with
  | zero => simp only [findLoop]; agr
  | succ k ih =>
    simp only [findLoop]
    agr
    · exact agree_stdEqual (agreeI_view s) (agreeI_fwd fs) _ _ _ _
    · exact agree_strIncr _ _
    · exact agree_strIncr _ _
    · exact ih _ _ _

theorem agree_findView [DecidableEq C] (fs : FragStr C) (s : List C) (pos : Nat) : Agree (fun b => findView b fs s pos) := by
  unfold findView
  agr
  · exact agree_end _
  · exact agree_seekFragment _ _
  · exact agree_strPlus _ _ _
  · exact agree_findLoop _ _ _ _ _ _ _

theorem agree_containsView [DecidableEq C] (fs : FragStr C) (s : List C) : Agree (fun b => containsView b fs s) := by
  unfold containsView
  agr
  exact agree_findView _ _ _

theorem agree_containsLoop [DecidableEq C] (fs gs : FragStr C) (x y e : It) (n : Nat) (it : It) :
    Agree (fun b => containsLoop b fs gs x y e n it) := by
  induction n generalizing it with
  | zero => simp only [containsLoop]; agr
  | succ k ih =>
    simp only [containsLoop]
    agr
    · exact agree_strPlus _ _ _
    · exact agree_stdEqual (agreeI_fwd gs) (agreeI_fwd fs) _ _ _ _
    · exact agree_strIncr _ _
    · exact ih _

theorem agree_containsFs [DecidableEq C] (fs gs : FragStr C) : Agree (fun b => containsFs b fs gs) := by
  unfold containsFs
  agr
  · exact agree_begin _
  · exact agree_end _
  · exact agree_begin _
  · exact agree_strPlus _ _ _
  · exact agree_containsLoop _ _ _ _ _ _ _

theorem agree_substr (fs : FragStr C) (pos n : Nat) : Agree (fun b => substr b fs pos n) := by
  unfold substr
  agr
  · exact agree_begin _
  · exact agree_end _
  · exact agree_strPlus _ _ _
  · exact agree_strPlus _ _ _
  · exact agree_readRange (agreeI_fwd fs) _ _

theorem agree_copy (fs : FragStr C) (n pos : Nat) : Agree (fun b => copy b fs n pos) := by
  unfold copy
  agr
  · exact agree_begin _
  · exact agree_strPlus _ _ _
  · exact agree_copyN (agreeI_fwd fs) _ _

end


/-! ## Reverse iterators and iterators of collections that move -/

section
variable {α : Type}

theorem agree_revDeref (n : Nat) {read : Nat → Outcome α} (hr : ∀ i, plain (read i)) (r : RevIter) :
    Agree (fun b => RevIter.deref b n read r) := by
  unfold RevIter.deref
  agr
  · exact agree_derefDecr _ _
  · exact agree_const (hr _)

theorem agree_revIncr (n : Nat) (r : RevIter) : Agree (fun b => RevIter.incr b n r) := by
  unfold RevIter.incr; agr; exact agree_derefDecr _ _

theorem agree_revDecr (n : Nat) (r : RevIter) : Agree (fun b => RevIter.decr b n r) := by
  unfold RevIter.decr; agr; exact agree_derefIncr _ _

theorem agree_revPlus (n : Nat) (r : RevIter) (d : Int) : Agree (fun b => RevIter.plus b n r d) := by
  unfold RevIter.plus; agr; exact agree_derefMinus _ _ _

theorem agree_revMinus (n : Nat) (r : RevIter) (d : Int) : Agree (fun b => RevIter.minus b n r d) := by
  unfold RevIter.minus; agr; exact agree_derefPlus _ _ _

theorem agree_revAddAssign (n : Nat) (r : RevIter) (d : Int) : Agree (fun b => RevIter.addAssign b n d r) := by
  unfold RevIter.addAssign; agr; exact agree_derefSubAssign _ _ _

theorem agree_revSubAssign (n : Nat) (r : RevIter) (d : Int) : Agree (fun b => RevIter.subAssign b n d r) := by
  unfold RevIter.subAssign; agr; exact agree_derefAddAssign _ _ _

theorem agree_revSubscript (n : Nat) {read : Nat → Outcome α} (hr : ∀ i, plain (read i)) (r : RevIter) (d : Int) :
    Agree (fun b => RevIter.subscript b n read r d) := by
  unfold RevIter.subscript
  agr
  · exact agree_revPlus _ _ _
  · exact agree_revDeref _ hr _

theorem agree_revLoop (n : Nat) {read : Nat → Outcome α} (hr : ∀ i, plain (read i)) (last : RevIter) (fuel : Nat) (r : RevIter) :
    Agree (fun b => RevIter.loop b n read last fuel r) := by
  induction fuel generalizing r with
  | zero => simp only [RevIter.loop]; agr
  | succ k ih =>
    simp only [RevIter.loop]
    agr
    · exact agree_revDeref _ hr _
    · exact agree_revIncr _ _
    · exact ih _

theorem plain_index (v : StaticVector α) (i : Nat) : plain (v.index i) := by
  intro m h
  unfold StaticVector.index at h
  split at h <;> cases h

theorem plain_readItem {ι : Type} (s : ItemCollection ι α) (i : Nat) : plain (RevIter.readItem s i) := by
  intro m h
  unfold RevIter.readItem at h
  split at h
  · cases h
  · split at h <;> cases h

variable {ι : Type} {n : Nat}

theorem agree_collIncr (s : Arrays n ι α) (it : CollIter n) : Agree (fun b => CollIter.incr b s it) := by
  unfold CollIter.incr
  agr
  split
  · agr
  · agr

theorem agree_collDistance (x y : CollIter n) : Agree (fun b => CollIter.distance b x y) := by
  unfold CollIter.distance; agr

theorem agree_collCmp (u : CollIter n → CollIter n → Ordering) (x y : CollIter n) : Agree (fun b => CollIter.cmp b u x y) := by
  unfold CollIter.cmp; agr

theorem agree_collLoop (s : Arrays n ι α) (last : CollIter n) (fuel : Nat) (it : CollIter n) :
    Agree (fun b => CollIter.loop b s last fuel it) := by
  have hd : ∀ it, plain (CollIter.deref s it) := by
    intro it m h
    unfold CollIter.deref at h
    split at h
    · cases h
    · split at h
      · cases h
      · split at h <;> cases h
  induction fuel generalizing it with
  | zero => simp only [CollIter.loop]; agr
  | succ k ih =>
    simp only [CollIter.loop]
    agr
    · exact agree_const (hd _)
    · exact agree_collIncr _ _
    · exact ih _

end

/-! ## Fragment strings over memory that changes -/

section
variable {C : Type}

theorem agree_liveDeref (mem : FragLive.Mem C) (fs : FragLive.FragStr) (it : Str.It) :
    Agree (fun b => FragLive.deref mem b fs it) := by
  unfold FragLive.deref
  split
  · agr
  · agr
    split
    · agr
    · refine agree_const ?_
      intro m h
      unfold FragLive.load at h
      split at h
      · cases h
      · split at h <;> cases h

theorem agreeI_live (mem : FragLive.Mem C) (fs : FragLive.FragStr) : AgreeI (fun b => FragLive.fwd mem b fs) :=
  ⟨agree_liveDeref mem fs, agree_strIncr _, agree_strPlus _, fun _ _ => rfl, fun _ _ => rfl⟩

theorem agree_liveIndex (mem : FragLive.Mem C) (fs : FragLive.FragStr) (pos : Nat) :
    Agree (fun b => FragLive.index mem b fs pos) := by
  unfold FragLive.index
  agr
  · exact agree_begin _
  · exact agree_strPlus _ _ _
  · exact agree_liveDeref _ _ _

theorem agree_liveAt (mem : FragLive.Mem C) (fs : FragLive.FragStr) (pos : Nat) :
    Agree (fun b => FragLive.at' mem b fs pos) := by
  unfold FragLive.at'
  agr
  exact agree_liveIndex _ _ _

theorem agree_liveSubstr (mem : FragLive.Mem C) (fs : FragLive.FragStr) (pos n : Nat) :
    Agree (fun b => FragLive.substr mem b fs pos n) := by
  unfold FragLive.substr
  agr
  · exact agree_begin _
  · exact agree_end _
  · exact agree_strPlus _ _ _
  · exact agree_strPlus _ _ _
  · exact agree_readRange (agreeI_live mem fs) _ _

theorem agree_liveCopy (mem : FragLive.Mem C) (fs : FragLive.FragStr) (n pos : Nat) :
    Agree (fun b => FragLive.copy mem b fs n pos) := by
  unfold FragLive.copy
  agr
  · exact agree_begin _
  · exact agree_strPlus _ _ _
  · exact agree_copyN (agreeI_live mem fs) _ _

theorem agree_liveForEach (mem : FragLive.Mem C) (fs : FragLive.FragStr) :
    Agree (fun b => FragLive.forEach mem b fs) := by
  unfold FragLive.forEach
  agr
  · exact agree_begin _
  · exact agree_end _
  · exact agree_readLoop (agreeI_live mem fs) _ _ _

end

/-! ## Ranges of values -/

section
variable {α : Type} {lb hb : Boundary}

theorem agree_make [LE α] [DecidableLE α] (x y : α) :
    Agree (fun b => (ValueRange.make b x y : Outcome (ValueRange α lb hb))) := by
  unfold ValueRange.make; agr

theorem agree_sizeInt (t : IntTy) (r : ValueRange Int lb hb) : Agree (fun b => r.sizeInt t b) := by
  unfold ValueRange.sizeInt
  agr
  refine agree_const ?_
  intro m h
  unfold IntTy.sub IntTy.result at h
  split at h
  · split at h <;> cases h
  · cases h

theorem agree_midInt (t : IntTy) (r : ValueRange Int lb hb) : Agree (fun b => r.midInt t b) := by
  unfold ValueRange.midInt
  agr
  · exact agree_sizeInt _ _
  refine agree_const ?_
  intro m h
  unfold IntTy.sub IntTy.result at h
  split at h
  · split at h <;> cases h
  · cases h

theorem agree_sizeFlt {F : Fmt} (r : ValueRange (Flt F) lb hb) : Agree (fun b => r.sizeFlt b) := by
  unfold ValueRange.sizeFlt; agr

theorem agree_midFlt {F : Fmt} (r : ValueRange (Flt F) lb hb) : Agree (fun b => r.midFlt b) := by
  unfold ValueRange.midFlt; agr; exact agree_sizeFlt _

theorem agree_overlap [LT α] [DecidableLT α] [LE α] [DecidableLE α] (r s : ValueRange α lb hb) :
    Agree (fun b => ValueRange.overlap b r s) := by
  unfold ValueRange.overlap; agr; exact agree_make _ _

theorem agree_envelopeV [LT α] [DecidableLT α] [LE α] [DecidableLE α] (x y : α) (rest : List α) :
    Agree (fun b => ValueRange.envelopeV b x y rest) := by
  unfold ValueRange.envelopeV
  exact agree_noexcept (agree_make _ _)

theorem agree_envelopeL [LT α] [DecidableLT α] [LE α] [DecidableLE α] (xs : List α) :
    Agree (fun b => ValueRange.envelopeL b xs) := by
  unfold ValueRange.envelopeL
  agr
  · refine agree_const ?_
    intro m h
    unfold ValueRange.rangesMinmax at h
    split at h <;> cases h
  · exact agree_make _ _

theorem agree_envelopeR [LT α] [DecidableLT α] [LE α] [DecidableLE α] (r s : ValueRange α lb hb)
    (rest : List (ValueRange α lb hb)) : Agree (fun b => ValueRange.envelopeR b r s rest) := by
  unfold ValueRange.envelopeR
  exact agree_noexcept (agree_make _ _)

theorem agree_makeInt (t : IntTy) (x : Int) : Agree (fun b => (BoundedValue.makeInt b t x : Outcome (BoundedValue Int lb hb))) := by
  unfold BoundedValue.makeInt; agr; exact agree_make _ _

theorem agree_makeFlt {F : Fmt} (x : Flt F) : Agree (fun b => (BoundedValue.makeFlt b x : Outcome (BoundedValue (Flt F) lb hb))) := by
  unfold BoundedValue.makeFlt; agr; exact agree_make _ _

end

/-! ## Collections of items -/

section
variable {ι α : Type} [DecidableEq ι]
open ItemCollection

/-- Steps that need no thought. -/
local macro "agrs" : tactic => `(tactic| with_reducible repeat' (first
  | assumption
  | exact agreeS_get | exact agreeS_set _ | exact agreeS_pure _
  | refine agreeS_bind ?_ fun _ => ?_
  | refine agreeS_ite ?_ ?_))

omit [DecidableEq ι] in
theorem agreeS_assertSizes : AgreeS (fun b => (assertSizes b : St (ItemCollection ι α) Unit)) := by
  have h : ∀ b (s : ItemCollection ι α), (assertSizes b : St (ItemCollection ι α) Unit).run s =
      (debugAssert b (s.items.length = s.ordered.length) "item container size mismatch", s) := fun _ _ => rfl
  refine ⟨fun s _ => ?_, fun s _ hs => ?_⟩
  · rw [h, h]; exact (agree_assert _ _).1
  · rw [h] at hs
    rw [h, h, h]
    have ha := agree_assert (decide (s.items.length = s.ordered.length)) "item container size mismatch"
    rcases ha.2 with hr | hr
    · have h1 : debugAssert .aborting _ _ = aborts (debugAssert .debug _ _) := ha.1
      rw [h1, aborts_plain fun m hm => hs (Or.inr ⟨m, hm⟩), show debugAssert .release _ _ = debugAssert .debug _ _ from hr]
      exact ⟨rfl, rfl⟩
    · exact absurd hr hs

omit [DecidableEq ι] in
theorem agreeS_free (a : Nat) : AgreeS (fun _ => (free a : St (ItemCollection ι α) Unit)) := by
  refine agreeS_const ?_
  intro s m h
  have : ((free a : St (ItemCollection ι α) Unit) s).1 = .throw (.assertion m) := h
  unfold free at this
  split at this <;> cases this

omit [DecidableEq ι] in
theorem agreeS_deref (a : Nat) : AgreeS (fun _ => (deref a : St (ItemCollection ι α) α)) := by
  refine agreeS_const ?_
  intro s m h
  have : ((deref a : St (ItemCollection ι α) α) s).1 = .throw (.assertion m) := h
  unfold deref at this
  split at this <;> cases this

omit [DecidableEq ι] in
theorem agreeS_request (mem : Site → Nat → Bool) (site : Site) :
    AgreeS (fun _ => (request mem site : St (ItemCollection ι α) Bool)) := by
  refine agreeS_const ?_
  intro s m h
  have : ((request mem site : St (ItemCollection ι α) Bool) s).1 = .throw (.assertion m) := h
  unfold request at this
  cases this

omit [DecidableEq ι] in
theorem agreeS_newItem (mem : Site → Nat → Bool) (x : α) :
    AgreeS (fun _ => (newItem mem x : St (ItemCollection ι α) Nat)) := by
  unfold newItem
  agrs
  · exact agreeS_request _ _
  · exact agreeS_throw (by intro m h; cases h)

theorem agreeS_mapInsert (mem : Site → Nat → Bool) (id : ι) (a : Nat) :
    AgreeS (fun _ => (mapInsert mem id a : St (ItemCollection ι α) Bool)) := by
  unfold mapInsert
  agrs
  split
  · agrs
    exact agreeS_free _
  · agrs
    · exact agreeS_request _ _
    · exact agreeS_free _
    · exact agreeS_throw (by intro m h; cases h)

theorem agreeS_mapErase (id : ι) : AgreeS (fun _ => (mapErase id : St (ItemCollection ι α) Unit)) := by
  unfold mapErase
  agrs
  split
  · agrs
  · agrs
    exact agreeS_free _

omit [DecidableEq ι] in
theorem agreeS_pushBack (mem : Site → Nat → Bool) (a : Nat) :
    AgreeS (fun _ => (pushBack mem a : St (ItemCollection ι α) Unit)) := by
  unfold pushBack
  agrs
  · exact agreeS_request _ _
  · exact agreeS_throw (by intro m h; cases h)

omit [DecidableEq ι] in
theorem agreeS_each {β γ : Type} {f : Build → β → St (ItemCollection ι α) γ} (hf : ∀ x, AgreeS (fun b => f b x))
    (xs : List β) : AgreeS (fun b => each (f b) xs) := by
  induction xs with
  | nil => simp only [each]; agrs
  | cons x xs ih =>
    simp only [each]
    agrs
    exact hf x

theorem agreeS_tryUncheckedInsert (mem : Site → Nat → Bool) (idOf : α → ι) (a : Nat) :
    AgreeS (fun b => tryUncheckedInsert b mem idOf a) := by
  unfold tryUncheckedInsert
  agrs
  · exact agreeS_deref _
  · exact agreeS_mapInsert _ _ _
  · exact agreeS_pushBack _ _
  · exact agreeS_assertSizes
  · exact agreeS_assertSizes

theorem agreeS_uncheckedInsert (mem : Site → Nat → Bool) (idOf : α → ι) (a : Nat) :
    AgreeS (fun b => uncheckedInsert b mem idOf a) := by
  unfold uncheckedInsert
  agrs
  · exact agreeS_deref _
  · exact agreeS_mapInsert _ _ _
  · exact agreeS_pushBack _ _
  · exact agreeS_assertSizes

theorem agreeS_insert (mem : Site → Nat → Bool) (idOf : α → ι) (x : α) : AgreeS (fun b => ItemCollection.insert b mem idOf x) := by
  unfold ItemCollection.insert
  agrs
  · exact agreeS_throw (by intro m h; cases h)
  · exact agreeS_newItem _ _
  · exact agreeS_uncheckedInsert _ _ _

theorem agreeS_tryInsert (mem : Site → Nat → Bool) (idOf : α → ι) (x : α) : AgreeS (fun b => tryInsert b mem idOf x) := by
  unfold tryInsert
  agrs
  · exact agreeS_newItem _ _
  · exact agreeS_tryUncheckedInsert _ _ _

theorem agreeS_emplace (mem : Site → Nat → Bool) (idOf : α → ι) (x : α) : AgreeS (fun b => emplace b mem idOf x) := by
  unfold emplace
  agrs
  · exact agreeS_newItem _ _
  · exact agreeS_tryUncheckedInsert _ _ _
  · exact agreeS_throw (by intro m h; cases h)

theorem agreeS_findOrdered (idOf : α → ι) (id : ι) (as : List Nat) :
    AgreeS (fun _ => (findOrdered idOf id as : St (ItemCollection ι α) (Option Nat))) := by
  induction as with
  | nil => simp only [findOrdered]; agrs
  | cons a as ih =>
    simp only [findOrdered]
    agrs
    exact agreeS_deref _

theorem agreeS_erase (idOf : α → ι) (id : ι) : AgreeS (fun _ => (erase idOf id : St (ItemCollection ι α) Bool)) := by
  unfold erase
  agrs
  · exact agreeS_findOrdered _ _ _
  · split
    · agrs
    · agrs
      exact agreeS_mapErase _

omit [DecidableEq ι] in
theorem agreeS_exciseOrdered (a : Nat) : AgreeS (fun b => (exciseOrdered b a : St (ItemCollection ι α) Unit)) := by
  have key : ∀ s : ItemCollection ι α, (exciseOrdered .debug a).run s = (exciseOrdered .release a).run s ∧
      (exciseOrdered .debug a).run s = (exciseOrdered .aborting a).run s ∧ (∃ s', (exciseOrdered .debug a).run s = (.ok ⟨⟩, s')) ∨
      ((exciseOrdered .debug a).run s).1 = .ub ∨
      (((exciseOrdered .debug a).run s).1 =
          .throw (.assertion "Failed to find item in orderer items that was found in associative items") ∧
        ((exciseOrdered .aborting a).run s).1 = .terminate) := by
    intro s
    unfold exciseOrdered
    simp only [St.run_bind, St.run_get]
    cases hf : s.ordered.findIdx? (· = a) with
    | some i => exact Or.inl ⟨rfl, rfl, _, rfl⟩
    | none =>
      right
      simp only [St.run_bind]
      cases hh : s.heap a with
      | none =>
        left
        have : (free a : St (ItemCollection ι α) Unit).run s = (.ub, s) := by
          show free a s = _
          unfold free; rw [hh]
        rw [this]
      | some x =>
        right
        have : (free a : St (ItemCollection ι α) Unit).run s =
            (.ok (), { s with heap := fun b => if b = a then none else s.heap b }) := by
          show free a s = _
          unfold free; rw [hh]
        rw [this]
        exact ⟨rfl, rfl⟩
  refine ⟨fun s hub => ?_, fun s hub hs => ?_⟩
  · rcases key s with ⟨_, h2, s', h3⟩ | h | ⟨h1, h2⟩
    · rw [← h2, h3]; rfl
    · exact absurd h hub
    · rw [h1, h2]; rfl
  · rcases key s with ⟨h1, h2, _⟩ | h | ⟨h1, _⟩
    · exact ⟨h2.symm, h1.symm⟩
    · exact absurd h hub
    · exact absurd (Or.inr ⟨_, h1⟩) hs

theorem agreeS_excise (id : ι) : AgreeS (fun b => (excise b id : St (ItemCollection ι α) (Option Nat))) := by
  unfold excise
  agrs
  split
  · agrs
  · agrs
    exact agreeS_exciseOrdered _

omit [DecidableEq ι] in
theorem agreeS_clear : AgreeS (fun _ => (clear : St (ItemCollection ι α) Unit)) := by
  unfold clear
  agrs
  exact agreeS_each (f := fun _ (p : ι × Nat) => free p.2) (fun p => agreeS_free _) _

theorem agreeS_modify (id : ι) (f : α → α) : AgreeS (fun _ => (ItemCollection.modify id f : St (ItemCollection ι α) Unit)) := by
  refine agreeS_const ?_
  intro s m h
  have : ((ItemCollection.modify id f : St (ItemCollection ι α) Unit) s).1 = .throw (.assertion m) := h
  unfold ItemCollection.modify at this
  split at this
  · cases this
  · split at this <;> cases this

omit [DecidableEq ι] in
theorem agreeS_drop (a : Nat) : AgreeS (fun _ => (drop a : St (ItemCollection ι α) Unit)) := by
  unfold drop
  agrs
  exact agreeS_free _

theorem agreeS_step (mem : Site → Nat → Bool) (idOf : α → ι) (op : Op ι α) : AgreeS (fun b => step b mem idOf op) := by
  cases op <;> simp only [step, insertRange, insertAll, tryInsertAll, eraseAll] <;> agrs
  · exact agreeS_insert _ _ _
  · exact agreeS_each (agreeS_tryInsert mem idOf) _
  · exact agreeS_each (agreeS_insert mem idOf) _
  · exact agreeS_tryInsert _ _ _
  · exact agreeS_each (agreeS_tryInsert mem idOf) _
  · exact agreeS_erase _ _
  · exact agreeS_each (f := fun _ => erase idOf) (agreeS_erase idOf) _
  · exact agreeS_emplace _ _ _
  · exact agreeS_excise _
  · exact agreeS_clear
  · exact agreeS_modify _ _
  · exact agreeS_drop _

omit [DecidableEq ι] in
theorem agreeS_on {n : Nat} {β : Type} {x : Build → St (ItemCollection ι α) β} (h : AgreeS x) (i : Fin n) :
    AgreeS (fun b => Colls.on i (x b)) := by
  refine ⟨fun w hub => h.1 (w.view i) hub, fun w hub hs => ?_⟩
  obtain ⟨h1, h2⟩ := h.2 (w.view i) hub hs
  constructor
  · show (((x .aborting).run (w.view i)).1, w.back i ((x .aborting).run (w.view i)).2) = _
    rw [h1]; rfl
  · show (((x .release).run (w.view i)).1, w.back i ((x .release).run (w.view i)).2) = _
    rw [h2]; rfl

theorem agreeS_collsStep {n : Nat} (mem : Site → Nat → Bool) (idOf : α → ι) (op : Colls.Op n ι α) :
    AgreeS (fun b => Colls.step b mem idOf op) := by
  cases op with
  | call i op => exact agreeS_on (agreeS_step mem idOf op) i
  | move i j =>
    have hs : ∀ (i : Fin n) (m : Members ι), AgreeS (fun _ => (Colls.setMembers i m : St (Colls n ι α) Unit)) :=
      fun i m => agreeS_const (by intro s m h; cases h)
    simp only [Colls.step, Colls.move]
    agrs
    · exact agreeS_on (x := fun _ => clear) agreeS_clear i
    · exact hs _ _
    · exact hs _ _

/-! ### Items that throw -/

omit [DecidableEq ι] in
theorem agreeS_ask {o : Oracle} (ho : ∀ ev n m, o ev n ≠ some (.assertion m)) (ev : Ev) :
    AgreeS (fun _ => (ask o ev : St (ItemCollection ι α) Unit)) := by
  refine agreeS_const ?_
  intro s m h
  have h' : ((ask o ev : St (ItemCollection ι α) Unit) s).1 = .throw (.assertion m) := h
  unfold ask at h'
  simp only at h'
  split at h'
  · cases h'
  · rename_i e he
    cases h'
    exact ho _ _ _ he

omit [DecidableEq ι] in
theorem agreeS_asks {o : Oracle} (ho : ∀ ev n m, o ev n ≠ some (.assertion m)) (evs : List Ev) :
    AgreeS (fun _ => (asks o evs : St (ItemCollection ι α) Unit)) := by
  induction evs with
  | nil => simp only [asks]; agrs
  | cons ev evs ih => simp only [asks]; agrs; exact agreeS_ask ho _

omit [DecidableEq ι] in
theorem agreeS_owning {β : Type} {m : St (ItemCollection ι α) β} (h : ∀ s, plain (m.run s).1) (a : Nat) :
    AgreeS (fun _ => owning a m) := by
  refine agreeS_const ?_
  intro s msg hm
  have hm' : (owning a m s).1 = .throw (.assertion msg) := hm
  unfold owning at hm'
  have hp := h s
  rcases hr : m.run s with ⟨oc, s'⟩
  have hr' : m s = (oc, s') := hr
  rw [hr] at hp
  rw [hr'] at hm'
  cases oc with
  | throw e =>
    simp only at hm'
    split at hm'
    · cases hm'; exact hp msg rfl
    · cases hm'
  | _ => cases hm'

omit [DecidableEq ι] in
theorem plain_asks {o : Oracle} (ho : ∀ ev n m, o ev n ≠ some (.assertion m)) (evs : List Ev) (s : ItemCollection ι α) :
    plain ((asks o evs : St (ItemCollection ι α) Unit).run s).1 := by
  induction evs generalizing s with
  | nil => intro m h; cases h
  | cons ev evs ih =>
    intro m h
    simp only [asks, St.run_bind] at h
    have hr : (ask o ev : St (ItemCollection ι α) Unit).run s =
      (match o ev s.allocs with
        | none => .ok ()
        | some e => .throw e, { s with allocs := s.allocs + 1 }) := rfl
    rw [hr] at h
    cases he : o ev s.allocs with
    | none => rw [he] at h; exact ih _ m h
    | some e =>
      rw [he] at h
      cases h
      exact ho _ _ _ he

omit [DecidableEq ι] in
theorem agreeS_newItemT {o : Oracle} (ho : ∀ ev n m, o ev n ≠ some (.assertion m)) (how : Ev) (x : α) :
    AgreeS (fun _ => (newItemT o how x : St (ItemCollection ι α) Nat)) := by
  unfold newItemT
  agrs
  exact agreeS_asks ho _

theorem agreeS_mapInsertT {o : Oracle} (ho : ∀ ev n m, o ev n ≠ some (.assertion m)) (id : ι) (a : Nat) :
    AgreeS (fun _ => (mapInsertT o id a : St (ItemCollection ι α) Bool)) := by
  unfold mapInsertT
  agrs
  · exact agreeS_owning (plain_asks ho _) _
  · split
    · agrs
      exact agreeS_free _
    · agrs
      exact agreeS_owning (plain_asks ho _) _

omit [DecidableEq ι] in
theorem agreeS_pushBackT {o : Oracle} (ho : ∀ ev n m, o ev n ≠ some (.assertion m)) (a : Nat) :
    AgreeS (fun _ => (pushBackT o a : St (ItemCollection ι α) Unit)) := by
  unfold pushBackT
  agrs
  exact agreeS_ask ho _

theorem agreeS_tryUncheckedInsertT {o : Oracle} (ho : ∀ ev n m, o ev n ≠ some (.assertion m)) (idOf : α → ι) (a : Nat) :
    AgreeS (fun b => tryUncheckedInsertT b o idOf a) := by
  unfold tryUncheckedInsertT
  agrs
  · exact agreeS_owning (plain_asks ho _) _
  · exact agreeS_deref _
  · exact agreeS_mapInsertT ho _ _
  · exact agreeS_pushBackT ho _
  · exact agreeS_assertSizes
  · exact agreeS_assertSizes

theorem agreeS_uncheckedInsertT {o : Oracle} (ho : ∀ ev n m, o ev n ≠ some (.assertion m)) (idOf : α → ι) (a : Nat) :
    AgreeS (fun b => uncheckedInsertT b o idOf a) := by
  unfold uncheckedInsertT
  agrs
  · exact agreeS_owning (plain_asks ho _) _
  · exact agreeS_deref _
  · exact agreeS_mapInsertT ho _ _
  · exact agreeS_pushBackT ho _
  · exact agreeS_assertSizes

theorem agreeS_containsT (o : Oracle) (id : ι) : AgreeS (fun _ => (containsT o id : St (ItemCollection ι α) Bool)) := by
  refine agreeS_const ?_
  intro s m h
  have h' : ((containsT o id : St (ItemCollection ι α) Bool) s).1 = .throw (.assertion m) := h
  unfold containsT at h'
  split at h' <;> cases h'

theorem agreeS_insertT {o : Oracle} (ho : ∀ ev n m, o ev n ≠ some (.assertion m)) (idOf : α → ι) (x : α) :
    AgreeS (fun b => insertT b o idOf x) := by
  unfold insertT
  agrs
  · exact agreeS_asks ho _
  · exact agreeS_containsT _ _
  · exact agreeS_throw (by intro m h; cases h)
  · exact agreeS_newItemT ho _ _
  · exact agreeS_uncheckedInsertT ho _ _

theorem agreeS_tryInsertT {o : Oracle} (ho : ∀ ev n m, o ev n ≠ some (.assertion m)) (idOf : α → ι) (x : α) :
    AgreeS (fun b => tryInsertT b o idOf x) := by
  unfold tryInsertT
  agrs
  · exact agreeS_ask ho _
  · exact agreeS_newItemT ho _ _
  · exact agreeS_tryUncheckedInsertT ho _ _

theorem agreeS_emplaceT {o : Oracle} (ho : ∀ ev n m, o ev n ≠ some (.assertion m)) (idOf : α → ι) (x : α) :
    AgreeS (fun b => emplaceT b o idOf x) := by
  unfold emplaceT
  agrs
  · exact agreeS_newItemT ho _ _
  · exact agreeS_tryUncheckedInsertT ho _ _
  · exact agreeS_throw (by intro m h; cases h)

theorem agreeS_findOrderedT {o : Oracle} (ho : ∀ ev n m, o ev n ≠ some (.assertion m)) (idOf : α → ι) (id : ι) (as : List Nat) :
    AgreeS (fun _ => (findOrderedT o idOf id as : St (ItemCollection ι α) (Option Nat))) := by
  induction as with
  | nil => simp only [findOrderedT]; agrs
  | cons a as ih =>
    simp only [findOrderedT]
    agrs
    · exact agreeS_asks ho _
    · exact agreeS_deref _

theorem agreeS_eraseT {o : Oracle} (ho : ∀ ev n m, o ev n ≠ some (.assertion m)) (idOf : α → ι) (id : ι) :
    AgreeS (fun _ => (eraseT o idOf id : St (ItemCollection ι α) Bool)) := by
  unfold eraseT
  agrs
  · exact agreeS_findOrderedT ho _ _ _
  · split
    · agrs
    · agrs
      · exact agreeS_ask ho _
      · exact agreeS_mapErase _

omit [DecidableEq ι] in
theorem agreeS_reserveFlags {o : Oracle} (ho : ∀ ev n m, o ev n ≠ some (.assertion m)) (f : Form) :
    AgreeS (fun _ => (reserveFlags o f : St (ItemCollection ι α) Unit)) := by
  cases f <;> simp only [reserveFlags] <;> agrs
  exact agreeS_ask ho _

omit [DecidableEq ι] in
theorem agreeS_pushFlag {o : Oracle} (ho : ∀ ev n m, o ev n ≠ some (.assertion m)) (f : Form) :
    AgreeS (fun _ => (pushFlag o f : St (ItemCollection ι α) Unit)) := by
  cases f <;> simp only [pushFlag] <;> agrs
  exact agreeS_ask ho _

omit [DecidableEq ι] in
theorem agreeS_passOn {o : Oracle} (ho : ∀ ev n m, o ev n ≠ some (.assertion m)) (f : Form) :
    AgreeS (fun _ => (passOn o f : St (ItemCollection ι α) Unit)) := by
  cases f <;> simp only [passOn] <;> agrs
  exact agreeS_ask ho _

theorem agreeS_tryInsertOneT {o : Oracle} (ho : ∀ ev n m, o ev n ≠ some (.assertion m)) (f : Form) (idOf : α → ι) (x : α) :
    AgreeS (fun b => tryInsertOneT b o f idOf x) := by
  unfold tryInsertOneT
  agrs
  · exact agreeS_passOn ho _
  · exact agreeS_tryInsertT ho _ _
  · exact agreeS_pushFlag ho _

theorem agreeS_eraseOneT {o : Oracle} (ho : ∀ ev n m, o ev n ≠ some (.assertion m)) (f : Form) (idOf : α → ι) (id : ι) :
    AgreeS (fun _ => (eraseOneT o f idOf id : St (ItemCollection ι α) Bool)) := by
  unfold eraseOneT
  agrs
  · exact agreeS_eraseT ho _ _
  · exact agreeS_pushFlag ho _

theorem agreeS_stepT {o : Oracle} (ho : ∀ ev n m, o ev n ≠ some (.assertion m)) (idOf : α → ι) (p : Form × Op ι α) :
    AgreeS (fun b => stepT b o idOf p) := by
  obtain ⟨f, op⟩ := p
  cases op <;> simp only [stepT, insertRangeT, insertAllT, tryInsertAllT, eraseAllT, exciseT] <;> agrs
  · exact agreeS_insertT ho _ _
  · exact agreeS_each (agreeS_tryInsertT ho idOf) _
  · exact agreeS_each (f := fun b x => (do ask o .pass; insertT b o idOf x)) (fun x => agreeS_bind (agreeS_ask ho _)
      fun _ => agreeS_insertT ho idOf x) _
  · exact agreeS_tryInsertT ho _ _
  · exact agreeS_reserveFlags ho _
  · exact agreeS_each (agreeS_tryInsertOneT ho f idOf) _
  · exact agreeS_eraseT ho _ _
  · exact agreeS_reserveFlags ho _
  · exact agreeS_each (f := fun _ => eraseOneT o f idOf) (agreeS_eraseOneT ho f idOf) _
  · exact agreeS_emplaceT ho _ _
  · exact agreeS_ask ho _
  · exact agreeS_excise _
  · exact agreeS_clear
  · exact agreeS_ask ho _
  · exact agreeS_modify _ _
  · exact agreeS_drop _

end

end Wite.Builds
