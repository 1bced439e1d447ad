import Verif.Model.HandleMgr
import Verif.Spec.HandleMgr
import Verif.Lemmas.HandleMgr

/-!
# C01, C45: slot allocation
-/

namespace Bm

open Spec (HOp HOut HStep HTrace)

/-- One client operation on the modelled `HandleMgr`; `none` = assertion failure / UB. -/
def HandleMgr.exec (m : HandleMgr) : HOp → Option (HandleMgr × HOut)
  | .alloc => m.getHandle.map fun (h, m') => (m', .slot h)
  | .release i => (m.releaseHandle i).map fun (b, m') => (m', .bool b)
  | .clear => some (m.clear, .unit)
  | .test i => (m.validHandle i).map fun b => (m, .bool b)
  | .enumerate => m.iterate.map fun l => (m, .slots l)
  | .count => some (m, .num m.size)

/-- Run a list of operations, collecting results. -/
def HandleMgr.run (m : HandleMgr) : List HOp → Option (List HOut)
  | [] => some []
  | op :: ops => do
    let (m', o) ← m.exec op
    let os ← HandleMgr.run m' ops
    return o :: os

theorem HandleMgr.Rep.exec {m : HandleMgr} {S} (h : m.Rep S) (op : HOp) :
    ∃ m' S' o, m.exec op = some (m', o) ∧ HStep S op S' o ∧ m'.Rep S' := by
  cases op with
  | alloc =>
    obtain ⟨m', e, r⟩ := h.getHandle
    exact ⟨m', _, _, by simp [HandleMgr.exec, e],
      HStep.alloc S _ h.free h.least, r⟩
  | release i =>
    obtain ⟨m', e, r⟩ := h.releaseHandle i
    exact ⟨m', _, _, by simp [HandleMgr.exec, e], HStep.release S i, r⟩
  | clear => exact ⟨_, _, _, rfl, HStep.clear S, HandleMgr.Rep.empty⟩
  | test i =>
    exact ⟨m, _, _, by simp [HandleMgr.exec, h.validHandle i], HStep.test S i, h⟩
  | enumerate =>
    obtain ⟨l, e, p, q⟩ := h.iterate
    exact ⟨m, _, _, by simp [HandleMgr.exec, e], HStep.enumerate S l p q, h⟩
  | count =>
    refine ⟨m, S, .num S.card, ?_, HStep.count S, h⟩
    simp [HandleMgr.exec, HandleMgr.size, h.bits.card]

theorem HandleMgr.Rep.run {m : HandleMgr} {S} (h : m.Rep S) (ops : List HOp) :
    ∃ outs, m.run ops = some outs ∧ HTrace S ops outs := by
  induction ops generalizing m S with
  | nil => exact ⟨[], rfl, HTrace.nil S⟩
  | cons op ops ih =>
    obtain ⟨m', S', o, e, st, r⟩ := h.exec op
    obtain ⟨os, e2, t⟩ := ih r
    exact ⟨o :: os, by simp [HandleMgr.run, e, e2], HTrace.cons st t⟩

/-- **C01.** For every history of operations on a fresh slot allocator, no operation fails an
assertion or touches memory out of range, and the results are exactly those of a finite set of
slots: an allocation returns the least slot not in use, release reports whether the slot was in
use, enumeration lists exactly the slots in use in increasing order, and the count is exact. -/
theorem C01_slot_allocation (ops : List HOp) :
    ∃ outs, HandleMgr.run {} ops = some outs ∧ HTrace ∅ ops outs :=
  HandleMgr.Rep.empty.run ops

/-- Non-trivial instance: allocate three, free the middle one, allocate again, enumerate. -/
example : HandleMgr.run {} [.alloc, .alloc, .alloc, .release 1, .release 1, .enumerate, .alloc,
      .alloc, .test 3, .count] =
    some [.slot 0, .slot 1, .slot 2, .bool true, .bool false, .slots [0, 2], .slot 1, .slot 3,
      .bool true, .num 4] := by decide +kernel

/-- Restoring a saved list of slots: `set_handle` in the order of the saved file, on a fresh
manager (`/repo/src/bm_sim/match_units.cpp:1136-1140`,
`/repo/src/bm_sim/action_profile.cpp:561-573`); `none` also if a call reports an error
(the C++ code asserts that it does not). -/
def HandleMgr.restore (m : HandleMgr) : List Nat → Option HandleMgr
  | [] => some m
  | h :: hs => do
    let (ok, m') ← m.setHandle h
    if ok then HandleMgr.restore m' hs else none

theorem HandleMgr.Rep.restore_pos {m : HandleMgr} {S} (h : m.Rep S) (l : List Nat)
    (hz : m.firstUnset = 0) (hs : l.Pairwise (· < ·)) (hpos : ∀ x ∈ l, 0 < x)
    (hfresh : ∀ x ∈ l, x ∉ S) :
    ∃ m', m.restore l = some m' ∧ m'.Rep (S ∪ l.toFinset) := by
  induction l generalizing m S with
  | nil => exact ⟨m, rfl, by simpa using h⟩
  | cons x xs ih =>
    have hx := hpos x (by simp)
    obtain ⟨m', e, r⟩ := h.setHandle x (by omega)
    have hfr := hfresh x (by simp)
    have hz' : m'.firstUnset = 0 := by
      have h0 : 0 ∉ insert x S := by
        simp only [Finset.mem_insert, not_or]
        refine ⟨by omega, ?_⟩
        have := h.free; rwa [hz] at this
      by_contra hne
      exact h0 (r.least 0 (by omega))
    rw [List.pairwise_cons] at hs
    obtain ⟨m'', e2, r2⟩ := ih r hz' hs.2 (fun y hy => hpos y (by simp [hy])) (by
      intro y hy
      simp only [Finset.mem_insert, not_or]
      exact ⟨by have := hs.1 y hy; omega, hfresh y (by simp [hy])⟩)
    refine ⟨m'', by simp [HandleMgr.restore, e, hfr, e2], ?_⟩
    have : S ∪ (x :: xs).toFinset = insert x S ∪ xs.toFinset := by
      ext y; simp
    rw [this]; exact r2

/-- **C45 (partial).** Full statement: after restoring any saved set of slots into a fresh
manager, a newly allocated slot is not one of the restored ones.  This is only true when the
saved list (written in increasing order) does not contain slot 0; see
`C45_restored_slot_reissued`.  Missing: lists containing slot 0. -/
theorem C45_restore_partial (l : List Nat) (hs : l.Pairwise (· < ·)) (h0 : 0 ∉ l) :
    ∃ m, HandleMgr.restore {} l = some m ∧
      ∃ n m', m.getHandle = some (n, m') ∧ n ∉ l ∧ (∀ j < n, j ∈ l) := by
  obtain ⟨m, e, r⟩ := HandleMgr.Rep.empty.restore_pos l rfl hs
    (fun x hx => Nat.pos_of_ne_zero (by rintro rfl; exact h0 hx)) (by simp)
  obtain ⟨m', e2, _⟩ := r.getHandle
  refine ⟨m, e, _, m', e2, ?_, ?_⟩
  · simpa using r.free
  · intro j hj; simpa using r.least j hj

example : (do let m ← HandleMgr.restore {} [1, 2, 70]; m.getHandle).map Prod.fst = some 0 := by
  decide +kernel

/-- State of the manager once slot 0 was restored: the cursor stays at 0 although 0 is in use. -/
structure HandleMgr.Stuck (m : HandleMgr) (S : Finset Nat) : Prop where
  bits : m.handles.Rep S
  zero : 0 ∈ S
  cur : m.firstUnset = 0

theorem HandleMgr.Stuck.restore {m : HandleMgr} {S} (h : m.Stuck S) (l : List Nat)
    (hs : l.Pairwise (· < ·)) (hpos : ∀ x ∈ l, 0 < x) (hfresh : ∀ x ∈ l, x ∉ S) :
    ∃ m' S', m.restore l = some m' ∧ m'.Stuck S' := by
  induction l generalizing m S with
  | nil => exact ⟨m, S, rfl, h⟩
  | cons x xs ih =>
    have hx := hpos x (by simp)
    have hfr := hfresh x (by simp)
    have key : ∀ h0 : Bitset, h0.Rep S → x < h0.numBits → ∃ b', h0.set x = some (true, b') ∧
        b'.Rep (insert x S) := by
      intro h0 hr hl
      obtain ⟨b', e, _, r⟩ := hr.set hl
      exact ⟨b', by simpa [hfr] using e, r⟩
    have hstep : ∃ m', m.setHandle x = some (true, m') ∧ m'.Stuck (insert x S) := by
      unfold HandleMgr.setHandle
      have hne : ¬ m.firstUnset = x := by rw [h.cur]; omega
      by_cases hge : x ≥ m.handles.numBits
      · obtain ⟨b', e, r⟩ := key _ (h.bits.resize (x + 1) (by omega)) (by simp [Bitset.resize])
        exact ⟨{ m with handles := b' }, by simp [hge, e, hne],
          r, Finset.mem_insert_of_mem h.zero, h.cur⟩
      · obtain ⟨b', e, r⟩ := key _ h.bits (by omega)
        exact ⟨{ m with handles := b' }, by simp [hge, e, hne],
          r, Finset.mem_insert_of_mem h.zero, h.cur⟩
    obtain ⟨m', e, st⟩ := hstep
    rw [List.pairwise_cons] at hs
    obtain ⟨m'', S'', e2, st2⟩ := ih st hs.2 (fun y hy => hpos y (by simp [hy])) (by
      intro y hy
      simp only [Finset.mem_insert, not_or]
      exact ⟨by have := hs.1 y hy; omega, hfresh y (by simp [hy])⟩)
    exact ⟨m'', S'', by simp [HandleMgr.restore, e, e2], st2⟩

/-- **C45 fails whenever slot 0 was saved**: for every saved list that contains slot 0 (the
first slot ever allocated), restoring succeeds but the next allocation hands out slot 0 again.
Cause: `set_handle` uses the size before the resize (`handle_mgr.h:166,173`). -/
theorem C45_restored_slot_reissued (l : List Nat) (hs : (0 :: l).Pairwise (· < ·)) :
    ∃ m, HandleMgr.restore {} (0 :: l) = some m ∧ ∃ m', m.getHandle = some (0, m') := by
  rw [List.pairwise_cons] at hs
  have hb : (({} : Bitset).resize 1).Rep ∅ := Bitset.Rep.empty.resize 1 (by simp)
  obtain ⟨b', e, hn, r⟩ := hb.set (idx := 0) (by simp [Bitset.resize])
  obtain ⟨r0, hr1, hr2, hr3, hr4, hr5⟩ := r.findUnsetNext 0 (by simp [hn, Bitset.resize])
  have hfu : b'.findUnsetNext 0 = some none := by
    unfold Bitset.findUnsetNext
    simp [hn, Bitset.resize]
  have e0 : HandleMgr.setHandle {} 0 = some (true, ⟨b', 0⟩) := by
    simp only [HandleMgr.setHandle, ge_iff_le, Nat.zero_add]
    simp only [show (({} : HandleMgr).handles.numBits ≤ 0) by simp, if_true]
    rw [show ({} : HandleMgr).handles.resize 1 = ({} : Bitset).resize 1 from rfl, e]
    simp [hfu]
  have st : HandleMgr.Stuck ⟨b', 0⟩ {0} := ⟨by simpa using r, by simp, rfl⟩
  obtain ⟨m, S', e1, st1⟩ := st.restore l hs.2 (fun x hx => hs.1 x hx) (by
    intro x hx
    have := hs.1 x hx
    simp; omega)
  refine ⟨m, by simp [HandleMgr.restore, e0, e1], ?_⟩
  have hlt : 0 < m.handles.numBits := st1.bits.lt 0 st1.zero
  obtain ⟨b'', e3, hn3, r3⟩ := st1.bits.set hlt
  obtain ⟨q, hq, _⟩ := r3.findUnsetNext 0 (by omega)
  unfold HandleMgr.getHandle
  simp only [st1.cur, hlt, if_true, e3, Option.bind_eq_bind, Option.bind_some, hq]
  exact ⟨_, rfl⟩

example : ([0, 1, 2] : List Nat).Pairwise (· < ·) := by decide

end Bm
