import Verif.Lemmas.DpGrpcTables

/-!
# Lemmas for C106: the port monitor, numbers, progress
-/

namespace Bm.DpGrpc
open Bm.DpGrpc.Spec

/-! ## The port monitor -/

/-- Ports are not added or removed through `DevMgr`. -/
def NoApi (_ : St) : Label → Prop
  | .apiAdd _ | .apiRemove _ => False
  | _ => True

/-- The monitor agrees with the service. -/
structure MonInv (s : St) : Prop where
  keys : Ports.Keys s.mon.ports
  agree : ∀ p, s.mon.ports.lookup p = s.oper.find? p

theorem mon_same {s t : St} (h : MonInv s) (h1 : t.mon = s.mon) (h2 : t.oper = s.oper) : MonInv t :=
  ⟨by rw [h1]; exact h.keys, by rw [h1, h2]; exact h.agree⟩

theorem mon_addPort {s : St} (h : MonInv s) (p : Nat) : MonInv (s.addPort p) ∧ ∃ b, (s.addPort p).oper.find? p = some b := by
  unfold St.addPort
  cases hp : s.oper.find? p with
  | some b => exact ⟨h, b, hp⟩
  | none =>
    obtain ⟨k1, l1⟩ := Ports.notifyNow_ports h.keys p .added
    obtain ⟨k2, l2⟩ := Ports.notifyNow_ports k1 p .up
    refine ⟨⟨k2, ?_⟩, true, by simp [UMap.find_assign]⟩
    intro q
    show ((s.mon.notifyNow p .added).notifyNow p .up).ports.lookup q = (s.oper.assign p true).find? q
    rw [l2, l1, l1, UMap.find_assign]
    by_cases hq : q = p
    · subst hq; simp [h.agree, hp, Ports.next]
    · simp [hq, h.agree]

theorem mon_step {c : Cfg} {s s' : St} {l : Label} (h : MonInv s) (hl : NoApi s l) (hs : s.step c l = some s') : MonInv s' := by
  cases l with
  | start =>
    simp only [St.step] at hs
    split at hs <;> cases hs
    exact mon_same h rfl rfl
  | opens =>
    simp only [St.step] at hs
    split at hs
    · split at hs
      · cases hs; exact mon_same h rfl rfl
      · split at hs <;> cases hs <;> exact mon_same h rfl rfl
    · cases hs
  | read r =>
    simp only [St.step] at hs
    split at hs
    · split at hs
      · cases hs; exact mon_same h rfl rfl
      · cases hs; exact mon_same (mon_addPort h r.port).1 rfl rfl
    · cases hs
  | take =>
    simp only [St.step] at hs
    split at hs <;> cases hs
    exact mon_same h rfl rfl
  | create =>
    simp only [St.step] at hs
    split at hs
    · split at hs <;> cases hs
      exact mon_same h rfl rfl
    · cases hs
  | label =>
    simp only [St.step] at hs
    split at hs
    · cases hs
      refine mon_same h ?_ ?_ <;> split <;> rfl
    · cases hs
  | eof =>
    simp only [St.step] at hs
    split at hs <;> cases hs
    exact mon_same h rfl rfl
  | drainLock =>
    simp only [St.step] at hs
    split at hs
    · split at hs <;> cases hs
      exact mon_same h rfl rfl
    · cases hs
  | drained =>
    simp only [St.step] at hs
    split at hs
    · split at hs <;> cases hs
      exact mon_same h rfl rfl
    · cases hs
  | close =>
    simp only [St.step] at hs
    split at hs <;> cases hs
    exact mon_same h rfl rfl
  | piTake =>
    simp only [St.step, Option.some.injEq] at hs
    subst hs; exact mon_same h rfl rfl
  | piCreate pid =>
    simp only [St.step] at hs
    split at hs <;> cases hs
    exact mon_same h rfl rfl
  | copy pid =>
    simp only [St.step] at hs
    split at hs <;> cases hs
    exact mon_same h rfl rfl
  | drop pid =>
    simp only [St.step] at hs
    split at hs <;> cases hs
    exact mon_same h rfl rfl
  | emit pid port data =>
    simp only [St.step] at hs
    split at hs <;> cases hs
    exact mon_same h rfl rfl
  | transmit =>
    simp only [St.step] at hs
    split at hs
    · cases hs
    · split at hs
      · cases hs; exact mon_same h rfl rfl
      · split at hs
        · cases hs
          unfold St.transmitFn
          split <;> exact mon_same h rfl rfl
        · cases hs
  | setStatus dev q op =>
    simp only [St.step] at hs
    split at hs
    · cases hs
      unfold St.setStatus
      split
      · exact mon_same h rfl rfl
      · split
        · exact mon_same h rfl rfl
        · rename_i b
          obtain ⟨i, b0, h0⟩ := mon_addPort h q
          obtain ⟨k1, l1⟩ := Ports.notifyNow_ports i.keys q (if b then .up else .down)
          refine ⟨k1, ?_⟩
          intro p
          show ((s.addPort q).mon.notifyNow q (if b then .up else .down)).ports.lookup p = ((s.addPort q).oper.assign q b).find? p
          rw [l1, UMap.find_assign]
          by_cases hp : p = q
          · subst hp
            rw [if_pos rfl, if_pos rfl, i.agree, h0]
            cases b <;> rfl
          · rw [if_neg hp, if_neg hp, i.agree]
    · cases hs
  | clear q =>
    simp only [St.step] at hs
    split at hs <;> cases hs
    exact mon_same h rfl rfl
  | swapBegin =>
    simp only [St.step] at hs
    split at hs <;> cases hs
    exact mon_same h rfl rfl
  | swapEnd =>
    simp only [St.step] at hs
    split at hs <;> cases hs
    exact mon_same h rfl rfl
  | apiAdd q => exact hl.elim
  | apiRemove q => exact hl.elim

theorem mon_reach {c : Cfg} {s : St} (h : Reach c NoApi s) : MonInv s := by
  induction h with
  | init => exact ⟨by simp [Ports.Keys, Ports.Mon.new], fun p => rfl⟩
  | step _ hp hs ih => exact mon_step ih hp hs

/-! ## Numbers -/

/-- The controller's packets do not get a number while a packet of the stream gets its number and the number is noted. -/
def Calm (s : St) (l : Label) : Prop :=
  l = .piTake → (∀ k r pid, s.pc ≠ .creating k r pid) ∧ ∀ k r pid, s.pc ≠ .labelling k r pid

/-- What holds if the controller's packets stay out. -/
structure IdInv (s : St) : Prop where
  cre : ∀ k r pid, s.pc = .creating k r pid → s.nextId = pid + 1
  lab : ∀ k r pid, s.pc = .labelling k r pid → s.nextId = pid + 1 ∧ s.trans.find? pid = none
  have_ : ∀ k r pid, Ev.accepted k r pid ∈ s.log → (∀ k' r', s.pc ≠ .labelling k' r' pid) → (s.trans.find? pid).getD 0 = r.id
  havent : ∀ pid, (∀ k r, Ev.accepted k r pid ∉ s.log) → s.trans.find? pid = none
  num : Always Numbered s.log

/-- Nothing that matters changes. -/
theorem id_same {s t : St} (h : IdInv s) (h1 : t.trans = s.trans) (h2 : t.nextId = s.nextId)
    (hc : ∀ k r pid, t.pc = .creating k r pid → s.pc = t.pc) (hl : ∀ k r pid, t.pc = .labelling k r pid → s.pc = t.pc)
    (hl' : ∀ k r pid, s.pc = .labelling k r pid → s.pc = t.pc)
    (h3 : t.log = s.log ∨ ∃ e, (∀ k r pid, e ≠ Ev.accepted k r pid) ∧ Numbered s.log e ∧ t.log = s.log ++ [e]) : IdInv t := by
  have hm : (∀ k r pid, Ev.accepted k r pid ∈ t.log ↔ Ev.accepted k r pid ∈ s.log) ∧ Always Numbered t.log := by
    rcases h3 with h3 | ⟨e, h4, h5, h3⟩
    · rw [h3]; exact ⟨fun _ _ _ => Iff.rfl, h.num⟩
    · rw [h3]
      refine ⟨?_, always_snoc h.num h5⟩
      intro k r pid
      simp only [List.mem_append, List.mem_singleton, or_iff_left_iff_imp]
      intro h6; exact absurd h6.symm (h4 _ _ _)
  obtain ⟨hm, hn⟩ := hm
  constructor
  · intro k r pid h4; rw [h2]; exact h.cre k r pid ((hc _ _ _ h4).trans h4)
  · intro k r pid h4; rw [h1, h2]; exact h.lab k r pid ((hl _ _ _ h4).trans h4)
  · intro k r pid h4 h5
    rw [h1]
    rw [hm] at h4
    refine h.have_ k r pid h4 ?_
    intro k' r' h6
    exact h5 k' r' ((hl' _ _ _ h6).symm.trans h6)
  · simp only [hm, h1]; exact h.havent
  · exact hn

theorem id_step {c : Cfg} {s s' : St} {l : Label} (hi : Inv c s) (h : IdInv s) (hcalm : Calm s l)
    (hs : s.step c l = some s') : IdInv s' := by
  cases l with
  | start =>
    simp only [St.step] at hs
    split at hs <;> cases hs
    exact id_same h rfl rfl (fun _ _ _ _ => rfl) (fun _ _ _ _ => rfl) (fun _ _ _ _ => rfl) (.inl rfl)
  | opens =>
    simp only [St.step] at hs
    split at hs
    · rename_i hf
      split at hs
      · cases hs
        exact id_same h rfl rfl (fun _ _ _ _ => rfl) (fun _ _ _ _ => rfl) (fun _ _ _ _ => rfl)
          (.inr ⟨.notReady, by simp, trivial, rfl⟩)
      · split at hs
        · cases hs
          exact id_same h rfl rfl (fun _ _ _ _ => rfl) (fun _ _ _ _ => rfl) (fun _ _ _ _ => rfl)
            (.inr ⟨.exhausted, by simp, trivial, rfl⟩)
        · cases hs
          refine id_same h rfl rfl (fun _ _ _ h1 => by cases h1) (fun _ _ _ h1 => by cases h1) ?_
            (.inr ⟨.opened s.streams, by simp, trivial, rfl⟩)
          intro k r pid h1; rw [h1] at hf; cases hf
    · cases hs
  | read r =>
    simp only [St.step] at hs
    split at hs
    · rename_i k hk
      split at hs
      · cases hs
        exact id_same h rfl rfl (fun _ _ _ _ => rfl) (fun _ _ _ _ => rfl) (fun _ _ _ _ => rfl)
          (.inr ⟨.skipped k r, by simp, trivial, rfl⟩)
      · cases hs
        obtain ⟨h1, h2, h3, -⟩ := addPort_core s r.port
        simp only [St.core, Prod.mk.injEq] at h1
        refine id_same h h3 h1.2.2.2.2.2.2.1 (fun _ _ _ h1 => by cases h1) (fun _ _ _ h1 => by cases h1) ?_ (.inl h2)
        intro k r pid h1; rw [h1] at hk; cases hk
    · cases hs
  | take =>
    simp only [St.step] at hs
    split at hs
    · rename_i k r hk
      cases hs
      constructor
      · intro k' r' pid h1; cases h1; rfl
      · intro k' r' pid h1; cases h1
      · intro k' r' pid h1 _
        exact h.have_ k' r' pid h1 (by intro k r h1; rw [h1] at hk; cases hk)
      · exact h.havent
      · exact h.num
    · cases hs
  | create =>
    simp only [St.step] at hs
    split at hs
    · rename_i k r pid hk
      split at hs
      · cases hs
        obtain ⟨c1, c2, c3⟩ := hi.cre k r pid hk
        constructor
        · intro k' r' pid h1; cases h1
        · intro k' r' pid h1
          cases h1
          exact ⟨h.cre k r _ hk, h.havent _ fun k' r' h2 => c2 (.inl ⟨k', r', h2⟩)⟩
        · intro k' r' p h1 h2
          simp only [List.mem_append, List.mem_singleton] at h1
          rcases h1 with h1 | h1
          · exact h.have_ k' r' p h1 (by intro k r h1; rw [h1] at hk; cases hk)
          · cases h1; exact absurd rfl (h2 k r)
        · intro p h1
          exact h.havent p fun k' r' h2 => h1 k' r' (List.mem_append_left _ h2)
        · exact always_snoc h.num trivial
      · cases hs
    · cases hs
  | label =>
    simp only [St.step] at hs
    split at hs
    · rename_i k r pid hk
      obtain ⟨l1, l2⟩ := h.lab k r pid hk
      have hacc := hi.lab k r pid hk
      cases hs
      have key : ∀ t : St, t.log = s.log → t.pc = .reading k →
          (∀ p, t.trans.find? p = if p = pid ∧ r.id ≠ 0 then some r.id else s.trans.find? p) → IdInv t := by
        intro t t1 t2 t3
        constructor
        · intro k' r' p h1; rw [t2] at h1; cases h1
        · intro k' r' p h1; rw [t2] at h1; cases h1
        · intro k' r' p h1 _
          rw [t1] at h1
          rw [t3]
          by_cases hp : p = pid
          · subst hp
            obtain ⟨rfl, rfl⟩ := hi.uniq _ _ _ _ _ h1 hacc
            by_cases h0 : r'.id = 0
            · rw [if_neg (fun h => h.2 h0), l2, h0]; rfl
            · rw [if_pos ⟨rfl, h0⟩]; rfl
          · rw [if_neg (fun h => hp h.1)]
            refine h.have_ k' r' p h1 ?_
            intro k2 r2 h2
            rw [hk] at h2
            injection h2 with _ _ h3
            exact hp h3.symm
        · intro p h1
          rw [t1] at h1
          rw [t3, if_neg, h.havent p h1]
          rintro ⟨rfl, _⟩
          exact h1 k r hacc
        · rw [t1]; exact h.num
      split
      · rename_i h0
        refine key _ rfl rfl ?_
        intro p
        show (s.trans.assign (s.nextId - 1) r.id).find? p = _
        have : s.nextId - 1 = pid := by omega
        rw [UMap.find_assign, this]
        by_cases hp : p = pid
        · rw [if_pos hp, if_pos ⟨hp, h0⟩]
        · rw [if_neg hp, if_neg (fun h => hp h.1)]
      · rename_i h0
        refine key _ rfl rfl ?_
        intro p
        show s.trans.find? p = _
        rw [if_neg (fun h => h0 h.2)]
    · cases hs
  | eof =>
    simp only [St.step] at hs
    split at hs
    · rename_i k hk
      cases hs
      refine id_same h rfl rfl (fun _ _ _ h1 => by cases h1) (fun _ _ _ h1 => by cases h1) ?_ (.inl rfl)
      intro k r pid h1; rw [h1] at hk; cases hk
    · cases hs
  | drainLock =>
    simp only [St.step] at hs
    split at hs
    · rename_i k hk
      split at hs <;> cases hs
      refine id_same h rfl rfl (fun _ _ _ h1 => by cases h1) (fun _ _ _ h1 => by cases h1) ?_ (.inl rfl)
      intro k r pid h1; rw [h1] at hk; cases hk
    · cases hs
  | drained =>
    simp only [St.step] at hs
    split at hs
    · rename_i k hk
      split at hs <;> cases hs
      refine id_same h rfl rfl (fun _ _ _ h1 => by cases h1) (fun _ _ _ h1 => by cases h1) ?_ (.inl rfl)
      intro k r pid h1; rw [h1] at hk; cases hk
    · cases hs
  | close =>
    simp only [St.step] at hs
    split at hs
    · rename_i k hk
      cases hs
      refine id_same h rfl rfl (fun _ _ _ h1 => by cases h1) (fun _ _ _ h1 => by cases h1) ?_
        (.inr ⟨.closed k, by simp, trivial, rfl⟩)
      intro k r pid h1; rw [h1] at hk; cases hk
    · cases hs
  | piTake =>
    obtain ⟨c1, c2⟩ := hcalm rfl
    simp only [St.step, Option.some.injEq] at hs
    subst hs
    constructor
    · intro k r pid h1; exact absurd h1 (c1 _ _ _)
    · intro k r pid h1; exact absurd h1 (c2 _ _ _)
    · exact h.have_
    · exact h.havent
    · exact h.num
  | piCreate pid =>
    simp only [St.step] at hs
    split at hs <;> cases hs
    exact id_same h rfl rfl (fun _ _ _ _ => rfl) (fun _ _ _ _ => rfl) (fun _ _ _ _ => rfl)
      (.inr ⟨.injected pid, by simp, trivial, rfl⟩)
  | copy pid =>
    simp only [St.step] at hs
    split at hs <;> cases hs
    exact id_same h rfl rfl (fun _ _ _ _ => rfl) (fun _ _ _ _ => rfl) (fun _ _ _ _ => rfl) (.inl rfl)
  | drop pid =>
    simp only [St.step] at hs
    split at hs <;> cases hs
    exact id_same h rfl rfl (fun _ _ _ _ => rfl) (fun _ _ _ _ => rfl) (fun _ _ _ _ => rfl) (.inl rfl)
  | emit pid port data =>
    simp only [St.step] at hs
    split at hs <;> cases hs
    exact id_same h rfl rfl (fun _ _ _ _ => rfl) (fun _ _ _ _ => rfl) (fun _ _ _ _ => rfl) (.inl rfl)
  | transmit =>
    simp only [St.step] at hs
    split at hs
    · cases hs
    · rename_i pid port data q hq
      have hm : (pid, port, data) ∈ s.outq := by rw [hq]; exact List.mem_cons_self ..
      have hcame : Came s.log pid := hi.outq _ hm
      split at hs
      · cases hs
        exact id_same h rfl rfl (fun _ _ _ _ => rfl) (fun _ _ _ _ => rfl) (fun _ _ _ _ => rfl)
          (.inr ⟨.packetIn pid data, by simp, trivial, rfl⟩)
      · split at hs
        · rename_i hf
          have hlab : ∀ k r pid, s.pc ≠ .labelling k r pid := by
            intro k r pid h1; rw [h1] at hf; cases hf
          cases hs
          have hcore := transmitFn_core { s with outq := q } port pid data
          simp only [St.core, Prod.mk.injEq] at hcore
          have hpc := hcore.2.1
          refine id_same h ?_ hcore.2.2.2.2.2.2.1 (fun _ _ _ _ => hpc.symm) (fun _ _ _ _ => hpc.symm) (fun _ _ _ _ => hpc.symm)
            (.inr ?_)
          · unfold St.transmitFn; split <;> rfl
          · rw [transmitFn_log]
            refine ⟨_, ?_, ?_, rfl⟩
            · intro k r pid; dsimp only; split <;> simp
            · dsimp only
              split
              · rename_i k hk
                rcases hcame with ⟨k', r, h1⟩ | h1
                · have := hi.own k' r pid h1 (.inr ⟨_, hm, rfl⟩)
                  rw [hk] at this; cases this
                  exact .inl ⟨r, h1, h.have_ k r pid h1 (fun _ _ => hlab _ _ _)⟩
                · refine .inr ⟨h1, ?_⟩
                  rw [h.havent pid fun k r h2 => hi.disj k r pid h2 h1]; rfl
              · trivial
        · cases hs
  | setStatus dev q op =>
    simp only [St.step] at hs
    split at hs
    · cases hs
      obtain ⟨h1, e, h2, h3, -⟩ := setStatus_core c s dev q op
      simp only [St.core, Prod.mk.injEq] at h1
      have hpc := h1.2.1
      have htr : (s.setStatus c dev q op).trans = s.trans := by
        unfold St.setStatus
        split
        · rfl
        · split
          · rfl
          · exact (addPort_core s q).2.2.1
      have hlog : ∃ e, (∀ k r pid, e ≠ Ev.accepted k r pid) ∧ Numbered s.log e ∧ (s.setStatus c dev q op).log = s.log ++ [e] := by
        unfold St.setStatus
        split
        · exact ⟨.invalid, by simp, trivial, rfl⟩
        · split
          · exact ⟨.invalid, by simp, trivial, rfl⟩
          · rename_i b
            refine ⟨.status q b, by simp, trivial, ?_⟩
            show (s.addPort q).log ++ _ = _
            rw [(addPort_core s q).2.1]
      exact id_same h htr h1.2.2.2.2.2.2.1 (fun _ _ _ _ => hpc.symm) (fun _ _ _ _ => hpc.symm) (fun _ _ _ _ => hpc.symm) (.inr hlog)
    · cases hs
  | clear q =>
    simp only [St.step] at hs
    split at hs <;> cases hs
    exact id_same h rfl rfl (fun _ _ _ _ => rfl) (fun _ _ _ _ => rfl) (fun _ _ _ _ => rfl)
      (.inr ⟨.cleared q, by simp, trivial, rfl⟩)
  | swapBegin =>
    simp only [St.step] at hs
    split at hs <;> cases hs
    exact id_same h rfl rfl (fun _ _ _ _ => rfl) (fun _ _ _ _ => rfl) (fun _ _ _ _ => rfl) (.inl rfl)
  | swapEnd =>
    simp only [St.step] at hs
    split at hs <;> cases hs
    exact id_same h rfl rfl (fun _ _ _ _ => rfl) (fun _ _ _ _ => rfl) (fun _ _ _ _ => rfl)
      (.inr ⟨.exchanged, by simp, trivial, rfl⟩)
  | apiAdd q =>
    simp only [St.step, Option.some.injEq] at hs
    subst hs
    exact id_same h rfl rfl (fun _ _ _ _ => rfl) (fun _ _ _ _ => rfl) (fun _ _ _ _ => rfl) (.inl rfl)
  | apiRemove q =>
    simp only [St.step, Option.some.injEq] at hs
    subst hs
    exact id_same h rfl rfl (fun _ _ _ _ => rfl) (fun _ _ _ _ => rfl) (fun _ _ _ _ => rfl) (.inl rfl)

theorem id_reach {c : Cfg} {s : St} (h : Reach c Calm s) : IdInv s := by
  induction h with
  | init =>
    constructor
    · intro k r pid h; cases h
    · intro k r pid h; cases h
    · intro k r pid h; cases h
    · intro _ _; rfl
    · exact always_nil _
  | step hr hp hs ih => exact id_step (inv_reach hr) ih hp hs

/-! ## Progress -/

/-- Nothing is left to do. -/
def St.Quiet (s : St) : Prop :=
  s.live = [] ∧ s.outq = [] ∧ s.pending = [] ∧ s.excl = .none ∧ (s.pc = .none ∨ ∃ k, s.pc = .reading k)

/-- If the thread of the stream waits for the exchange of programs while it holds `mutex`, no packet waits for `mutex`. -/
def St.Good (c : Cfg) (s : St) : Prop :=
  s.excl = .swap → ((∃ k r, s.pc = .handling k r) ∨ ∃ k r pid, s.pc = .creating k r pid) → ∀ x ∈ s.outq, c.cpu > 0 ∧ x.2.1 = c.cpu

/-- How much is left to do for the thread of the stream. -/
def PC.todo : PC → Nat
  | .none | .reading _ => 0
  | .handling .. => 5
  | .creating .. => 4
  | .labelling .. => 2
  | .draining _ => 3
  | .drainHeld _ => 2
  | .closing _ => 1

/-- How much is left to do. -/
def St.todo (s : St) : Nat :=
  s.pc.todo + s.live.length + s.outq.length + 2 * s.pending.length + (if s.excl = .swap then 1 else 0)

theorem todo_lt {s t : St} (h1 : t.live = s.live) (h2 : t.outq = s.outq) (h3 : t.pending = s.pending) (h4 : t.excl = s.excl)
    (h5 : t.pc.todo < s.pc.todo) : t.todo < s.todo := by
  unfold St.todo; rw [h1, h2, h3, h4]; omega

theorem transmit_some {c : Cfg} {s : St} (hf : s.pc.free = true ∨ ∀ x ∈ s.outq, c.cpu > 0 ∧ x.2.1 = c.cpu) (ho : s.outq ≠ []) :
    ∃ s', s.step c .transmit = some s' ∧ s'.outq = s.outq.tail ∧ s'.live = s.live ∧ s'.pending = s.pending ∧ s'.pc = s.pc ∧
      s'.excl = s.excl := by
  cases hq : s.outq with
  | nil => exact absurd hq ho
  | cons x q =>
    obtain ⟨pid, port, data⟩ := x
    simp only [St.step, hq, List.tail_cons]
    split
    · exact ⟨_, rfl, rfl, rfl, rfl, rfl, rfl⟩
    · rename_i hcpu
      have hf' : s.pc.free = true := by
        rcases hf with hf | hf
        · exact hf
        · exact absurd (hf (pid, port, data) (by rw [hq]; exact List.mem_cons_self ..)) hcpu
      rw [if_pos hf']
      refine ⟨_, rfl, ?_⟩
      have hcore := transmitFn_core { s with outq := q } port pid data
      simp only [St.core, Prod.mk.injEq] at hcore
      exact ⟨hcore.2.2.2.2.2.1, hcore.2.2.2.2.1, hcore.2.2.2.2.2.2.2, hcore.2.1, hcore.2.2.1⟩

theorem progress_one {c : Cfg} {s : St} (h : Inv c s) (hg : s.Good c) (hq : ¬ s.Quiet) :
    ∃ l s', s.step c l = some s' ∧ s'.Good c ∧ s'.todo < s.todo := by
  have nd : (∀ k, s.pc ≠ .drainHeld k) → s.excl ≠ .drain := by
    intro h1 h2; obtain ⟨k, h3⟩ := h.exc.1 h2; exact h1 k h3
  have freeCase : (s.pc.free = true ∨ (s.excl = .swap ∧ ∀ x ∈ s.outq, c.cpu > 0 ∧ x.2.1 = c.cpu)) → (∀ k, s.pc ≠ .closing k) →
      ∃ l s', s.step c l = some s' ∧ s'.Good c ∧ s'.todo < s.todo := by
    intro hf0 hcl
    by_cases hlive : s.live = []
    · by_cases hout : s.outq = []
      · by_cases hsw : s.excl = .swap
        · refine ⟨.swapEnd, { s with excl := .none, log := s.log ++ [.exchanged] }, ?_, ?_, ?_⟩
          · simp only [St.step, hsw, hlive, hout, and_self, if_true]
          · intro h1; cases h1
          · simp [St.todo, hsw]
        · have hf : s.pc.free = true := hf0.resolve_right fun h => hsw h.1
          cases hpc : s.pc with
          | none =>
            have hx : s.excl = .none := by
              have := nd (by rw [hpc]; simp)
              cases he : s.excl <;> simp_all
            cases hpd : s.pending with
            | nil => exact absurd ⟨hlive, hout, hpd, hx, .inl hpc⟩ hq
            | cons pid q =>
              refine ⟨.piCreate pid, { s with pending := s.pending.erase pid, live := s.live ++ [pid], log := s.log ++ [.injected pid] },
                ?_, ?_, ?_⟩
              · simp only [St.step, hpd, hx, List.mem_cons_self, and_self, if_true]
              · intro h1; rw [hx] at h1; cases h1
              · simp [St.todo, hpd]; omega
          | reading k =>
            have hx : s.excl = .none := by
              have := nd (by rw [hpc]; simp)
              cases he : s.excl <;> simp_all
            cases hpd : s.pending with
            | nil => exact absurd ⟨hlive, hout, hpd, hx, .inr ⟨k, hpc⟩⟩ hq
            | cons pid q =>
              refine ⟨.piCreate pid, { s with pending := s.pending.erase pid, live := s.live ++ [pid], log := s.log ++ [.injected pid] },
                ?_, ?_, ?_⟩
              · simp only [St.step, hpd, hx, List.mem_cons_self, and_self, if_true]
              · intro h1; rw [hx] at h1; cases h1
              · simp [St.todo, hpd]; omega
          | handling k r => rw [hpc] at hf; cases hf
          | creating k r pid => rw [hpc] at hf; cases hf
          | labelling k r pid => rw [hpc] at hf; cases hf
          | draining k =>
            have hx : s.excl = .none := by
              have := nd (by rw [hpc]; simp)
              cases he : s.excl <;> simp_all
            refine ⟨.drainLock, { s with pc := .drainHeld k, excl := .drain }, ?_, ?_, ?_⟩
            · simp only [St.step, hpc, hx, if_true]
            · intro h1; cases h1
            · simp [St.todo, hpc, hx, PC.todo]
          | drainHeld k =>
            refine ⟨.drained, { s with pc := .closing k, excl := .none }, ?_, ?_, ?_⟩
            · simp only [St.step, hpc, hlive, hout, and_self, if_true]
            · intro h1; cases h1
            · simp [St.todo, hpc, hsw, PC.todo]
          | closing k => exact absurd hpc (hcl k)
      · obtain ⟨s', e1, e2, e3, e4, e5, e6⟩ := transmit_some (c := c) (hf0.imp_right fun h => h.2) hout
        refine ⟨.transmit, s', e1, ?_, ?_⟩
        · unfold St.Good; rw [e2, e5, e6]
          intro g1 g2 x hx
          exact hg g1 g2 x (List.mem_of_mem_tail hx)
        · unfold St.todo
          rw [e2, e3, e4, e5, e6]
          have : s.outq.tail.length < s.outq.length := by
            cases hh : s.outq with
            | nil => exact absurd hh hout
            | cons a b => simp
          omega
    · cases hl : s.live with
      | nil => exact absurd hl hlive
      | cons pid q =>
        refine ⟨.drop pid, { s with live := s.live.erase pid }, ?_, hg, ?_⟩
        · simp only [St.step, hl, List.mem_cons_self, if_true]
        · simp only [St.todo, hl, List.erase_cons_head, List.length_cons]; omega
  cases hpc : s.pc with
  | none => exact freeCase (.inl (by rw [hpc]; rfl)) (by rw [hpc]; simp)
  | reading k => exact freeCase (.inl (by rw [hpc]; rfl)) (by rw [hpc]; simp)
  | handling k r =>
    by_cases hsw : s.excl = .swap
    · exact freeCase (.inr ⟨hsw, hg hsw (.inl ⟨k, r, hpc⟩)⟩) (by rw [hpc]; simp)
    refine ⟨.take, { s with pc := .creating k r s.nextId, nextId := s.nextId + 1 }, ?_, ?_, ?_⟩
    · simp only [St.step, hpc]
    · intro h1; exact absurd h1 hsw
    · simp only [St.todo, hpc, PC.todo]; omega
  | creating k r pid =>
    by_cases hsw : s.excl = .swap
    · exact freeCase (.inr ⟨hsw, hg hsw (.inr ⟨k, r, pid, hpc⟩)⟩) (by rw [hpc]; simp)
    have hx : s.excl = .none := by
      have := nd (by rw [hpc]; simp)
      cases he : s.excl with
      | none => rfl
      | drain => exact absurd he this
      | swap => exact absurd he hsw
    refine ⟨.create, { s with pc := .labelling k r pid, live := s.live ++ [pid], log := s.log ++ [.accepted k r pid] }, ?_, ?_, ?_⟩
    · simp only [St.step, hpc, hx, if_true]
    · intro h1; rw [hx] at h1; cases h1
    · simp only [St.todo, hpc, PC.todo, List.length_append, List.length_cons, List.length_nil]; omega
  | labelling k r pid =>
    refine ⟨.label, _, by simp only [St.step, hpc]; rfl, ?_, ?_⟩
    · rintro - (⟨k', r', h1⟩ | ⟨k', r', p, h1⟩) <;> cases h1
    · have hx : PC.todo (.reading k) < s.pc.todo := by rw [hpc]; simp [PC.todo]
      split <;> exact todo_lt rfl rfl rfl rfl hx
  | draining k => exact freeCase (.inl (by rw [hpc]; rfl)) (by rw [hpc]; simp)
  | drainHeld k => exact freeCase (.inl (by rw [hpc]; rfl)) (by rw [hpc]; simp)
  | closing k =>
    refine ⟨.close, { s with pc := .none, active := none, log := s.log ++ [.closed k] }, ?_, ?_, ?_⟩
    · simp only [St.step, hpc]
    · rintro - (⟨k', r', h1⟩ | ⟨k', r', p, h1⟩) <;> cases h1
    · simp only [St.todo, hpc, PC.todo]; omega

theorem progress {c : Cfg} {s : St} (h : Inv c s) (hg : s.Good c) : ∃ ls s', s.run c ls = some s' ∧ s'.Quiet := by
  generalize hn : s.todo = n
  induction n using Nat.strongRecOn generalizing s with
  | ind n ih =>
    by_cases hq : s.Quiet
    · exact ⟨[], s, rfl, hq⟩
    · obtain ⟨l, s1, h1, h2, h3⟩ := progress_one h hg hq
      obtain ⟨ls, s', h4, h5⟩ := ih s1.todo (hn ▸ h3) (inv_step h h1) h2 rfl
      exact ⟨l :: ls, s', by simp only [St.run, h1, Option.bind_some]; exact h4, h5⟩

/-! ## Deadlock -/

/-- Each of the three threads waits for the next: the thread of the stream, with `mutex`, for the exchange of programs; the
exchange for the packets; the transmit thread for `mutex`. -/
def St.Stuck (c : Cfg) (s : St) : Prop :=
  s.excl = .swap ∧ ((∃ k r, s.pc = .handling k r) ∨ ∃ k r pid, s.pc = .creating k r pid) ∧
  ∃ x q, s.outq = x :: q ∧ ¬ (c.cpu > 0 ∧ x.2.1 = c.cpu)

theorem stuck_step {c : Cfg} {s s' : St} {l : Label} (h : s.Stuck c) (hs : s.step c l = some s') :
    s'.Stuck c ∧ s'.log = s.log := by
  obtain ⟨he, hp, ⟨x1, x2, x3⟩, q, hq, hx⟩ := h
  have hf : s.pc.free = false := by
    rcases hp with ⟨k, r, hp⟩ | ⟨k, r, pid, hp⟩ <;> rw [hp] <;> rfl
  have keep : ∀ {t : St}, t.excl = s.excl → t.pc = s.pc → (∃ q', t.outq = s.outq ++ q') → t.log = s.log →
      t.Stuck c ∧ t.log = s.log := by
    intro t h1 h2 h3 h4
    obtain ⟨q', h3⟩ := h3
    refine ⟨⟨by rw [h1, he], by rw [h2]; exact hp, (x1, x2, x3), q ++ q', by rw [h3, hq]; rfl, hx⟩, h4⟩
  have nil : ∃ q', s.outq = s.outq ++ q' := ⟨[], (List.append_nil _).symm⟩
  cases l with
  | take =>
    simp only [St.step] at hs
    split at hs
    · rename_i k r hk
      cases hs
      exact ⟨⟨he, .inr ⟨k, r, s.nextId, rfl⟩, _, q, hq, hx⟩, rfl⟩
    · cases hs
  | piTake =>
    simp only [St.step, Option.some.injEq] at hs
    subst hs; exact keep rfl rfl nil rfl
  | copy pid =>
    simp only [St.step] at hs
    split at hs <;> cases hs
    exact keep rfl rfl nil rfl
  | drop pid =>
    simp only [St.step] at hs
    split at hs <;> cases hs
    exact keep rfl rfl nil rfl
  | emit pid port data =>
    simp only [St.step] at hs
    split at hs <;> cases hs
    exact keep rfl rfl ⟨_, rfl⟩ rfl
  | apiAdd p =>
    simp only [St.step, Option.some.injEq] at hs
    subst hs; exact keep rfl rfl nil rfl
  | apiRemove p =>
    simp only [St.step, Option.some.injEq] at hs
    subst hs; exact keep rfl rfl nil rfl
  | transmit =>
    simp only [St.step, hq, hf, if_neg hx] at hs
    cases hs
  | start => simp [St.step, hf] at hs
  | opens => simp [St.step, hf] at hs
  | setStatus _ _ _ => simp [St.step, hf] at hs
  | clear _ => simp [St.step, hf] at hs
  | swapBegin => simp [St.step, he] at hs
  | swapEnd => simp [St.step, hq] at hs
  | piCreate _ => simp [St.step, he] at hs
  | create =>
    rcases hp with ⟨k, r, hp⟩ | ⟨k, r, pid, hp⟩ <;> simp [St.step, hp, he] at hs
  | read _ => rcases hp with ⟨k, r, hp⟩ | ⟨k, r, pid, hp⟩ <;> simp [St.step, hp] at hs
  | label => rcases hp with ⟨k, r, hp⟩ | ⟨k, r, pid, hp⟩ <;> simp [St.step, hp] at hs
  | eof => rcases hp with ⟨k, r, hp⟩ | ⟨k, r, pid, hp⟩ <;> simp [St.step, hp] at hs
  | drainLock => rcases hp with ⟨k, r, hp⟩ | ⟨k, r, pid, hp⟩ <;> simp [St.step, hp] at hs
  | drained => rcases hp with ⟨k, r, hp⟩ | ⟨k, r, pid, hp⟩ <;> simp [St.step, hp] at hs
  | close => rcases hp with ⟨k, r, hp⟩ | ⟨k, r, pid, hp⟩ <;> simp [St.step, hp] at hs

theorem stuck_run {c : Cfg} {s : St} (ls : List Label) {s' : St} (h : s.Stuck c) (hs : s.run c ls = some s') :
    s'.Stuck c ∧ s'.log = s.log := by
  induction ls generalizing s with
  | nil => cases hs; exact ⟨h, rfl⟩
  | cons l ls ih =>
    simp only [St.run, Option.bind_eq_some_iff] at hs
    obtain ⟨s1, h1, h2⟩ := hs
    obtain ⟨h3, h4⟩ := stuck_step h h1
    obtain ⟨h5, h6⟩ := ih h3 h2
    exact ⟨h5, h6.trans h4⟩

/-- Runs reach. -/
theorem reach_run {c : Cfg} {s s' : St} (ls : List Label) (h : Reach c (fun _ _ => True) s) (hs : s.run c ls = some s') :
    Reach c (fun _ _ => True) s' := by
  induction ls generalizing s with
  | nil => cases hs; exact h
  | cons l ls ih =>
    simp only [St.run, Option.bind_eq_some_iff] at hs
    obtain ⟨s1, h1, h2⟩ := hs
    exact ih (h.step trivial h1) h2

end Bm.DpGrpc
