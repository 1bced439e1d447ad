import Verif.Lemmas.DpGrpcRun

/-!
# C106: packet streams of simple_switch_grpc

The full claim: one client at a time sends packets; each packet that leaves is a packet that came in, goes through the stream
it came from, and has the number of its request; statistics and port status are what happened; what the monitor of ports knows
agrees with the service; and the service always gets done with what it has.

False, and hence shown under conditions: the numbers (if the controller sends packets at the same time), the monitor (if ports
are added or removed through `DevMgr`), and the last part (an exchange of programs can stop the service for ever).
-/

namespace Bm.DpGrpc
open Bm.DpGrpc.Spec

/-- Anything may happen. -/
def Any (_ : St) (_ : Label) : Prop := True

/-- A stream is opened if none is open, packets come from the open stream or the controller, and leave through the stream they
came from or to the controller.  In particular a packet of a stream is never lost for want of a stream, and its answer never
goes to a later client. -/
theorem C106_streams {c : Cfg} {s : St} (h : Reach c Any s) : Always (Proper c.dev c.cpu) s.log := (inv_reach h).proper

/-- The stream that is open is the one the log says, and a packet of a stream that is still in the switch belongs to it. -/
theorem C106_current {c : Cfg} {s : St} (h : Reach c Any s) : s.active = current s.log ∧
    ∀ k r pid, Ev.accepted k r pid ∈ s.log → (pid ∈ s.live ∨ ∃ x ∈ s.outq, x.1 = pid) → current s.log = some k := by
  have := inv_reach h
  exact ⟨this.cur.symm, fun k r pid h1 h2 => this.cur.trans (this.own k r pid h1 h2)⟩

/-- Responses have the number of their request, if the controller's packets do not get in between.
Missing: that condition (`C106_refuted_numbers`). -/
theorem C106_numbers_partial {c : Cfg} {s : St} (h : Reach c Calm s) : Always Numbered s.log := (id_reach h).num

/-- The table of numbers never shrinks: the number of every request is kept for ever. -/
theorem C106_numbers_kept {c : Cfg} {s : St} (h : Reach c Calm s) (hf : s.pc.free = true) {k pid : Nat} {r : Req}
    (hr : Ev.accepted k r pid ∈ s.log) (h0 : r.id ≠ 0) : s.trans.find? pid = some r.id := by
  have := (id_reach h).have_ k r pid hr (by intro k r h1; rw [h1] at hf; cases hf)
  cases hh : s.trans.find? pid with
  | none => rw [hh] at this; exact absurd this.symm h0
  | some i => rw [hh] at this; exact congrArg some this

/-- The statistics are those of what happened since they were cleared. -/
theorem C106_stats {c : Cfg} {s : St} (h : Reach c Any s) (hf : s.pc.free = true) (p : Nat) :
    s.getStats p = Spec.stats p s.log := by
  rw [stats_reach h p, shown_free]
  intro k r pid h1; rw [h1] at hf; cases hf

/-- A port is up unless it was set down. -/
theorem C106_status {c : Cfg} {s : St} (h : Reach c Any s) (p : Nat) : s.portIsUp p = up p s.log := (port_reach h p).up

theorem step_started {c : Cfg} {s s' : St} {a : Label} (hs : s.step c a = some s') :
    (s'.started = true → s.started = true ∨ a = .start) ∧ ∀ k, Ev.opened k ∈ s'.log → Ev.opened k ∈ s.log ∨ s.started = true := by
  have hadd : ∀ (s : St) p, (s.addPort p).started = s.started ∧ (s.addPort p).log = s.log := by
    intro s p; unfold St.addPort; split <;> exact ⟨rfl, rfl⟩
  cases a <;> simp only [St.step] at hs
  case setStatus dev p op =>
    split at hs
    · cases hs
      unfold St.setStatus
      split
      · simp; tauto
      · split <;> simp [hadd] <;> tauto
    · cases hs
  all_goals
    (repeat' split at hs) <;> cases hs <;> simp_all [St.clearStats, St.transmitFn, St.count, hadd] <;>
      first | tauto | ((repeat' split) <;> simp_all <;> tauto)

theorem run_started {c : Cfg} : ∀ {ls : List Label} {s s' : St}, s.run c ls = some s' →
    (s'.started = true → s.started = true ∨ .start ∈ ls) ∧
    ∀ k, Ev.opened k ∈ s'.log → Ev.opened k ∈ s.log ∨ s.started = true ∨ .start ∈ ls := by
  intro ls
  induction ls with
  | nil => intro s s' h; cases h; exact ⟨.inl, fun _ => .inl⟩
  | cons a ls ih =>
    intro s s' h
    simp only [St.run, Option.bind_eq_some_iff] at h
    obtain ⟨s1, h1, h2⟩ := h
    have h3 := step_started h1
    have h4 := ih h2
    refine ⟨fun h => ?_, fun k h => ?_⟩
    · rcases h4.1 h with h | h
      · rcases h3.1 h with h | h
        · exact .inl h
        · exact .inr (by rw [h]; exact List.mem_cons_self)
      · exact .inr (List.mem_cons_of_mem _ h)
    · rcases h4.2 k h with h | h | h
      · rcases h3.2 k h with h | h
        · exact .inl h
        · exact .inr (.inl h)
      · rcases h3.1 h with h | h
        · exact .inr (.inl h)
        · exact .inr (.inr (by rw [h]; exact List.mem_cons_self))
      · exact .inr (.inr (List.mem_cons_of_mem _ h))

/-- No stream is opened before the switch has been started. -/
theorem C106_ready {c : Cfg} {ls : List Label} {s : St} (h : St.run c {} ls = some s) {k : Nat} (hk : Ev.opened k ∈ s.log) :
    .start ∈ ls := by
  rcases (run_started h).2 k hk with h | h | h
  · cases h
  · cases h
  · exact h

/-- The status of a port is changed by a request for this device that says up or down; other requests are refused and change
nothing. -/
theorem C106_set {c : Cfg} {s s' : St} {dev p : Nat} {op : Option Bool} (h : s.step c (.setStatus dev p op) = some s') :
    (∀ b, dev = c.dev → op = some b → s'.log = s.log ++ [.status p b] ∧ s'.portIsUp p = b ∧
      ∀ q, q ≠ p → s'.portIsUp q = s.portIsUp q) ∧
    ((dev ≠ c.dev ∨ op = none) → s' = { s with log := s.log ++ [.invalid] }) := by
  simp only [St.step] at h
  split at h
  case isFalse => cases h
  cases h
  unfold St.setStatus
  constructor
  · rintro b rfl rfl
    rw [if_neg (by simp)]
    have hadd : (s.addPort p).log = s.log ∧ ∀ q, q ≠ p → (s.addPort p).portIsUp q = s.portIsUp q := by
      unfold St.addPort St.portIsUp
      split
      · exact ⟨rfl, fun _ _ => rfl⟩
      · exact ⟨rfl, fun q hq => by simp [UMap.find_assign, hq]⟩
    refine ⟨by simp [hadd.1], by simp [St.portIsUp, UMap.find_assign], ?_⟩
    intro q hq
    rw [← hadd.2 q hq]
    simp [St.portIsUp, UMap.find_assign, hq]
  · rintro (h | h)
    · rw [if_pos h]
    · subst h; split <;> rfl

/-- The monitor knows the ports that were used, with their status, if nobody adds or removes ports through `DevMgr`.
Missing: that condition (`C106_refuted_monitor`). -/
theorem C106_monitor_partial {c : Cfg} {s : St} (h : Reach c NoApi s) (hf : s.pc.free = true) (p : Nat) :
    s.mon.ports.lookup p = if known p s.log then some (up p s.log) else none := by
  have h1 := port_reach h p
  have h2 := h1.known
  have hu : s.pc.using p = false := by cases hp : s.pc <;> rw [hp] at hf <;> first | rfl | cases hf
  rw [hu, Bool.or_false] at h2
  rw [(mon_reach h).agree, ← h2]
  have h3 := h1.up
  unfold St.portIsUp at h3
  cases ho : s.oper.find? p with
  | none => rfl
  | some b => rw [ho] at h3; simpa using h3

/-- All packets can leave, the exchange of programs and the end of the stream can be completed, unless the thread of the
stream has taken `mutex` while programs are being exchanged and a packet waits to be sent to the client.
Missing: that condition (`C106_refuted_deadlock`). -/
theorem C106_progress_partial {c : Cfg} {s : St} (h : Reach c Any s)
    (hg : s.excl = .swap → ((∃ k r, s.pc = .handling k r) ∨ ∃ k r pid, s.pc = .creating k r pid) →
      ∀ x ∈ s.outq, c.cpu > 0 ∧ x.2.1 = c.cpu) :
    ∃ ls s', s.run c ls = some s' ∧ s'.live = [] ∧ s'.outq = [] ∧ s'.pending = [] ∧ s'.excl = .none ∧
      (s'.pc = .none ∨ ∃ k, s'.pc = .reading k) := by
  obtain ⟨ls, s', h1, h2, h3, h4, h5, h6⟩ := progress (inv_reach h) hg
  exact ⟨ls, s', h1, h2, h3, h4, h5, h6⟩

/-- The condition is the right one: if the next packet is for the client, nothing is seen any more, ever. -/
theorem C106_stuck {c : Cfg} {s : St} (he : s.excl = .swap)
    (hp : (∃ k r, s.pc = .handling k r) ∨ ∃ k r pid, s.pc = .creating k r pid)
    (ho : ∃ x q, s.outq = x :: q ∧ ¬ (c.cpu > 0 ∧ x.2.1 = c.cpu)) :
    ∀ ls s', s.run c ls = some s' → s'.log = s.log ∧ s'.excl = .swap ∧ s'.pc.free = false := by
  intro ls s' h
  obtain ⟨⟨h1, h2, -⟩, h3⟩ := stuck_run ls ⟨he, hp, ho⟩ h
  refine ⟨h3, h1, ?_⟩
  rcases h2 with ⟨k, r, h2⟩ | ⟨k, r, pid, h2⟩ <;> rw [h2] <;> rfl

/-! ## Cases -/

/-- Device 0 with port 64 for the controller. -/
def exCfg : Cfg := ⟨0, 64⟩

/-- A request with number 7. -/
def exReq : Req := ⟨0, 1, 7, [1, 2]⟩

/-- Two packets, one of which is sent out twice, a controller packet, statistics cleared, a port set down, an exchange, the end. -/
def exRun : List Label :=
  [.opens, .start, .opens, .opens, .read exReq, .take, .create, .label, .copy 0, .emit 0 64 [3], .emit 0 2 [1, 2],
   .read ⟨1, 1, 0, [1]⟩, .read ⟨0, 2, 0, [9]⟩, .take, .transmit, .create, .label, .transmit, .piTake, .piCreate 2, .clear 1,
   .emit 2 2 [5, 6, 7], .transmit, .setStatus 0 2 (some false), .setStatus 0 2 none, .eof, .emit 1 2 [9], .drainLock, .transmit,
   .drained, .close, .swapBegin, .swapEnd, .opens]

/-- A run whose steps all pass a check. -/
def St.runIf (c : Cfg) (chk : St → Label → Bool) (s : St) : List Label → Option St
  | [] => some s
  | l :: ls => if chk s l then (s.step c l).bind (·.runIf c chk ls) else none

theorem reach_runIf {c : Cfg} {P : St → Label → Prop} {chk : St → Label → Bool} (hc : ∀ s l, chk s l = true → P s l)
    {s s' : St} (ls : List Label) (h : Reach c P s) (hs : s.runIf c chk ls = some s') : Reach c P s' := by
  induction ls generalizing s with
  | nil => cases hs; exact h
  | cons l ls ih =>
    simp only [St.runIf] at hs
    split at hs
    · rename_i h0
      simp only [Option.bind_eq_some_iff] at hs
      obtain ⟨s1, h1, h2⟩ := hs
      exact ih (h.step (hc _ _ h0) h1) h2
    · cases hs

/-- The controller's packets stay out, and ports are left alone. -/
def exChk (s : St) : Label → Bool
  | .piTake => match s.pc with
    | .creating .. | .labelling .. => false
    | _ => true
  | .apiAdd _ | .apiRemove _ => false
  | _ => true

theorem exChk_ok (s : St) (l : Label) (h : exChk s l = true) : (Any s l ∧ Calm s l) ∧ NoApi s l := by
  refine ⟨⟨trivial, ?_⟩, ?_⟩
  · rintro rfl
    constructor
    · intro k r pid hp; simp [exChk, hp] at h
    · intro k r pid hp; simp [exChk, hp] at h
  · cases l <;> trivial

set_option synthInstance.maxHeartbeats 400000 in
set_option synthInstance.maxSize 2048 in
/-- The run meets the conditions of all theorems, and this is what is seen. -/
example : ∃ s, Reach exCfg Any s ∧ Reach exCfg Calm s ∧ Reach exCfg NoApi s ∧ s.pc.free = true ∧
    s.log = [.notReady, .opened 0, .exhausted, .accepted 0 exReq 0, .skipped 0 ⟨1, 1, 0, [1]⟩, .packetIn 0 [3],
      .accepted 0 ⟨0, 2, 0, [9]⟩ 1, .response 0 0 2 7 [1, 2], .injected 2, .cleared 1, .response 0 2 2 0 [5, 6, 7],
      .status 2 false, .invalid, .response 0 1 2 0 [9], .closed 0, .exchanged, .opened 1] ∧
    s.getStats 2 = ⟨1, 1, 3, 6⟩ ∧ s.getStats 1 = {} ∧ s.portIsUp 2 = false ∧ s.portIsUp 3 = true ∧
    s.mon.ports.lookup 2 = some false ∧ s.mon.ports.lookup 1 = some true ∧ s.mon.ports.lookup 3 = none := by
  have key : (St.runIf exCfg exChk {} exRun).map (fun s => (s.pc.free, s.log, s.getStats 2, s.getStats 1, s.portIsUp 2, s.portIsUp 3,
      s.mon.ports.lookup 2, s.mon.ports.lookup 1, s.mon.ports.lookup 3)) = some (true,
      [.notReady, .opened 0, .exhausted, .accepted 0 exReq 0, .skipped 0 ⟨1, 1, 0, [1]⟩, .packetIn 0 [3],
      .accepted 0 ⟨0, 2, 0, [9]⟩ 1, .response 0 0 2 7 [1, 2], .injected 2, .cleared 1, .response 0 2 2 0 [5, 6, 7],
      .status 2 false, .invalid, .response 0 1 2 0 [9], .closed 0, .exchanged, .opened 1],
      ⟨1, 1, 3, 6⟩, {}, false, true, some false, some true, none) := by decide +kernel
  rw [Option.map_eq_some_iff] at key
  obtain ⟨s, hs, he⟩ := key
  simp only [Prod.mk.injEq] at he
  exact ⟨s, reach_runIf (fun s l h => (exChk_ok s l h).1.1) _ .init hs, reach_runIf (fun s l h => (exChk_ok s l h).1.2) _ .init hs,
    reach_runIf (fun s l h => (exChk_ok s l h).2) _ .init hs, he.1, he.2.1, he.2.2.1, he.2.2.2.1, he.2.2.2.2.1, he.2.2.2.2.2.1,
    he.2.2.2.2.2.2.1, he.2.2.2.2.2.2.2.1, he.2.2.2.2.2.2.2.2⟩

set_option synthInstance.maxHeartbeats 400000 in
set_option synthInstance.maxSize 2048 in
/-- An exchange waits for a packet that can be sent to the controller, and the thread of the stream for the exchange. -/
example : ∃ s, Reach exCfg Any s ∧ s.excl = .swap ∧ s.outq = [(0, 64, [1])] ∧ s.pc = .creating 0 exReq 1 ∧
    ∀ x ∈ s.outq, exCfg.cpu > 0 ∧ x.2.1 = exCfg.cpu := by
  have key : (St.runIf exCfg exChk {} [.start, .opens, .read exReq, .take, .create, .label, .emit 0 64 [1], .read exReq,
      .take, .swapBegin]).map (fun s => (s.excl, s.outq, s.pc)) = some (.swap, [(0, 64, [1])], .creating 0 exReq 1) := by decide +kernel
  rw [Option.map_eq_some_iff] at key
  obtain ⟨s, hs, he⟩ := key
  simp only [Prod.mk.injEq] at he
  exact ⟨s, reach_runIf (fun s l h => (exChk_ok s l h).1.1) _ .init hs, he.1, he.2.1, he.2.2, by rw [he.2.1]; decide⟩

/-! ## What is false -/

/-- A packet of the controller gets in between: the answer to request 7 has number 0, and the controller's packet leaves with
number 7. -/
theorem C106_refuted_numbers : ∃ s, Reach exCfg Any s ∧
    s.log = [.opened 0, .accepted 0 exReq 0, .injected 1, .response 0 0 2 0 [1, 2], .response 0 1 3 7 [5]] ∧
    ¬ Always Numbered s.log := by
  have key : (St.run exCfg {} [.start, .opens, .read exReq, .take, .piTake, .create, .label, .piCreate 1, .emit 0 2 [1, 2],
      .transmit, .emit 1 3 [5], .transmit]).map (·.log) =
      some [.opened 0, .accepted 0 exReq 0, .injected 1, .response 0 0 2 0 [1, 2], .response 0 1 3 7 [5]] := by decide +kernel
  rw [Option.map_eq_some_iff] at key
  obtain ⟨s, hs, he⟩ := key
  refine ⟨s, reach_run _ .init hs, he, ?_⟩
  intro h
  rcases h [.opened 0, .accepted 0 exReq 0, .injected 1, .response 0 0 2 0 [1, 2]] (.response 0 1 3 7 [5]) [] he with
    ⟨r, h1, -⟩ | ⟨-, h1⟩
  · simp at h1
  · cases h1

set_option synthInstance.maxHeartbeats 400000 in
set_option synthInstance.maxSize 2048 in
/-- A packet waits to be sent to the client, programs are being exchanged, and the thread of the stream has taken `mutex` for
the next packet: nothing happens any more. -/
theorem C106_refuted_deadlock : ∃ s, Reach exCfg Any s ∧ s.log = [.opened 0, .accepted 0 exReq 0] ∧ s.outq = [(0, 2, [1, 2])] ∧
    ∀ ls s', s.run exCfg ls = some s' → s'.log = s.log ∧ s'.excl = .swap ∧ s'.pc.free = false := by
  have key : (St.run exCfg {} [.start, .opens, .read exReq, .take, .create, .label, .emit 0 2 [1, 2], .read exReq, .take,
      .swapBegin]).map (fun s => (s.log, s.outq, s.excl, s.pc)) =
      some ([.opened 0, .accepted 0 exReq 0], [(0, 2, [1, 2])], .swap, .creating 0 exReq 1) := by decide +kernel
  rw [Option.map_eq_some_iff] at key
  obtain ⟨s, hs, he⟩ := key
  simp only [Prod.mk.injEq] at he
  exact ⟨s, reach_run _ .init hs, he.1, he.2.1,
    C106_stuck he.2.2.1 (.inr ⟨_, _, _, he.2.2.2⟩) ⟨_, _, he.2.1, by decide⟩⟩

set_option synthInstance.maxHeartbeats 400000 in
set_option synthInstance.maxSize 2048 in
/-- A port that was used and then removed through `DevMgr` is still up for the service, which takes packets from it; the
monitor no longer knows it, and is not told when it goes down. -/
theorem C106_refuted_monitor : ∃ s s', Reach exCfg Any s ∧ Reach exCfg Any s' ∧ s.pc.free = true ∧ s'.pc.free = true ∧
    s.portIsUp 1 = true ∧ s.mon.ports.lookup 1 = none ∧ s'.portIsUp 1 = false ∧ s'.mon.ports.lookup 1 = none ∧
    s.log = [.opened 0, .accepted 0 exReq 0, .accepted 0 exReq 1] ∧ s'.log = s.log ++ [.status 1 false] ∧
    s'.mon.acc = s.mon.acc := by
  have key : ((St.run exCfg {} [.start, .opens, .read exReq, .take, .create, .label, .apiRemove 1, .read exReq, .take, .create,
      .label]).bind fun s => (s.step exCfg (.setStatus 0 1 (some false))).map fun s' => (s, s')).map
      (fun x => ((x.1.pc.free, x.2.pc.free, x.1.portIsUp 1), (x.1.mon.ports.lookup 1, x.2.portIsUp 1, x.2.mon.ports.lookup 1),
        x.1.log, x.2.log, x.1.mon.acc, x.2.mon.acc)) =
      some ((true, true, true), (none, false, none), [.opened 0, .accepted 0 exReq 0, .accepted 0 exReq 1],
        [.opened 0, .accepted 0 exReq 0, .accepted 0 exReq 1, .status 1 false], [(1, .added), (1, .up), (1, .removed)],
        [(1, .added), (1, .up), (1, .removed)]) := by decide +kernel
  rw [Option.map_eq_some_iff] at key
  obtain ⟨⟨s, s'⟩, hs, he⟩ := key
  simp only [Option.bind_eq_some_iff, Option.map_eq_some_iff, Prod.mk.injEq] at hs
  obtain ⟨s1, h1, s2, h2, rfl, rfl⟩ := hs
  simp only [Prod.mk.injEq] at he
  obtain ⟨⟨e1, e2, e3⟩, ⟨e4, e5, e6⟩, e7, e8, e9, e10⟩ := he
  have hr : Reach exCfg Any s1 := reach_run _ .init h1
  exact ⟨s1, s2, hr, hr.step trivial h2, e1, e2, e3, e4, e5, e6, e7, by rw [e8, e7]; rfl, by rw [e9, e10]⟩

/-- Packets come from a port that is down, and leave through it. -/
theorem C106_refuted_down : ∃ s, Reach exCfg Any s ∧
    s.log = [.opened 0, .status 1 false, .accepted 0 exReq 0, .response 0 0 1 7 [1, 2]] ∧ s.portIsUp 1 = false := by
  have key : (St.run exCfg {} [.start, .opens, .setStatus 0 1 (some false), .read exReq, .take, .create, .label,
      .emit 0 1 [1, 2], .transmit]).map (fun s => (s.log, s.portIsUp 1)) =
      some ([.opened 0, .status 1 false, .accepted 0 exReq 0, .response 0 0 1 7 [1, 2]], false) := by decide +kernel
  rw [Option.map_eq_some_iff] at key
  obtain ⟨s, hs, he⟩ := key
  simp only [Prod.mk.injEq] at he
  exact ⟨s, reach_run _ .init hs, he.1, he.2⟩

end Bm.DpGrpc
