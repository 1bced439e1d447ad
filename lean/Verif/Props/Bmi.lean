import Verif.Lemmas.BmiThread
import Verif.Lemmas.BmiRecv

/-!
# C98: ports attached to interfaces

What the port manager does, whatever the order in which the requests of the switch, its thread and the outside make their
steps.  What is not as it should be: a request to remove a port may wait for ever (three ways), destroying a manager with
three ports or more waits for ever, a signal stops the reception of packets, and reading the counters of a port that does
not exist reads memory that was not initialised.
-/

namespace Bm.Bmi

open Bm.Bmi.Spec

/-- The events of a run. -/
def evs : Runs → Option (List Ev)
  | .ok es _ => some es
  | _ => none

/-- Reachable states, and what was seen before: the manager is created with `socketpairfd[1] = sp1`, then things happen; descriptors fit into an
`fd_set`, the manager is not destroyed. -/
def Reach (max sp1 : Nat) (es : List Ev) (s : Sys) : Prop :=
  ∃ as, (∀ a ∈ as, a ≠ .destroyBegin ∧ ∀ p b fd, a = .add p (some (b, fd)) → fd < 1024) ∧
    (Sys.create max sp1).run as = .ok es s

theorem fits {a : Act} (h : a ≠ .destroyBegin ∧ ∀ p b fd, a = .add p (some (b, fd)) → fd < 1024) : Fits a := by
  cases a with
  | destroyBegin => exact absurd rfl h.1
  | add p os =>
    cases os with
    | none => trivial
    | some x => obtain ⟨b, fd⟩ := x; exact h.2 p b fd rfl
  | _ => trivial

theorem reach_inv {max sp1 : Nat} {es : List Ev} {s : Sys} (h : Reach max sp1 es s) :
    Inv s ∧ ∃ S, Run max start es S ∧ Rel s S := by
  obtain ⟨as, ha, hr⟩ := h
  have := run_ok max as (Sys.create max sp1) start (create_inv max sp1) rfl (create_rel max sp1) (fun a h => fits (ha a h))
  rw [hr] at this
  exact ⟨this.1, this.2.2⟩

/-- As long as the manager is not destroyed and descriptors fit into an `fd_set`: nothing undefined happens, and everything
that can be seen is as specified.  (Missing: that a removal ends, see below; destroying the manager.) -/
theorem C98_partial (max sp1 : Nat) (as : List Act)
    (h : ∀ a ∈ as, a ≠ .destroyBegin ∧ ∀ p b fd, a = .add p (some (b, fd)) → fd < 1024) :
    (Sys.create max sp1).run as ≠ .bad ∧
    ∀ es s, (Sys.create max sp1).run as = .ok es s → ∃ S, Run max start es S ∧
      S.net = s.net := by
  have := run_ok max as (Sys.create max sp1) start (create_inv max sp1) rfl (create_rel max sp1) (fun a ha => fits (h a ha))
  constructor
  · intro e
    rw [e] at this
    exact this
  · intro es s e
    rw [e] at this
    obtain ⟨_, _, S, hS, hr⟩ := this
    exact ⟨S, hS, hr.net⟩

/-- Two ports, packets in both directions, a port removed, its number used again. -/
def sample : List Act :=
  [.add 5 (some (0, 7)), .add 2 (some (1, 9)), .setHandler, .arrive 7 ⟨[1, 2], false⟩, .arrive 9 ⟨[3], true⟩, .copy, .select,
    .relock, .iter, .iter, .iter, .send 2 [4, 4, 4] true, .stats 5, .clear 2, .stats 2, .send 3 [1] true, .copy,
    .removeBegin 5, .select, .bounce, .removeEnd, .stats 5, .add 2 (some (2, 7)), .add 5 (some (2, 7)), .add 1 (some (3, 8)), .stats 5]

example : evs ((Sys.create 2 4).run sample) = some
    [.add 5 (some 7) true, .add 2 (some 9) true, .handler, .arrive 7 ⟨[1, 2], false⟩, .arrive 9 ⟨[3], true⟩, .tau, .tau,
      .tau, .cut 2, .deliver 5 [1, 2], .tau, .send 2 [4, 4, 4] true true, .stats 5 (some ⟨1, 2, 0, 0⟩),
      .clear 2 (some ⟨0, 0, 1, 3⟩), .stats 2 (some ⟨0, 0, 0, 0⟩), .send 3 [1] true false, .tau,
      .removeBegin 5, .tau, .tau, .removeEnd 5, .stats 5 none, .add 2 (some 7) false, .add 5 (some 7) true,
      .add 1 (some 8) false, .stats 5 (some ⟨0, 0, 0, 0⟩)] := by decide +kernel

/-! ## Packets -/

/-- The thread, left alone with the lock free and a handler, hands over the packet that waits longest at every port, in the
order of the ports, and nothing else: once round its loop.  (`sp1 < 64` as in any process that opens few files before.) -/
theorem C98_round {max sp1 : Nat} {es0 : List Ev} {s : Sys} (h : Reach max sp1 es0 s) (hp : s.pc = .copy) (hi : s.ctl = .idle)
    (hh : s.m.handler = true) (hs : s.m.sp1 < 64) :
    ∃ S as es s', Run max start es0 S ∧ (∀ a ∈ as, a = .copy ∨ a = .select ∨ a = .relock ∨ a = .iter) ∧ s.run as = .ok es s' ∧
      s'.pc = .copy ∧ (handed es).Pairwise (fun a b => a.1 < b.1) ∧
      ∀ p d, (p, d) ∈ handed es ↔
        ∃ q f rest, S.port p = some q ∧ S.net q.fd = some f ∧ f.pend = ⟨d, false⟩ :: rest := by
  obtain ⟨hI, S, hR, hr⟩ := reach_inv h
  obtain ⟨as, es, s', h1, h2, h3, h4⟩ := round_run hI hr hp hi hh hs
  obtain ⟨h5, h6⟩ := heads_spec hI hr
  rw [← h4] at h5 h6
  exact ⟨S, as, es, s', hR, h1, h2, h3, h5, h6⟩

/-! ## Removing a port -/

/-- A removal that begins while the thread is in `select`, where it asks about the socket pair too, ends after three steps
other than packets arriving; until then there is always such a step.  (Missing: the thread is elsewhere, or asks about
smaller descriptors only; refuted below.) -/
theorem C98_remove_partial {max sp1 : Nat} {es0 : List Ev} {s s1 : Sys} {p : Int} {fds : Nat → Bool} {mf : Int} (h : Reach max sp1 es0 s)
    (hp : s.pc = .select fds mf) (hm : (s.m.sp1 : Int) ≤ mf) (hs : s.step (.removeBegin p) = .ok (.removeBegin p) s1)
    (as : List Act) (ha : ∀ a ∈ as, a ≠ .destroyBegin ∧ ∀ p b fd, a = .add p (some (b, fd)) → fd < 1024)
    (es : List Ev) (s' : Sys) (hr : s1.run as = .ok es s') :
    .removeEnd p ∈ es ∨ (own as < 3 ∧ ∃ a e s'', (∀ fd x, a ≠ .arrive fd x) ∧ s'.step a = .ok e s'') := by
  obtain ⟨hI, S, _, hR⟩ := reach_inv h
  obtain ⟨hI1, S1, hR1⟩ := after_inv hI hR (a := .removeBegin p) trivial hs
  obtain ⟨hidle, k, x, hl, hx, rfl⟩ := removeBegin_shape hI hs
  have hst : Stage p 3 { s with
        m := { s.m with fds := upd s.m.fds x.fd false }
        toThread := true
        ctl := .wait k none } := .three _ k x fds mf hI1 rfl hl hx rfl hp hm
  rcases stage_run as _ S1 3 hst hR1 (fun a h => fits (ha a h)) es s' hr with h | ⟨j, S', h1, h2, h3⟩
  · exact .inl h
  · refine .inr ⟨?_, ?_⟩
    · have : 1 ≤ j := by cases h1 <;> omega
      omega
    · obtain ⟨a, e, s'', h4, _, h5⟩ := stage_next h1 h2
      exact ⟨a, e, s'', h4, h5⟩

/-- A case. -/
example : evs ((Sys.create 2 4).run [.add 5 (some (0, 7)), .copy, .removeBegin 5, .arrive 7 ⟨[], false⟩, .select, .bounce, .removeEnd]) =
    some [.add 5 (some 7) true, .tau, .removeBegin 5, .arrive 7 ⟨[], false⟩, .tau, .tau, .removeEnd 5] := by decide +kernel

/-- A removal that begins while the thread waits for the lock never ends: it waits, with the lock, for an answer of the
thread.  From then on nothing is seen but packets arriving, neither removal nor sending nor receiving. -/
theorem C98_refuted_remove {max sp1 : Nat} {es0 : List Ev} {s s1 : Sys} {p : Int} (h : Reach max sp1 es0 s)
    (hp : s.pc = .copy ∨ ∃ n fds, s.pc = .relock n fds) (hs : s.step (.removeBegin p) = .ok (.removeBegin p) s1)
    (as : List Act) (es : List Ev) (s' : Sys) (hr : s1.run as = .ok es s') : ∀ e ∈ es, ∃ fd x, e = .arrive fd x := by
  obtain ⟨hI, _⟩ := reach_inv h
  obtain ⟨hidle, k, x, _, _, rfl⟩ := removeBegin_shape hI hs
  exact (stuck_run as _ (by exact ⟨⟨k, none, rfl⟩, (idle_bytes hI hidle).2, hp⟩) es s' hr).2

/-- Such states are reached: a port is removed right after it was added; or while a packet arrives. -/
example : evs ((Sys.create 2 4).run [.add 5 (some (0, 7)), .removeBegin 5]) = some [.add 5 (some 7) true, .removeBegin 5] := by
  decide +kernel

example : evs ((Sys.create 2 4).run [.add 5 (some (0, 7)), .arrive 7 ⟨[1], false⟩, .copy, .select, .removeBegin 5]) =
    some [.add 5 (some 7) true, .arrive 7 ⟨[1], false⟩, .tau, .tau, .removeBegin 5] := by decide +kernel

/-- The same if the thread selects on descriptors below that of the socket pair (`max_fd` starts with 0, not with the
descriptor of the socket pair), unless a signal arrives. -/
theorem C98_refuted_low {max sp1 : Nat} {es0 : List Ev} {s s1 : Sys} {p : Int} {fds : Nat → Bool} {mf : Int} (h : Reach max sp1 es0 s)
    (hp : s.pc = .select fds mf) (hm : mf < (s.m.sp1 : Int)) (h64 : s.m.sp1 < 64)
    (hs : s.step (.removeBegin p) = .ok (.removeBegin p) s1)
    (as : List Act) (ha : ∀ a ∈ as, a ≠ .interrupt) (es : List Ev) (s' : Sys) (hr : s1.run as = .ok es s') :
    ∀ p, .removeEnd p ∉ es := by
  obtain ⟨hI, _⟩ := reach_inv h
  obtain ⟨hidle, k, x, _, _, rfl⟩ := removeBegin_shape hI hs
  exact (low_run as _ (by exact ⟨⟨k, none, rfl⟩, (idle_bytes hI hidle).2, .inr ⟨fds, mf, hp, (hI.sel fds mf hp).2.1, hm, h64⟩⟩)
    ha es s' hr).2

/-- A descriptor that is smaller than those of the socket pair; or the thread is in `select` from before the first port was
added. -/
example : evs ((Sys.create 2 40).run [.add 5 (some (0, 7)), .copy, .removeBegin 5, .select]) =
    some [.add 5 (some 7) true, .tau, .removeBegin 5, .tau] := by decide +kernel

example : evs ((Sys.create 2 4).run [.copy, .add 5 (some (0, 7)), .removeBegin 5, .select]) =
    some [.tau, .add 5 (some 7) true, .removeBegin 5, .tau] := by decide +kernel

/-- Whether the thread selects on descriptors below that of the socket pair. -/
def Runs.low : Runs → Bool
  | .ok _ s => match s.pc with
    | .select _ mf => decide (mf < (s.m.sp1 : Int)) && decide (s.m.sp1 < 64)
    | _ => false
  | _ => false

/-- It does happen: a port whose descriptor is smaller than that of the socket pair is never removed, whatever else happens. -/
theorem C98_refuted_low_case (as : List Act) (ha : ∀ a ∈ as, a ≠ .interrupt) (es : List Ev) (s' : Sys)
    (hr : (Sys.create 2 40).run (.add 5 (some (0, 7)) :: .copy :: .removeBegin 5 :: as) = .ok es s') :
    ∀ p, .removeEnd p ∉ es := by
  obtain ⟨e1, t1, r1, h1, g1, rfl⟩ := run_cons hr
  obtain ⟨e2, t2, r2, h2, g2, rfl⟩ := run_cons g1
  obtain ⟨e3, t3, r3, h3, g3, rfl⟩ := run_cons g2
  have hrun : (Sys.create 2 40).run [.add 5 (some (0, 7)), .copy] = .ok [e1, e2] t2 := by simp [Sys.run, h1, h2]
  have hrun3 : (Sys.create 2 40).run [.add 5 (some (0, 7)), .copy, .removeBegin 5] = .ok [e1, e2, e3] t3 := by
    simp [Sys.run, h1, h2, h3]
  have hev : evs ((Sys.create 2 40).run [.add 5 (some (0, 7)), .copy, .removeBegin 5]) =
    some [.add 5 (some 7) true, .tau, .removeBegin 5] := by decide +kernel
  have hlow : ((Sys.create 2 40).run [.add 5 (some (0, 7)), .copy]).low = true := by decide +kernel
  rw [hrun3] at hev
  simp only [evs, Option.some.injEq, List.cons.injEq, and_true] at hev
  obtain ⟨rfl, rfl, rfl⟩ := hev
  rw [hrun] at hlow
  simp only [Runs.low] at hlow
  intro p hp
  rcases List.mem_cons.1 hp with h | hp
  · cases h
  rcases List.mem_cons.1 hp with h | hp
  · cases h
  rcases List.mem_cons.1 hp with h | hp
  · cases h
  cases hpc : t2.pc with
  | select fds mf =>
    rw [hpc] at hlow
    simp only [Bool.and_eq_true, decide_eq_true_eq] at hlow
    refine C98_refuted_low ⟨_, ?_, hrun⟩ hpc hlow.1 hlow.2 h3 as ha r3 s' g3 p hp
    intro a h
    simp only [List.mem_cons, List.not_mem_nil, or_false] at h
    rcases h with rfl | rfl
    · exact ⟨by simp, fun p b fd h => by cases h; decide⟩
    · exact ⟨by simp, fun p b fd h => by cases h⟩
  | _ => rw [hpc] at hlow; cases hlow

/-! ## Signals -/

/-- After a signal interrupts `select` no packet is received any more (until a port is removed or the manager destroyed): the
thread takes the set of descriptors asked about for that of the ready ones, and reads from the socket pair. -/
theorem C98_refuted_signal {max sp1 : Nat} {es0 : List Ev} {s s1 : Sys} {e : Ev} (h : Reach max sp1 es0 s) (hi : s.ctl = .idle)
    (hs : s.step .interrupt = .ok e s1)
    (as : List Act) (ha : ∀ a ∈ as, a ≠ .destroyBegin ∧ ∀ p, a ≠ .removeBegin p) (es : List Ev) (s' : Sys)
    (hr : s1.run as = .ok es s') : ∀ p d, .deliver p d ∉ es ∧ .cut p ∉ es := by
  obtain ⟨hI, _⟩ := reach_inv h
  have hd : Deaf s1 := by
    simp only [Sys.step] at hs
    split at hs
    case h_2 => cases hs
    rename_i fds mf hp
    cases hs
    obtain ⟨b1, b2, _⟩ := hI.sel fds mf hp
    refine ⟨⟨-1, fds, ?_⟩, hi, (idle_bytes hI hi).1⟩
    simp only [Sys.afterSelect]
    rw [if_neg (by omega), if_pos b1]
  have hl : ∀ a ∈ as, Lets a := by
    intro a h
    obtain ⟨h1, h2⟩ := ha a h
    cases a with
    | destroyBegin => exact absurd rfl h1
    | removeBegin p => exact absurd rfl (h2 p)
    | _ => trivial
  have := (deaf_run as s1 hd hl es s' hr).2
  exact fun p d => ⟨fun h => this _ h (.inl ⟨p, d, rfl⟩), fun h => this _ h (.inr ⟨p, rfl⟩)⟩

/-- A case. -/
example : evs ((Sys.create 2 4).run [.add 5 (some (0, 7)), .setHandler, .copy, .interrupt, .arrive 7 ⟨[1], false⟩]) =
    some [.add 5 (some 7) true, .handler, .tau, .tau, .arrive 7 ⟨[1], false⟩] ∧
    evs ((Sys.create 2 4).run [.add 5 (some (0, 7)), .setHandler, .copy, .select, .arrive 7 ⟨[1], false⟩, .copy, .select, .relock, .iter]) =
    some [.add 5 (some 7) true, .handler, .tau, .tau, .arrive 7 ⟨[1], false⟩, .tau, .tau, .tau, .deliver 5 [1]] := by
  decide +kernel

/-! ## The end -/

/-- Destroying a manager with three ports or more never ends. -/
theorem C98_refuted_destroy {max sp1 : Nat} {es0 : List Ev} {s s1 : Sys} (h : Reach max sp1 es0 s) (hc : 3 ≤ s.m.count)
    (hs : s.step .destroyBegin = .ok .destroyBegin s1) (as : List Act) (es : List Ev) (s' : Sys)
    (hr : s1.run as = .ok es s') : .destroyEnd ∉ es := by
  obtain ⟨hI, _⟩ := reach_inv h
  simp only [Sys.step] at hs
  by_cases hcan : s.canWrite = true
  case neg => rw [if_neg hcan] at hs; cases hs
  rw [if_pos hcan] at hs
  cases hs
  have hidle := canWrite_idle hcan
  obtain ⟨b1, b2⟩ := idle_bytes hI hidle
  refine (doomed_run as _ (by
    refine .first _ hI.core.tab rfl hc b1 b2 ?_
    intro n fds i e
    have e : s.pc = .loop n fds i := e
    simp [Sys.canWrite, e] at hcan) es s' hr).2

/-- Three ports. -/
example : evs ((Sys.create 3 4).run [.add 1 (some (0, 7)), .add 2 (some (1, 8)), .add 3 (some (2, 9)), .copy, .destroyBegin,
      .destroyNext, .select, .bounce, .removeEnd, .destroyNext]) =
    some [.add 1 (some 7) true, .add 2 (some 8) true, .add 3 (some 9) true, .tau, .destroyBegin, .tau, .tau, .tau, .tau, .tau] := by
  decide +kernel

/-- The state a run ends in. -/
def Runs.net : Runs → Nat → Option File
  | .ok _ s => s.net
  | _ => fun _ => none

/-- With two ports it may end, and leaves the interface of one of them open. -/
theorem C98_refuted_open : ∃ as, evs ((Sys.create 2 4).run as) =
      some [.add 1 (some 7) true, .add 2 (some 8) true, .tau, .destroyBegin, .tau, .tau, .tau, .tau, .tau, .tau, .tau, .destroyEnd] ∧
    ((Sys.create 2 4).run as).net 8 = some ⟨[], []⟩ :=
  ⟨[.add 1 (some (0, 7)), .add 2 (some (1, 8)), .copy, .destroyBegin, .destroyNext, .select, .bounce, .removeEnd, .destroyNext,
    .copy, .select, .destroyEnd], by decide +kernel, by decide +kernel⟩

/-! ## Counters of a port that does not exist; descriptors -/

/-- `get_port_stats` reads memory that was not initialised exactly for the ports that do not exist. -/
theorem C98_refuted_stats {max sp1 : Nat} {es0 : List Ev} {s : Sys} (h : Reach max sp1 es0 s) :
    ∃ S, Run max start es0 S ∧ ∀ p, devStats s p = none ↔ S.port p = none := by
  obtain ⟨hI, S, hR, hr⟩ := reach_inv h
  refine ⟨S, hR, fun p => ?_⟩
  rcases getPort_ok hI.core.tab p with ⟨k, x, h1, h2, h3, h4⟩ | ⟨h1, h2⟩
  · obtain ⟨q, q1, _⟩ := hr.ports.to k x ⟨h2, h3⟩
    subst h4
    simp [devStats, Sys.stats, h1, h3, q1]
  · simp only [devStats, Sys.stats, h1, Option.bind_eq_bind, Option.bind_some]
    refine ⟨fun _ => ?_, fun _ => rfl⟩
    cases hq : S.port p with
    | none => rfl
    | some q =>
      obtain ⟨i, x, hl, hx⟩ := hr.ports.from' p q hq
      exact absurd hx (h2 i x hl.1 hl.2)

/-- A descriptor that does not fit into an `fd_set`. -/
theorem C98_refuted_fd : (∃ as, (Sys.create 2 4).run as = .bad) :=
  ⟨[.add 5 (some (0, 1024))], by
    have h : search (Sys.create 2 4).m.ports 5 0 0 = some (0, false) := by rw [search]; rfl
    have h' : (Sys.create 2 4).add 5 (some (0, 1024)) = none := by
      simp only [Sys.add, Mgr.getPort, show (Sys.create 2 4).m.count = 0 from rfl, h, Sys.attach, Mgr.insertPort]
      rfl
    simp only [Sys.run, Sys.step, h']
    rfl⟩

end Bm.Bmi
