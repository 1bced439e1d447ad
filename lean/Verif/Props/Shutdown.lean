import Verif.Lemmas.ShutdownStuck

/-!
# C107: shutting down simple_switch and psa_switch

Full statement: after the destructor of the switch has been called, it returns, after all threads have ended; packets that were
accepted before are processed and sent.

This does not hold (`C107_refuted_*`).  Proved: the destructor returns only after all threads have ended, whatever the program
does (`C107_over`); it does return, however threads are scheduled, if there are not more packets inside the switch than fit into
the output buffer, each egress thread's first queue has room for a null pointer, and the program neither copies packets nor (in
psa_switch) resubmits or recirculates them (`C107_returns_partial`).
-/

namespace Bm.Shutdown
open Bm.Shutdown.Spec

/-! ## The destructor returns after all threads have ended -/

/-- C107: whatever the program does and however threads are scheduled, the destructor returns only after all threads have
ended. -/
theorem C107_over (c : Cfg) (ls : List Label) (s : St) (hs : St.run c {} ls = some s) (hf : s.main = .fin) : Over c s :=
  run_keeps (P := fun s => s.main = .fin → Over c s) (fun _ _ _ h hs => over_step h hs) (fun h => by cases h) hs hf

/-! ## The destructor returns -/

/-- C107 (partial: not more packets inside than the output buffer holds, room for null pointers, no copies; what the program
does with a packet otherwise, and the schedule, are arbitrary): once the destructor has pushed its first null pointer, only
finitely many steps are possible, and as long as it has not returned and threads have not ended, there is a next step.  So the
destructor returns, after all threads have ended. -/
theorem C107_returns_partial (c : Cfg) (s s1 : St) (h : Called c s) (hfit : Fits c (load c s)) (h1 : s.step c .mainIn = some s1) :
    (∃ k, ∀ ls s', (∀ l ∈ ls, Modest c l) → s1.run c ls = some s' → ls.length ≤ k) ∧
    (∀ ls s', (∀ l ∈ ls, Modest c l) → s1.run c ls = some s' → Over c s' ∨ ∃ l s'', Modest c l ∧ s'.step c l = some s'') ∧
    (∃ ls s', (∀ l ∈ ls, Modest c l) ∧ s1.run c ls = some s' ∧ Over c s') := by
  have hinv := inv_start h h1
  have hover : ∀ t, Inv c (load c s) t → t.main = .fin → Over c t := fun t ht hf => ⟨hf, ht.fin hf⟩
  refine ⟨⟨todo c s1, ?_⟩, ?_, ?_⟩
  · intro ls s' hl hs
    have := (inv_run hfit hinv hl hs).2
    omega
  · intro ls s' hl hs
    have hi := (inv_run hfit hinv hl hs).1
    by_cases hf : s'.main = .fin
    · exact .inl (hover _ hi hf)
    · exact .inr (progress hfit hi hf)
  · obtain ⟨ls, s', hl, hs, hf⟩ := finish hfit hinv
    exact ⟨ls, s', hl, hs, hover _ (inv_run hfit hinv hl hs).1 hf⟩

/-- C107: with nothing inside, the destructor returns (simple_switch and psa_switch). -/
theorem C107_empty (c : Cfg) (hm : c.single = false → 0 < c.capHi) (hlo : 0 < c.capLo) (ho : 0 < c.capOut)
    (hd : ∀ i, i < c.n → 0 < c.depth (i, 0)) : ∃ ls s, St.run c {} ls = some s ∧ Over c s := by
  have hcall : Called c { main := .input } :=
    ⟨rfl, by simp, by simp, fun _ => rfl, by simp, by simp, by simp, by simp, rfl⟩
  have hload : load c { main := .input } = 0 := by
    have : ∀ n, sumTo (fun _ => 0) n = 0 := by
      intro n
      induction n with
      | zero => rfl
      | succ n ih => simp only [sumTo, ih]
    simp [load, inq, front, this]
  have hfit : Fits c (load c { main := .input }) := by
    rw [hload]
    exact ⟨Nat.zero_le _, ho, fun _ => hd, fun _ => hd⟩
  have hstep : ∃ s1, St.step c { main := .input } .mainIn = some s1 := by
    simp only [St.step, if_true]
    split
    · exact ⟨_, if_pos hlo⟩
    · rename_i hx; exact ⟨_, if_pos (hm (by simpa using hx))⟩
  obtain ⟨s1, h1⟩ := hstep
  obtain ⟨-, -, ls, s', hl, hs, hov⟩ := C107_returns_partial c _ s1 hcall hfit h1
  refine ⟨.destroy :: .mainIn :: ls, s', ?_, hov⟩
  show (St.step c _ .mainIn).bind _ = _
  rw [h1]; exact hs

example : ∃ ls s, St.run simpleSwitch {} ls = some s ∧ Over simpleSwitch s :=
  C107_empty _ (fun _ => by decide) (by decide) (by decide) (fun _ _ => (by decide : 0 < 64))

example : ∃ ls s, St.run psaSwitch {} ls = some s ∧ Over psaSwitch s :=
  C107_empty _ (fun h => by cases h) (by decide) (by decide) (fun _ _ => (by decide : 0 < 64))

/-! ### A concrete case -/

/-- One packet is with egress thread 1, one in its queue, one with the ingress thread, one in the input buffer, one is about to be
sent. -/
def exRun : List Label :=
  [.arrive 1, .ingPop, .ingDone [(1, 0)], .arrive 2, .ingPop, .ingDone [(5, 0)], .arrive 3, .ingPop, .ingDone [(1, 0)],
   .egrPop 1 (1, 0), .egrOut 1, .egrSend 1, .egrPop 1 (5, 0), .arrive 4, .ingPop, .arrive 5, .destroy]

/-- The observable part of a state. -/
def St.view (c : Cfg) (s : St) : (List (Option Nat) × List (Option Nat) × Ing × List ((Nat × Nat) × Option Nat)) ×
    (List Egr × List (Option Nat) × Bool × List Nat) :=
  ((s.hi, s.lo, s.ing, s.eq), ((List.range c.n).map s.egr, s.out, s.tx, s.sent))

set_option synthInstance.maxHeartbeats 400000 in
set_option synthInstance.maxSize 2048 in
/-- In a switch with a bound of 128 packets in the output buffer, four are on their way when the destructor is called. -/
example : ∃ s s1, St.run simpleSwitch {} exRun = some s ∧ Called simpleSwitch s ∧ load simpleSwitch s = 4 ∧
    Fits simpleSwitch (load simpleSwitch s) ∧ s.step simpleSwitch .mainIn = some s1 := by
  have hd : (St.run simpleSwitch {} exRun).isSome = true := by decide +kernel
  obtain ⟨s, hs⟩ := Option.isSome_iff_exists.1 hd
  have key : (St.run simpleSwitch {} exRun).map (fun s => (s.view simpleSwitch, load simpleSwitch s)) =
      some ((([], [some 5], .busy 4, [((1, 0), some 3)]), ([.idle, .busy 2, .idle, .idle], [some 1], false, [])), 4) := by
    decide +kernel
  have key2 : (St.run simpleSwitch {} exRun).all (fun s => decide (s.main = .input)) = true := by decide +kernel
  rw [hs] at key key2
  simp only [Option.map_some, Option.some.injEq, Prod.mk.injEq, St.view] at key
  simp only [Option.all_some, decide_eq_true_eq] at key2
  obtain ⟨⟨⟨k1, k2, k3, k4⟩, k5, k6, k7, k8⟩, k9⟩ := key
  have hegr : ∀ w, w < simpleSwitch.n → s.egr w = .idle ∨ s.egr w = .busy 2 := by
    intro w hw
    have hn : simpleSwitch.n = 4 := rfl
    rw [hn] at hw k5
    have : List.range 4 = [0, 1, 2, 3] := rfl
    rw [this] at k5
    simp only [List.map_cons, List.map_nil, List.cons.injEq, and_true] at k5
    obtain ⟨a, b, d, e⟩ := k5
    match w, hw with
    | 0, _ => exact .inl a
    | 1, _ => exact .inr b
    | 2, _ => exact .inl d
    | 3, _ => exact .inl e
  refine ⟨s, { s with hi := s.hi ++ [none], main := .egress 0 }, hs, ?_, k9, ?_, ?_⟩
  · refine ⟨key2, by simp [k1], by simp [k2], (by intro h; cases h), by simp [k3], by simp [k4], ?_, by simp [k6], k7⟩
    intro w hw
    rcases hegr w hw with h | h <;> rw [h] <;> simp
  · rw [k9]
    exact ⟨by decide, by decide, fun _ _ _ => (by decide : 0 < 64), fun h => by cases h⟩
  · simp only [St.step, if_pos key2, k1]
    rfl

/-! ## It does not always return -/


/-- The packets of a run that fills queues 1 and 2 of egress thread 0. -/
def packetsIn (n : Nat) : List Label := (List.range n).flatMap fun i => [.arrive i, .ingPop, .ingDone [(4 + 4 * (i / 64), 0)]]

/-- 129 packets wait for egress thread 0, the destructor is called, the transmit thread ends at its null pointer, then the egress
thread gets packets, and 128 of them fill the output buffer. -/
def hangRun : List Label :=
  packetsIn 129 ++ [.destroy, .mainIn, .mainEgr, .mainEgr, .mainEgr, .mainEgr, .mainEgr, .mainOut, .txPop] ++
  ((List.range 128).flatMap fun i => [.egrPop 0 (4 + 4 * (i / 64), 0), .egrOut 0, .egrSend 0]) ++ [.egrPop 0 (12, 0), .egrOut 0]

/-- C107 refuted (simple_switch): one packet more than the output buffer holds, and the destructor may never return, whatever
happens next: the transmit thread ends at its null pointer although egress threads still have packets; they wait for room in the
output buffer for ever, and the destructor waits for them. -/
theorem C107_refuted_hang : ∃ s, St.run simpleSwitch {} hangRun = some s ∧ s.tx = true ∧
    ∀ ls s', s.run simpleSwitch ls = some s' → s'.main ≠ .fin ∧ s'.egr 0 = .out 128 := by
  have key : (St.run simpleSwitch {} hangRun).map (fun s => (s.tx, s.out.length, s.egr 0, s.main)) =
      some (true, 128, .out 128, .join) := by decide +kernel
  rw [Option.map_eq_some_iff] at key
  obtain ⟨s, hs, hk⟩ := key
  simp only [Prod.mk.injEq] at hk
  obtain ⟨k1, k2, k3, k4⟩ := hk
  refine ⟨s, hs, k1, ?_⟩
  intro ls s' hr
  have h : Hung simpleSwitch 0 128 s := ⟨k1, by rw [k2]; decide, by decide, k3, by rw [k4]; simp⟩
  obtain ⟨-, -, -, h4, h5⟩ := run_keeps (P := Hung simpleSwitch 0 128) (fun _ _ _ h hs => hung_step h hs) h hr
  exact ⟨h5, h4⟩

/-- The run before the destructor is called meets every condition of `C107_returns_partial` but one: the load is 129, and the
output buffer holds 128. -/
example : (St.run simpleSwitch {} (packetsIn 129)).map (fun s => load simpleSwitch s) = some 129 ∧ simpleSwitch.capOut = 128 := by
  decide +kernel

/-- C107 refuted (simple_switch): if the depth of the first queue of port 0 was set to 0, the destructor tries to push its null
pointer for ever. -/
theorem C107_refuted_depth : ∃ s, St.run { simpleSwitch with depth := fun q => if q.1 = 0 then 0 else 64 } {} [.destroy, .mainIn] =
    some s ∧ ∀ ls s', s.run { simpleSwitch with depth := fun q => if q.1 = 0 then 0 else 64 } ls = some s' → s'.main = .egress 0 := by
  refine ⟨{ hi := [none], main := .egress 0 }, by simp [St.run, St.step, simpleSwitch], ?_⟩
  intro ls s' hr
  exact run_keeps (P := fun s => s.main = .egress 0) (fun _ _ _ h hs => full_step rfl (by decide) rfl h hs) rfl hr

/-- 64 packets for port 0 fill its queue, the destructor is called. -/
def forgetRun : List Label :=
  ((List.range 64).flatMap fun i => [.arrive i, .ingPop, .ingDone [(0, 0)]]) ++ [.destroy, .mainIn, .mainEgr]

/-- C107 refuted (psa_switch): if the queue of port 0 is full when the destructor is called, the null pointer for egress thread 0
is lost; that thread never ends, the destructor never returns. -/
theorem C107_refuted_psa : ∃ s, St.run psaSwitch {} forgetRun = some s ∧
    ∀ ls s', s.run psaSwitch ls = some s' → s'.main ≠ .fin ∧ s'.egr 0 ≠ .done := by
  have key : (St.run psaSwitch {} forgetRun).map (fun s => (s.egr 0, s.eq.all (fun x => x.2.isSome), s.main)) =
      some (.idle, true, .egress 1) := by decide +kernel
  rw [Option.map_eq_some_iff] at key
  obtain ⟨s, hs, hk⟩ := key
  simp only [Prod.mk.injEq] at hk
  obtain ⟨k1, k2, k3⟩ := hk
  refine ⟨s, hs, ?_⟩
  intro ls s' hr
  have h : Forgot psaSwitch s := by
    refine ⟨by decide, by rw [k1]; simp, ?_, .inl ⟨1, by decide, k3⟩⟩
    intro x hx hn
    have := List.all_eq_true.1 k2 x hx
    rw [hn] at this; cases this
  obtain ⟨-, h2, -, h4⟩ := run_keeps (P := Forgot psaSwitch) (fun _ _ _ h hs => forgot_step h hs) h hr
  refine ⟨?_, h2⟩
  intro hf
  rw [hf] at h4
  rcases h4 with ⟨i, -, h⟩ | h | h <;> cases h

/-- The input buffer fills while the ingress thread has a packet, which is resubmitted. -/
def resubmitRun : List Label := .arrive 0 :: .ingPop :: ((List.range 1024).map fun i => .arrive (i + 1)) ++ [.ingBack]

/-- C107 refuted (psa_switch, and no destructor is needed): the ingress thread waits for room in the input buffer to resubmit a
packet, and nobody else makes room there.  No packet is processed any more, and a destructor never returns. -/
theorem C107_refuted_resubmit : ∃ s, St.run psaSwitch {} resubmitRun = some s ∧
    ∀ ls s', s.run psaSwitch ls = some s' → s'.ing = .back 0 ∧ s'.main ≠ .fin := by
  have key : ∃ s, St.run psaSwitch {} resubmitRun = some s ∧ s.ing = .back 0 ∧ s.lo.length = 1024 ∧ s.main = .run := by
    have h1 : St.run psaSwitch {} [.arrive 0, .ingPop] = some { ing := .busy 0 } := by simp [St.run, St.step, psaSwitch]
    have h2 := arrive_run (c := psaSwitch) ((List.range 1024).map (· + 1)) (s := { ing := .busy 0 }) (by simp [psaSwitch])
    have h3 : resubmitRun = [.arrive 0, .ingPop] ++ (((List.range 1024).map (· + 1)).map Label.arrive ++ [.ingBack]) := by
      simp [resubmitRun]
    rw [h3, run_append, h1, Option.bind_some, run_append, h2]
    refine ⟨_, rfl, rfl, ?_, rfl⟩
    simp
  obtain ⟨s, hs, k1, k2, k3⟩ := key
  refine ⟨s, hs, ?_⟩
  intro ls s' hr
  have h := run_keeps (P := fun s => (s.ing = .back 0 ∧ psaSwitch.capLo ≤ s.lo.length) ∧ (s.main = .fin → Over psaSwitch s))
    (fun _ _ _ h hs => ⟨back_step h.1.1 h.1.2 hs, over_step h.2 hs⟩) ⟨⟨k1, by rw [k2]; decide⟩, by rw [k3]; intro h; cases h⟩ hr
  refine ⟨h.1.1, ?_⟩
  intro hf
  have := (h.2 hf).2.1
  rw [h.1.1] at this; cases this

/-- C107 refuted (simple_switch): a packet accepted before the destructor was called is never processed: the null pointer for the
ingress thread overtakes it. -/
theorem C107_refuted_loss : ∃ s, St.run simpleSwitch {} ([.arrive 7, .destroy, .mainIn, .ingPop] ++ [.mainEgr, .mainEgr, .mainEgr,
    .mainEgr, .mainEgr, .mainOut, .egrPop 0 (0, 0), .egrPop 1 (1, 0), .egrPop 2 (2, 0), .egrPop 3 (3, 0), .txPop, .mainJoin]) = some s ∧
    Over simpleSwitch s ∧ s.lo = [some 7] ∧ s.sent = [] := by
  refine ⟨_, rfl, ⟨rfl, rfl, ?_, rfl⟩, rfl, rfl⟩
  decide

end Bm.Shutdown
