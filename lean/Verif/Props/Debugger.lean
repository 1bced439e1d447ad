import Verif.Lemmas.Debugger

/-!
# C95: the debugger

The statement in full would be: whatever clients and packets do, every request gets one reply, with
the number of the request, telling what `Spec.answer` says or where the program stopped; the program
stops exactly after what the client asked for; with no client attached packets are not held up.  The
code does not keep this: the reply to `attach`, `detach` and `reset` has the number 0; and a client that
does not attach first, a change of configuration, a long field or a long filter make it fail (the
`refuted` theorems).  What is proved is this statement for polite clients, with the number as it is.
-/

namespace Bm.Debugger

open Bm.Debugger.Spec

/-- Executions in which what happens is polite, with what is seen. -/
inductive Run : State → List Vis → Prop
  | init : Run {} []
  | step {s s' : State} {h : List Vis} (a : Act) : Run s h → step s a = .ok s' →
      (∀ v, vis s a = some v → Polite h v) → Run s' (hist s a h)

theorem run_inv {s : State} {h : List Vis} (r : Run s h) : Inv s h := by
  induction r with
  | init => exact init_inv
  | step a _ hs hp ih =>
    rcases step_inv ih hp with hb | ⟨s', hb, hi⟩
    · rw [hb] at hs; cases hs
    · rw [hb] at hs; cases hs; exact hi

/-- C95 (partial): histories are as they should be, but for the number of some replies; nothing fails;
packets are not held up while no client is attached, nor after the client let them go on; and the thread
for requests can go on as long as a reply is due. -/
theorem C95_partial {s : State} {h : List Vis} (r : Run s h) :
    Good num h ∧
    (∀ a, (∀ v, vis s a = some v → Polite h v) → step s a ≠ .bad) ∧
    (∀ e, attached h = false → Polite h (.pkt e) → ∃ s', step s (.pkt e) = .ok s') ∧
    (∀ n q s', (q = .cont ∨ q = .next) → vis s .dispatch = some (.req n q) → attached h = true →
      step s .dispatch = .ok s' → ∀ e, Polite h (.pkt e) →
      (∀ p port, e = .enter p port → stopsIn h = true → ∃ c, inside (p.1, c) h = true) →
      ∃ s'', step s' (.pkt e) = .ok s'') ∧
    (∀ x, pending h = some x → ∃ a s', (a = .send ∨ a = .timeout) ∧ step s a = .ok s') := by
  have i := run_inv r
  refine ⟨i.c.good, ?_, ?_, ?_, ?_⟩
  · intro a hp hb
    rcases step_inv i hp with h1 | ⟨s', h1, -⟩
    · rw [h1] at hb; cases hb
    · rw [h1] at hb; cases hb
  · intro e ha hp
    rcases pkt_inv i hp with ⟨-, h1 | h1⟩ | ⟨s', h1, -⟩
    · exfalso
      have hpo := i.c.ph
      unfold PhaseOk at hpo
      split at hpo
      · rw [hpo.2.1, ha] at h1; cases h1
      · rw [hpo.2.1, ha] at h1; cases h1
      · obtain ⟨n, q, h0, -, h2⟩ := hpo
        split at h2
        · rw [h2.2.1, ha] at h1; cases h1
        · rw [ha] at h2; cases h2.2.1
    · rw [(i.c.quiet ha).2.1] at h1; cases h1.1
    · exact ⟨s', h1⟩
  · intro n q s' hq hv hat hs e hp hin
    have hv' : ∀ v, vis s .dispatch = some v → Polite h v := by
      intro v hv2
      rw [hv] at hv2
      cases hv2
      rcases hq with rfl | rfl <;> exact hat
    have hcc : s'.canContinue = true := by
      simp only [vis] at hv
      cases hph : s.phase with
      | idle => rw [hph] at hv; cases hv
      | waiting => rw [hph] at hv; cases hv
      | got q' =>
        rw [hph] at hv
        cases hv
        rcases hq with rfl | rfl <;> (simp only [step, hph, dispatch, Step.wait] at hs; cases hs; rfl)
    rcases step_inv i hv' with hb | ⟨s1, hb, hi⟩
    · rw [hb] at hs; cases hs
    · rw [hb] at hs; cases hs
      have hh : hist s .dispatch h = .req n q :: h := by simp only [hist, hv]
      rw [hh] at hi
      have hp' : Polite (.req n q :: h) (.pkt e) := by
        cases e <;> exact hp
      have hst : stopsIn (.req n q :: h) = stopsIn h := by rcases hq with rfl | rfl <;> rfl
      rcases pkt_inv hi hp' with ⟨-, h1 | h1⟩ | ⟨s', h1, -⟩
      · rw [hcc] at h1; cases h1
      · obtain ⟨h2, p, port, rfl, h3⟩ := h1
        rw [hst] at h2
        exact absurd (hin p port rfl h2) h3
      · exact ⟨s', h1⟩
  · intro x hx
    have hpo := i.c.ph
    unfold PhaseOk at hpo
    cases hph : s.phase with
    | idle => rw [hph] at hpo; rw [hpo.1] at hx; cases hx
    | got q => rw [hph] at hpo; rw [hpo.1] at hx; cases hx
    | waiting =>
      cases hr : s.reply with
      | some y =>
        refine ⟨.send, { s with phase := .idle }, .inl rfl, ?_⟩
        simp only [step, hph, hr]
      | none =>
        have hs := say_ok (s := { s with canContinue := false, breakNext := false }) (m := .keepAlive) hr
          (by simp [size])
        exact ⟨.timeout, _, .inr rfl, by simpa only [step, hph, hr] using hs⟩

/-! ## Consequences -/

/-- After what an attached client asked to stop at, no packet does anything before the client is told. -/
theorem C95_told {s : State} {h : List Vis} {e e' : Pkt} (r : Run s (.pkt e' :: .pkt e :: h)) :
    ¬ Stops h e ∨ attached h = false := by
  have g := (C95_partial r).1
  cases g with
  | pkt g hr _ =>
    rcases hr with hr | hr
    · exact .inr hr
    · exact .inl hr.2

/-- A change of configuration makes the debugger forget what the client asked for: the client is told (code 999, number 0),
and whatever packets do then does not stop them, though the client stays attached.  (After `next` this fails, see
`C95_refuted_cfg`.) -/
theorem C95_cfg {s s1 : State} (ha : s.attached = true) (hn : s.breakNext = false) (hs : step s .cfg = .ok s1) :
    s1.reply = some (0, .status 999) ∧ s1.attached = true ∧
    ∀ e, step s1 (.pkt e) ≠ .blocked ∧
      ∀ s2, step s1 (.pkt e) = .ok s2 → s2.reply = s1.reply ∧ ∀ e', step s2 (.pkt e') ≠ .blocked := by
  simp only [step, cfg, ha, Bool.not_true, Bool.false_eq_true, if_false] at hs
  by_cases hc : s.canContinue = true
  case neg => rw [if_neg hc] at hs; cases hs
  rw [if_pos hc] at hs
  simp only [say] at hs
  rw [if_neg (by simp [size])] at hs
  have hr : (resetState s).reply = s.reply := rfl
  rw [hr] at hs
  cases hrep : s.reply with
  | some x => rw [hrep] at hs; cases hs
  | none =>
  rw [hrep] at hs
  cases hs
  have key : ∀ (t : State), t.canContinue = true → t.stopIn = false → ∀ e, step t (.pkt e) ≠ .blocked := by
    intro t h1 h2 e
    cases e with
    | enter p port =>
      simp only [step, pkt, h1, h2, Bool.false_and, Bool.not_false, Bool.and_true, if_true, enter, say]
      repeat' split
      all_goals nofun
    | leave p =>
      simp only [step, pkt, h1, if_true, leave]
      repeat' split
      all_goals nofun
    | upd p id b =>
      simp only [step, pkt, h1, if_true, update, say]
      repeat' split
      all_goals nofun
    | ctr p v =>
      simp only [step, pkt, h1, if_true, counter, update, say]
      repeat' split
      all_goals nofun
  refine ⟨rfl, ha, fun e => ⟨key _ (by exact hc) (by rfl) e, ?_⟩⟩
  intro s2 h2
  have keep : s2.canContinue = true ∧ s2.stopIn = false ∧ s2.reply = some (0, .status 999) := by
    cases e with
    | enter p port =>
      simp only [step, pkt, resetState, hc, Bool.false_and, Bool.not_false, Bool.and_true, if_true, enter, hn, Bool.or_self,
        Bool.and_false, Bool.false_eq_true, if_false] at h2
      split at h2
      · cases h2
      · cases h2; exact ⟨rfl, rfl, rfl⟩
    | leave p =>
      simp only [step, pkt, resetState, hc, if_true, leave] at h2
      split at h2
      · cases h2
      · cases h2; exact ⟨rfl, rfl, rfl⟩
    | upd p id b =>
      simp only [step, pkt, resetState, hc, if_true, update, hn, List.contains_nil, Bool.or_self, Bool.and_false,
        Bool.false_eq_true, if_false] at h2
      split at h2
      · cases h2
      · cases h2; exact ⟨rfl, rfl, rfl⟩
    | ctr p v =>
      simp only [step, pkt, resetState, hc, if_true, counter, update, hn, List.contains_nil, Bool.or_self, Bool.and_false,
        Bool.false_eq_true, if_false] at h2
      repeat' split at h2
      all_goals cases h2
      all_goals exact ⟨rfl, rfl, rfl⟩
  exact ⟨keep.2.2, key _ keep.1 keep.2.1⟩

/-! ## Concrete cases -/

namespace Ex

instance (h : List Vis) (v : Vis) : Decidable (Polite h v) := by
  cases v with
  | req n r => cases r <;> (simp only [Polite]; infer_instance)
  | rep n m => exact isTrue trivial
  | pkt e => cases e <;> (simp only [Polite]; infer_instance)
  | cfg => simp only [Polite]; infer_instance

/-- What is seen of a step is polite. -/
def politeB (s : State) (h : List Vis) (a : Act) : Bool :=
  match vis s a with
  | none => true
  | some v => decide (Polite h v)

/-- Runs a list of actions, with what is seen: `none` if one is blocked, `some none` if one fails. -/
def exec (s : State) (h : List Vis) : List Act → Option (Option (State × List Vis))
  | [] => some (some (s, h))
  | a :: l => match step s a with
    | .blocked => none
    | .bad => some none
    | .ok s' => exec s' (hist s a h) l

/-- All of it is polite. -/
def allPolite (s : State) (h : List Vis) : List Act → Bool
  | [] => true
  | a :: l => politeB s h a && match step s a with
    | .ok s' => allPolite s' (hist s a h) l
    | _ => true

theorem exec_run {l : List Act} : ∀ {s s' : State} {h h' : List Vis}, Run s h → allPolite s h l = true →
    exec s h l = some (some (s', h')) → Run s' h' := by
  induction l with
  | nil => intro s s' h h' r _ he; cases he; exact r
  | cons a l ih =>
    intro s s' h h' r hp he
    simp only [allPolite, exec, Bool.and_eq_true] at hp he
    cases hs : step s a with
    | blocked => rw [hs] at he; cases he
    | bad => rw [hs] at he; cases he
    | ok s1 =>
      rw [hs] at hp he
      refine ih (.step a r hs ?_) hp.2 he
      intro v hv
      have := hp.1
      simp only [politeB, hv, decide_eq_true_eq] at this
      exact this

/-- What is seen. -/
def seen (l : List Act) : Option (Option (List Vis)) := (exec {} [] l).map fun x => x.map Prod.snd

theorem seen_run {l : List Act} {h : List Vis} (hp : allPolite {} [] l = true) (hs : seen l = some (some h)) :
    ∃ s, Run s h := by
  unfold seen at hs
  cases he : exec {} [] l with
  | none => rw [he] at hs; cases hs
  | some x =>
    cases x with
    | none => rw [he] at hs; cases hs
    | some y =>
      obtain ⟨s', h'⟩ := y
      rw [he] at hs
      cases hs
      exact ⟨s', exec_run .init hp he⟩

/-- A client attaches, watches field 7, goes on, packet (3, 0) comes in and writes fields 6 and 7; the
client is told of field 7, asks for field 6 and leaves. -/
def session : List Act :=
  [.recv 1 .attach, .dispatch, .send, .recv 2 (.watch 7), .dispatch, .send, .recv 3 .cont, .dispatch,
   .pkt (.enter (3, 0) 1), .pkt (.upd (3, 0) 6 [1]), .pkt (.upd (3, 0) 7 [2]), .send,
   .recv 4 (.getValue (3, 0) 6), .dispatch, .send, .recv 5 .detach, .dispatch, .pkt (.leave (3, 0)), .send]

/-- A polite execution. -/
theorem C95_case : ∃ s, Run s
    [.rep 0 (.status 0), .pkt (.leave (3, 0)), .req 5 .detach, .rep 4 (.field (3, 0) 6 [1]), .req 4 (.getValue (3, 0) 6),
     .rep 3 (.field (3, 0) 7 [2]), .pkt (.upd (3, 0) 7 [2]), .pkt (.upd (3, 0) 6 [1]), .pkt (.enter (3, 0) 1), .req 3 .cont,
     .rep 2 (.status 0), .req 2 (.watch 7), .rep 0 (.status 0), .req 1 .attach] :=
  seen_run (l := session) (by decide +kernel) (by decide +kernel)

/-- Another: packet 3 is followed step by step; no new packets are let in, copies are; packet 4 is not
chosen. -/
theorem C95_case_next : ∃ s, Run s
    [.rep 6 .keepAlive, .pkt (.ctr (4, 0) 9), .req 6 .cont, .rep 5 (.packetIn (3, 1) 2), .pkt (.enter (3, 1) 2), .req 5 .next,
     .rep 4 (.field (3, 0) ctrField [0, 0, 0, 5]), .pkt (.ctr (3, 0) 5), .req 4 .next, .rep 3 (.status 0), .req 3 (.filter [(3, anyCopy)]),
     .rep 2 (.status 0), .req 2 .stopIn, .rep 0 (.status 0), .req 1 .attach, .pkt (.enter (4, 0) 0),
     .pkt (.enter (3, 0) 1)] :=
  seen_run (l := [.pkt (.enter (3, 0) 1), .pkt (.enter (4, 0) 0), .recv 1 .attach, .dispatch, .send,
    .recv 2 .stopIn, .dispatch, .send, .recv 3 (.filter [(3, anyCopy)]), .dispatch, .send,
    .recv 4 .next, .dispatch, .pkt (.ctr (3, 0) 5), .send, .recv 5 .next, .dispatch, .pkt (.enter (3, 1) 2), .send,
    .recv 6 .cont, .dispatch, .pkt (.ctr (4, 0) 9), .timeout, .send]) (by decide +kernel) (by decide +kernel)

/-- The reply to `attach` has not the number of the request. -/
theorem C95_refuted_number : ∃ s h, Run s h ∧ ¬ Good sameNum h := by
  obtain ⟨s, r⟩ := seen_run (l := [.recv 1 .attach, .dispatch, .send])
    (h := [.rep 0 (.status 0), .req 1 .attach]) (by decide +kernel) (by decide +kernel)
  refine ⟨s, _, r, ?_⟩
  intro g
  generalize hm : Msg.status 0 = m at g
  generalize hk : (0 : Nat) = k at g
  generalize hh : [Vis.req 1 Req.attach] = h at g
  cases g with
  | answer g hp ha => subst hh; cases hp; cases hk
  | stop g hp ha hs => cases hh
  | alive g hp ha hs => cases hm

/-- A change of configuration while a field is watched and new packets are kept out. -/
theorem C95_case_cfg :
    seen [.recv 1 .attach, .dispatch, .send, .recv 2 (.watch 7), .dispatch, .send, .recv 3 .stopIn, .dispatch, .send,
      .recv 4 .cont, .dispatch, .cfg, .send, .pkt (.enter (3, 0) 1), .pkt (.upd (3, 0) 7 [2])]
      = some (some [.pkt (.upd (3, 0) 7 [2]), .pkt (.enter (3, 0) 1), .rep 0 (.status 999), .cfg, .req 4 .cont,
        .rep 3 (.status 0), .req 3 .stopIn, .rep 2 (.status 0), .req 2 (.watch 7), .rep 0 (.status 0), .req 1 .attach]) := by
  decide +kernel

/-- `next`, then a change of configuration: the next packet that comes in makes an assertion fail. -/
theorem C95_refuted_cfg :
    seen [.recv 1 .attach, .dispatch, .send, .recv 2 .next, .dispatch, .cfg, .send, .pkt (.enter (3, 0) 1)]
      = some none := by decide +kernel

/-- The same after the client has left. -/
theorem C95_refuted_cfg_detached :
    seen [.recv 1 .attach, .dispatch, .send, .recv 2 .next, .dispatch, .cfg, .send, .recv 3 .detach, .dispatch,
      .send, .pkt (.enter (3, 0) 1)] = some none := by decide +kernel

/-- The reply for a field of 209 bytes does not fit into the buffer. -/
theorem C95_refuted_long :
    seen [.recv 1 .attach, .dispatch, .send, .recv 2 (.watch 7), .dispatch, .send, .recv 3 .cont, .dispatch,
      .pkt (.enter (3, 0) 1), .pkt (.upd (3, 0) 7 (List.replicate 209 0))] = some none := by decide +kernel

/-- A client that is not attached watches a field: a packet that writes it makes an assertion fail. -/
theorem C95_refuted_watch :
    seen [.recv 1 (.watch 7), .dispatch, .send, .pkt (.enter (3, 0) 1), .pkt (.upd (3, 0) 7 [1])] = some none := by
  decide +kernel

/-- A client that is not attached says `continue`: packets are held up from then on. -/
theorem C95_refuted_continue :
    (seen [.recv 1 .cont, .dispatch, .timeout, .send]).isSome = true ∧
    seen [.recv 1 .cont, .dispatch, .timeout, .send, .pkt (.enter (3, 0) 1)] = none := by
  decide +kernel

/-- A filter with 31 packets is longer than the buffer for requests. -/
theorem C95_refuted_filter :
    seen [.recv 1 .attach, .dispatch, .send, .recv 2 (.filter (List.replicate 31 (3, 0))), .dispatch] = some none := by
  decide +kernel

end Ex

end Bm.Debugger
