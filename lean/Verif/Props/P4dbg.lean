import Verif.Lemmas.P4dbgRx

/-!
# C109: the command line tool of the debugger

The tool and the debugger of the switch talk to each other by messages of bytes.  What the user sees must follow from
what the user did and what packets did: `Good` (`Verif.Spec.P4dbg`).

`C109_full` is the full claim: whatever the user types and whatever packets do, the session is good, `continue` ends
without an event only if it was interrupted, and nothing fails.  It is false (see the `refuted` theorems); proved is
`C109_partial`: for commands the tool does not fail at (`Careful`), where an interrupt may also end a later `continue`
(`Stale`).
-/

namespace Bm.P4dbg

open Bm.Debugger.Spec (Pid Pkt Req Msg Vis attached inside)
open Bm.P4dbg.Spec

/-- What may happen. -/
def CarefulAct (P : Program) (u : List UVis) : Act → Prop
  | .cmd c => Careful P u c
  | .kill => Fresh u ∧ u.length + 1 < 2 ^ 64
  | .pkt e => Fits P u e
  | .cfg => on u = false
  | _ => True

/-- Sessions in which `A` holds of what happens. -/
inductive Session (P : Program) (A : List UVis → Act → Prop) : Debugger.State → Mode → List UVis → Prop
  | init : Session P A {} .off []
  | step {s s' : Debugger.State} {m m' : Mode} {u v : List UVis} (a : Act) : Session P A s m u →
      step P s m a = some (s', m', v) → A u a → Session P A s' m' (v ++ u)

/-- Only packets are restricted. -/
def AnyAct (P : Program) (u : List UVis) : Act → Prop
  | .pkt e => Fits P u e
  | _ => True

/-- The full claim (false, see below). -/
def C109_full : Prop := ∀ P : Program, P.Ok → ∀ s m u, Session P (AnyAct P) s m u → Good P Interrupted u ∧ m ≠ .dead

theorem session_inv {P : Program} (ok : P.Ok) {s : Debugger.State} {m : Mode} {u : List UVis}
    (r : Session P (CarefulAct P) s m u) : ∃ h, SI P s m h u := by
  induction r with
  | init =>
    exact ⟨[], ⟨.init, rfl, ⟨fun e he => (by cases he), fun p => (by simp [Bm.Debugger.Spec.places]),
      fun p v hv => (by cases hv)⟩, ⟨rfl, rfl, rfl⟩, .nil⟩⟩
  | step a _ hs hc ih =>
    obtain ⟨h, i⟩ := ih
    cases a with
    | up => exact up_step i hs
    | cmd c => exact cmd_step ok i hc hs
    | tx => exact tx_step i hs
    | rx => exact rx_step ok i hs
    | intr => exact intr_step i hs
    | kill => exact kill_step ok i hc.1 hc.2 hs
    | dispatch => exact dispatch_step i hs
    | timeout => exact timeout_step i hs
    | pkt e => exact pkt_step ok i hc hs
    | cfg => exact cfg_step i hc hs

theorem dispatch_free (s : Debugger.State) (r : Req) : Debugger.dispatch s r ≠ .blocked := by
  have hsay : ∀ s m, Debugger.say s m ≠ .blocked := by
    intro s m; unfold Debugger.say; split
    · simp
    · split <;> simp
  cases r <;> simp only [Debugger.dispatch] <;> first | exact hsay _ _ | (simp; done) | skip
  · split
    · exact hsay _ _
    · split <;> exact hsay _ _
  · split <;> exact hsay _ _
  · split <;> exact hsay _ _
  · split <;> exact hsay _ _
  · split
    · simp
    · exact hsay _ _
  · split <;> exact hsay _ _
  · split <;> exact hsay _ _
  · split <;> exact hsay _ _

theorem sw_some {s : Debugger.State} {a : Debugger.Act} (h : Debugger.step s a ≠ .blocked) (m : Mode) (v : List UVis) :
    sw s m a v ≠ none := by
  unfold sw
  cases hd : Debugger.step s a with
  | ok s' => simp
  | bad => simp
  | blocked => exact absurd hd h

/-- C109 (partial): for careful users, sessions are good but for interrupts that come too late, and nothing fails: no
assertion, no exception, no message that is not understood. -/
theorem C109_partial {P : Program} (ok : P.Ok) {s : Debugger.State} {m : Mode} {u : List UVis}
    (r : Session P (CarefulAct P) s m u) : Good P Stale u ∧ m ≠ .dead := by
  obtain ⟨h, i⟩ := session_inv ok r
  refine ⟨i.good, ?_⟩
  rintro rfl
  exact i.mi

/-- Nobody waits for ever: while a command is not done the tool or the switch can go on by itself; and packets are
not held up while the tool is not running. -/
theorem C109_progress {P : Program} (ok : P.Ok) {s : Debugger.State} {m : Mode} {u : List UVis}
    (r : Session P (CarefulAct P) s m u) :
    (∀ c, pend u = some c → ∃ a, (a = .tx ∨ a = .dispatch ∨ a = .timeout ∨ a = .rx) ∧ step P s m a ≠ none) ∧
    (on u = false → ∀ e, Fits P u e → step P s m (.pkt e) ≠ none) := by
  obtain ⟨h, i⟩ := session_inv ok r
  have hm := i.mi
  constructor
  · intro c hc
    cases m with
    | dead => exact hm.elim
    | off => exact (off_pend i.good hm.1 c hc).elim
    | prompt t => rw [hm.2.1] at hc; cases hc
    | sending t c b =>
      obtain ⟨h1, h2, h3, h4, n, r, h5, h6, hb⟩ := hm
      refine ⟨.tx, .inl rfl, ?_⟩
      simp only [step, h5]
      exact sw_some (by simp [Debugger.step, h3]) _ _
    | busy t c b =>
      obtain ⟨h1, h2, h4, n, r, h5, h6, hb⟩ := hm
      rcases hb with ⟨h3, h7, hb⟩ | ⟨h3, h0, h7, hb⟩
      · refine ⟨.dispatch, .inr (.inl rfl), ?_⟩
        simp only [step]
        refine sw_some ?_ _ _
        simp only [Debugger.step, h3]
        have := dispatch_free s r
        cases hd : Debugger.dispatch s r with
        | ok s' => simp [Debugger.Step.wait]
        | bad => simp [Debugger.Step.wait]
        | blocked => exact absurd hd this
      · cases hr : s.reply with
        | none =>
          refine ⟨.timeout, .inr (.inr (.inl rfl)), ?_⟩
          simp only [step]
          refine sw_some ?_ _ _
          simp only [Debugger.step, h3, hr]
          unfold Debugger.say
          split
          · simp
          · split <;> simp
        | some km =>
          refine ⟨.rx, .inr (.inr (.inr rfl)), ?_⟩
          simp only [step, hr]
          cases hx : extract (encode km.1 km.2) with
          | none => simp
          | some y => exact sw_some (by simp [Debugger.step, h3, hr]) _ _
  · intro ho e hf
    cases m with
    | dead => exact hm.elim
    | prompt t => rw [hm.1] at ho; cases ho
    | sending t c b => rw [hm.1] at ho; cases ho
    | busy t c b => rw [hm.1] at ho; cases ho
    | off =>
      obtain ⟨s', hs'⟩ := (Debugger.C95_partial i.run).2.2.1 e hm.2.1 (fits_pk i.same hf).1
      simp only [step]
      exact sw_some (by rw [hs']; simp) _ _

/-- Every message of the switch is read by the tool as it was sent. -/
theorem C109_replies {n : Nat} {m : Msg} (hn : n < 2 ^ 64) (hm : FitsMsg m) : extract (encode n m) = some (n, m) :=
  extract_encode hn hm

/-- Every message of the tool is read by the switch as it was sent. -/
theorem C109_requests {n : Nat} (hn : n < 2 ^ 64) :
    (∀ ty r, plain ty = some r → ∃ b, generate n ty [] = some b ∧ decode b = some (n, r)) ∧
    (∀ id : Nat, id < 2 ^ 64 → (∃ b, generate n 13 [(id : Int)] = some b ∧ decode b = some (n, .watch id)) ∧
      (∃ b, generate n 14 [(id : Int)] = some b ∧ decode b = some (n, .unwatch id))) ∧
    (∀ p c : Nat, p < 2 ^ 64 → c < 2 ^ 64 → (∃ b, generate n 6 [(p : Int), (c : Int)] = some b ∧ decode b = some (n, .getBacktrace (p, c))) ∧
      ∀ id : Nat, id < 2 ^ 64 → ∃ b, generate n 5 [(p : Int), (c : Int), (id : Int)] = some b ∧
        decode b = some (n, .getValue (p, c) id)) := by
  refine ⟨fun ty r => decode_plain hn, fun id hid => decode_watch hn hid, fun p c hp hc => ⟨?_, ?_⟩⟩
  · have := decode_backtrace (p := (p : Int)) (c := (c : Int)) hn (by omega) (by omega)
    simpa using this
  · intro id hid
    have := decode_value (p := (p : Int)) (c := (c : Int)) hn hid (by omega) (by omega)
    simpa using this

/-- Names and numbers belong together as in the program. -/
theorem C109_names {P : Program} (ok : P.Ok) :
    (∀ f id, fieldIdFrom P f = some id ↔ Named P f id) ∧
    (∀ id f, id ≠ condField → id ≠ actionField → (fieldName P id = some f ↔ Named P f id)) ∧
    (∀ t o v, lookupCtr P t o = some v ↔ Place P t o v) ∧
    (∀ t o v, v < 2 ^ 32 → (resolve P v = some (t, o) ↔ ∃ w, Place P t o w ∧ (v = w ∨ v = w + 2 ^ 31))) :=
  ⟨fieldIdFrom_iff ok, fun _ f h1 h2 => fieldName_iff ok h1 h2 f, lookupCtr_iff ok, fun t o _ hv => resolve_iff ok hv t o⟩

/-! ## Concrete sessions -/

/-- What is seen of each of the steps, and whether the tool or the switch failed. -/
def watch (P : Program) : Debugger.State → Mode → List Act → Option (List (List UVis))
  | _, _, [] => some []
  | s, m, a :: l => match step P s m a with
    | none => none
    | some (s', m', v) => (watch P s' m' l).map fun x => v :: x

/-- Where it ends: the tool, whether the switch lets packets go on, what was seen. -/
def finish (P : Program) : Debugger.State → Mode → List UVis → List Act → Option (Mode × Bool × List UVis)
  | s, m, u, [] => some (m, s.canContinue, u)
  | s, m, u, a :: l => match step P s m a with
    | none => none
    | some (s', m', v) => finish P s' m' (v ++ u) l

/-- All of it may happen. -/
def All (A : List UVis → Act → Prop) : List UVis → List Act → List (List UVis) → Prop
  | u, a :: l, v :: w => A u a ∧ All A (v ++ u) l w
  | _, _, _ => True

/-- What was seen, newest first. -/
def after : List UVis → List (List UVis) → List UVis
  | u, [] => u
  | u, v :: w => after (v ++ u) w

theorem watch_session {P : Program} {A : List UVis → Act → Prop} : ∀ {l : List Act} {w : List (List UVis)}
    {s : Debugger.State} {m : Mode} {u : List UVis}, Session P A s m u → watch P s m l = some w → All A u l w →
    ∃ s' m', Session P A s' m' (after u w) ∧ finish P s m u l = some (m', s'.canContinue, after u w) := by
  intro l
  induction l with
  | nil => intro w s m u r h _; cases h; exact ⟨s, m, r, rfl⟩
  | cons a l ih =>
    intro w s m u r h hA
    simp only [watch, finish] at h ⊢
    cases hs : step P s m a with
    | none => rw [hs] at h; cases h
    | some x =>
      obtain ⟨s', m', v⟩ := x
      rw [hs] at h
      simp only [Option.map_eq_some_iff] at h
      obtain ⟨w', h1, rfl⟩ := h
      exact ih (.step a r hs hA.1) h1 hA.2

/-- A program with one header and two objects. -/
def prog : Program where
  headers := [(0, "eth", ["dst", "src"])]
  objs := [(1, 0, "start"), (4, 3, "route")]

/-- The messages of one command. -/
def go (a : Act) : List Act := [a, .tx, .dispatch, .rx]

/-- A session with a watchpoint, a breakpoint, a packet, and the end. -/
def tour : List Act :=
  go .up ++ go (.cmd (.setWp "eth.dst")) ++ go (.cmd (.brk "table" "route")) ++
  [.cmd .cont, .tx, .dispatch, .pkt (.enter (5, 0) 2), .pkt (.ctr (5, 0) (2 ^ 24)), .rx, .tx, .dispatch,
    .pkt (.upd (5, 0) 1 [9]), .pkt (.upd (5, 0) 0 [1, 2]), .rx] ++
  go (.cmd (.print none "eth.dst")) ++ go (.cmd (.bt none)) ++
  [.cmd .cont, .tx, .dispatch, .pkt (.ctr (5, 0) (4 * 2 ^ 24 + 3)), .rx] ++
  go (.cmd .eof)

/-- What is seen of it. -/
def tourSeen : List (List UVis) :=
  [[.up], [], [], [.out .done], [.cmd (.setWp "eth.dst")], [], [], [.out .done], [.cmd (.brk "table" "route")], [], [], [.out .done],
    [.cmd .cont], [], [], [.pkt (.enter (5, 0) 2)], [.pkt (.ctr (5, 0) (2 ^ 24))], [], [], [],
    [.pkt (.upd (5, 0) 1 [9])], [.pkt (.upd (5, 0) 0 [1, 2])], [.out (.event (5, 0) (.field "eth.dst" [1, 2] 258))],
    [.cmd (.print none "eth.dst")], [], [], [.out (.value [1, 2] 258)],
    [.cmd (.bt none)], [], [], [.out (.trace [("parser", "start")])],
    [.cmd .cont], [], [], [.pkt (.ctr (5, 0) (4 * 2 ^ 24 + 3))], [.out (.event (5, 0) (.enter "table" "route"))],
    [.cmd .eof], [], [], [.out .bye]]

theorem tour_seen : watch prog {} .off tour = some tourSeen := by decide +kernel

theorem prog_named {f : String} {id : Nat} (h : Named prog f id) :
    (f = "$cond" ∧ id = 2 ^ 64 - 2) ∨ (f = "$action" ∧ id = 2 ^ 64 - 3) ∨ (f = "eth.dst" ∧ id = 0) ∨ (f = "eth.src" ∧ id = 1) ∨
      (f = "eth.$valid$" ∧ id = 2) := by
  rcases h with h | h | ⟨-, -, x, hx, i, n, hn, hf, hid⟩
  · exact .inl h
  · exact .inr (.inl h)
  · simp only [prog, List.mem_singleton] at hx
    subst hx
    rcases i with _ | _ | _ | i
    · cases hn; exact .inr (.inr (.inl ⟨hf.trans (by decide), hid⟩))
    · cases hn; exact .inr (.inr (.inr (.inl ⟨hf.trans (by decide), hid⟩)))
    · cases hn; exact .inr (.inr (.inr (.inr ⟨hf.trans (by decide), hid⟩)))
    · simp at hn

theorem prog_place {t o : String} {v : Nat} (h : Place prog t o v) :
    (t = "parser" ∧ o = "start" ∧ v = 2 ^ 24) ∨ (t = "table" ∧ o = "route" ∧ v = 4 * 2 ^ 24 + 3) := by
  obtain ⟨k, i, hm, ht, hv⟩ := h
  simp only [prog, List.mem_cons, List.not_mem_nil, or_false, Prod.mk.injEq] at hm
  rcases hm with ⟨hk, hi, ho⟩ | ⟨hk, hi, ho⟩
  · have : k = 0 := by omega
    subst this hi
    cases ht
    exact .inl ⟨rfl, ho, hv⟩
  · have : k = 3 := by omega
    subst this hi
    cases ht
    exact .inr ⟨rfl, ho, hv⟩

theorem prog_ok : prog.Ok := by
  refine ⟨?_, ?_, by decide, by decide, ?_, ?_, by decide⟩
  · intro f i j hi hj
    rcases prog_named hi with ⟨rfl, rfl⟩ | ⟨rfl, rfl⟩ | ⟨rfl, rfl⟩ | ⟨rfl, rfl⟩ | ⟨rfl, rfl⟩ <;>
      rcases prog_named hj with ⟨h, rfl⟩ | ⟨h, rfl⟩ | ⟨h, rfl⟩ | ⟨h, rfl⟩ | ⟨h, rfl⟩ <;> first | rfl | (exact absurd h (by decide))
  · intro f g i hi hj
    rcases prog_named hi with ⟨rfl, rfl⟩ | ⟨rfl, rfl⟩ | ⟨rfl, rfl⟩ | ⟨rfl, rfl⟩ | ⟨rfl, rfl⟩ <;>
      rcases prog_named hj with ⟨rfl, h⟩ | ⟨rfl, h⟩ | ⟨rfl, h⟩ | ⟨rfl, h⟩ | ⟨rfl, h⟩ <;> first | rfl | omega
  · intro t o v w hv hw
    rcases prog_place hv with ⟨rfl, rfl, rfl⟩ | ⟨rfl, rfl, rfl⟩ <;>
      rcases prog_place hw with ⟨h, -, rfl⟩ | ⟨h, -, rfl⟩ <;> first | rfl | (exact absurd h (by decide))
  · intro t o t' o' v hv hw
    rcases prog_place hv with ⟨rfl, rfl, rfl⟩ | ⟨rfl, rfl, rfl⟩ <;>
      rcases prog_place hw with ⟨rfl, rfl, h⟩ | ⟨rfl, rfl, h⟩ <;> first | exact ⟨rfl, rfl⟩ | omega

theorem prog_dst : Named prog "eth.dst" 0 := .inr (.inr ⟨by decide, by decide, _, List.mem_singleton.mpr rfl, 0, "dst", rfl, by decide, rfl⟩)

theorem prog_src : Named prog "eth.src" 1 := .inr (.inr ⟨by decide, by decide, _, List.mem_singleton.mpr rfl, 1, "src", rfl, by decide, rfl⟩)

theorem prog_start : Place prog "parser" "start" (2 ^ 24) := ⟨0, 0, by simp [prog], rfl, rfl⟩

theorem prog_route : Place prog "table" "route" (4 * 2 ^ 24 + 3) := ⟨3, 3, by simp [prog], rfl, rfl⟩

theorem tour_careful : All (CarefulAct prog) [] tour tourSeen := by
  have k : ∀ {n : Nat}, n < 100 → n + 1 < 2 ^ 64 := by omega
  refine ⟨trivial, trivial, trivial, trivial, ⟨k (by decide), by simp, trivial⟩, trivial, trivial, trivial,
    ⟨k (by decide), by simp, trivial⟩, trivial, trivial, trivial,
    ⟨k (by decide), by simp, trivial⟩, trivial, trivial, ⟨rfl, by decide, by decide, by decide, by decide⟩,
    ⟨⟨rfl, by decide, by decide⟩, by decide, by decide, ⟨_, _, _, prog_start, .inl rfl⟩, by decide⟩, trivial, trivial, trivial,
    ⟨⟨rfl, by decide⟩, by decide, by decide, _, prog_src⟩, ⟨⟨rfl, by decide⟩, by decide, by decide, _, prog_dst⟩, trivial,
    ⟨k (by decide), by simp, trivial⟩, trivial, trivial, trivial, ⟨k (by decide), by simp, trivial⟩, trivial, trivial, trivial,
    ⟨k (by decide), by simp, trivial⟩, trivial, trivial,
    ⟨⟨rfl, by decide, by decide⟩, by decide, by decide, ⟨_, _, _, prog_route, .inl rfl⟩, by decide⟩, trivial,
    ⟨k (by decide), by simp, trivial⟩, trivial, trivial, trivial, trivial⟩

/-- `C109_partial` is about sessions like this one. -/
example : ∃ s m, Session prog (CarefulAct prog) s m (after [] tourSeen) ∧ (after [] tourSeen).length = 21 := by
  obtain ⟨s, m, r, -⟩ := watch_session .init tour_seen tour_careful
  exact ⟨s, m, r, by decide⟩

/-- A message of the switch. -/
example : extract (encode 7 (.field (5, 0) 1 [0xab, 0xcd])) = some (7, .field (5, 0) 1 [0xab, 0xcd]) :=
  C109_replies (by omega) ⟨by decide, by decide, by decide, by decide⟩

/-! ## What is not as it should be -/

/-- `filter_notifications` always fails: it puts together a `str` and `bytes`. -/
theorem C109_refuted_filter (P : Program) (s : Debugger.State) (t : Tool) (l : List (Int × Int)) :
    step P s (.prompt t) (.cmd (.filter l)) = some (s, .dead, [.cmd (.filter l)]) := rfl

/-- The tool or the switch failed. -/
def fails (l : List Act) : Prop := ∃ b u, finish prog {} .off [] l = some (.dead, b, u)

instance (l : List Act) : Decidable (fails l) :=
  match h : finish prog {} .off [] l with
  | some (.dead, b, u) => .isTrue ⟨b, u, h⟩
  | none => .isFalse (by rintro ⟨b, u, h'⟩; rw [h] at h'; cases h')
  | some (.off, _, _) => .isFalse (by rintro ⟨b, u, h'⟩; rw [h] at h'; cases h')
  | some (.prompt _, _, _) => .isFalse (by rintro ⟨b, u, h'⟩; rw [h] at h'; cases h')
  | some (.sending _ _ _, _, _) => .isFalse (by rintro ⟨b, u, h'⟩; rw [h] at h'; cases h')
  | some (.busy _ _ _, _, _) => .isFalse (by rintro ⟨b, u, h'⟩; rw [h] at h'; cases h')

/-- `remove_packet_in` fails if there was no `break_packet_in` (the attribute is not there), as does `resume_packet_in`. -/
theorem C109_refuted_remove : fails (go .up ++ [.cmd .removeIn]) ∧ fails (go .up ++ [.cmd .resumeIn]) := by decide +kernel

/-- `reset` does not reset it: the switch says that there is nothing to be removed, and the tool fails. -/
theorem C109_refuted_reset :
    fails (go .up ++ go (.cmd .breakIn) ++ go (.cmd .reset) ++ go (.cmd .removeIn)) ∧
    fails (go .up ++ go (.cmd .stopIn) ++ go (.cmd .reset) ++ go (.cmd .resumeIn)) := by decide +kernel

/-- `show_wps` fails if there is a watchpoint for `$cond` or `$action`. -/
theorem C109_refuted_show :
    fails (go .up ++ go (.cmd (.setWp "$cond")) ++ [.cmd .showWps]) ∧
    fails (go .up ++ go (.cmd (.setWp "$action")) ++ [.cmd .showWps]) := by decide +kernel

/-- A negative number of a packet, or one that is too large, is not an error message: the tool fails. -/
theorem C109_refuted_packet :
    fails (go .up ++ [.cmd (.print (some (-1, 0)) "eth.dst")]) ∧ fails (go .up ++ [.cmd (.bt (some (0, 2 ^ 64)))]) := by
  decide +kernel

/-- After `reset` the tool thinks that it is not attached: interrupted at the prompt it ends without detaching, and the
packets are held up. -/
theorem C109_refuted_kill : ∃ s u, Session prog (AnyAct prog) s .off u ∧ on u = false ∧
    ∀ e, step prog s .off (.pkt e) = none := by
  have hw : watch prog {} .off (go .up ++ go (.cmd .reset) ++ [.kill]) =
      some [[.up], [], [], [.out .done], [.cmd .reset], [], [], [.out .done], [.out .bye, .cmd .eof]] := by decide +kernel
  obtain ⟨s, m, r, hf⟩ := watch_session (A := AnyAct prog) .init hw
    ⟨trivial, trivial, trivial, trivial, trivial, trivial, trivial, trivial, trivial, trivial⟩
  have hf' : finish prog {} .off [] (go .up ++ go (.cmd .reset) ++ [.kill]) = some (.off, false,
      [.out .bye, .cmd .eof, .out .done, .cmd .reset, .out .done, .up]) := by decide +kernel
  rw [hf'] at hf
  simp only [Option.some.injEq, Prod.mk.injEq] at hf
  obtain ⟨rfl, hc, -⟩ := hf
  refine ⟨s, _, r, rfl, ?_⟩
  intro e
  have hb : Debugger.step s (.pkt e) = .blocked := by
    cases e <;> simp [Debugger.step, Debugger.pkt, ← hc]
  simp only [step, sw, hb]

/-- Started again, the tool does not look at the reply to `attach` (it is attached still), and fails when the packet sets a
field that was watched before. -/
theorem C109_refuted_again :
    fails (go .up ++ go (.cmd .reset) ++ go (.cmd (.setWp "eth.dst")) ++ [.kill] ++ go .up ++
      [.cmd .cont, .tx, .dispatch, .pkt (.enter (5, 0) 2), .pkt (.upd (5, 0) 0 [1, 2]), .rx]) := by decide +kernel

/-- `continue`, an interrupt, then an event before the switch says that it is alive. -/
def late : List Act :=
  go .up ++ go (.cmd (.setWp "eth.dst")) ++
  [.cmd .cont, .tx, .dispatch, .pkt (.enter (5, 0) 2), .intr, .pkt (.upd (5, 0) 0 [1, 2]), .rx,
    .cmd .cont, .tx, .dispatch, .timeout, .rx]

/-- What is seen of it. -/
def lateSeen : List (List UVis) :=
  [[.up], [], [], [.out .done], [.cmd (.setWp "eth.dst")], [], [], [.out .done],
    [.cmd .cont], [], [], [.pkt (.enter (5, 0) 2)], [.intr], [.pkt (.upd (5, 0) 0 [1, 2])],
    [.out (.event (5, 0) (.field "eth.dst" [1, 2] 258))], [.cmd .cont], [], [], [], [.out .stopped]]

theorem late_seen : watch prog {} .off late = some lateSeen := by decide +kernel

theorem late_careful : All (CarefulAct prog) [] late lateSeen := by
  have k : ∀ {n : Nat}, n < 100 → n + 1 < 2 ^ 64 := by omega
  exact ⟨trivial, trivial, trivial, trivial, ⟨k (by decide), by simp, trivial⟩, trivial, trivial, trivial,
    ⟨k (by decide), by simp, trivial⟩, trivial, trivial, ⟨rfl, by decide, by decide, by decide, by decide⟩, trivial,
    ⟨⟨rfl, by decide⟩, by decide, by decide, _, prog_dst⟩, trivial, ⟨k (by decide), by simp, trivial⟩, trivial, trivial, trivial,
    trivial, trivial⟩

/-- An interrupt that comes just before an event ends the next `continue`, which nobody interrupted, though the program
has not stopped. -/
theorem C109_refuted_interrupt : ∃ s m u, Session prog (CarefulAct prog) s m u ∧ ¬ Good prog Interrupted u := by
  obtain ⟨s, m, r, -⟩ := watch_session .init late_seen late_careful
  refine ⟨s, m, _, r, ?_⟩
  intro g
  change Good prog Interrupted (.out .stopped :: .cmd .cont :: _) at g
  cases g with
  | answer _ hg => cases hg
  | stopped _ _ _ _ hi => exact hi

/-- The full claim is false. -/
theorem C109_refuted : ¬ C109_full := by
  intro h
  have hw : watch prog {} .off (go .up ++ [.cmd .removeIn]) = some [[.up], [], [], [.out .done], [.cmd .removeIn]] := by
    decide +kernel
  obtain ⟨s, m, r, hf⟩ := watch_session (A := AnyAct prog) .init hw ⟨trivial, trivial, trivial, trivial, trivial, trivial⟩
  have hf' : finish prog {} .off [] (go .up ++ [.cmd .removeIn]) = some (.dead, false, [.cmd .removeIn, .out .done, .up]) := by
    decide +kernel
  rw [hf'] at hf
  simp only [Option.some.injEq, Prod.mk.injEq] at hf
  exact (h prog prog_ok s m _ r).2 hf.1.symm

/-- After a change of configuration the tool goes on with the names of the old one. -/
theorem C109_refuted_config : useConfig (some prog) { headers := [], objs := [] } = prog := rfl

end Bm.P4dbg
