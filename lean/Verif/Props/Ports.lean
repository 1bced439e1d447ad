import Verif.Lemmas.Ports

/-!
# C77: the port monitor.  C78: ports and packets received as messages
-/

namespace Bm.Ports

open Spec

/-- **C77**: every port follows its life (added, up, down, ..., removed), whatever any number of threads do: the events
accepted for the port lead from "not there" to what the monitor has in its table. -/
theorem C77_protocol {w : Bool} {n : Nat} {ls : List Label} {m : Mon} (h : (Mon.new w n).run ls = some m) (p : Nat) :
    Life none (evsOf p m.acc) (m.ports.lookup p) :=
  (mon_run_ind (P := LifeInv) (Q := fun _ => True) (fun _ _ _ h1 _ h2 => lifeInv_step h1 h2) ls _ m
    (lifeInv_new w n []) (fun _ _ => trivial) h).life p

/-- **C77**: `notify` accepts exactly the events that may happen next to the port; others have no effect. -/
theorem C77_accepted {w : Bool} {n : Nat} {ls : List Label} {m : Mon} (h : (Mon.new w n).run ls = some m) {t p : Nat}
    {e : Ev} {m' : Mon} (hs : m.step (.notify t p e) = some m') :
    ((∃ s, Life none (evsOf p m.acc ++ [e]) s) → m'.acc = m.acc ++ [(p, e)]) ∧
    ((¬ ∃ s, Life none (evsOf p m.acc ++ [e]) s) → m' = m) := by
  have hi := mon_run_ind (P := LifeInv) (Q := fun _ => True) (fun _ _ _ h1 _ h2 => lifeInv_step h1 h2) ls _ m
    (lifeInv_new w n []) (fun _ _ => trivial) h
  -- the state reached by a list of events is unique
  have uniq : ∀ {a es s s'}, Life a es s → Life a es s' → s = s' := by
    intro a es s s' h1 h2
    have h3 := life_fold h1
    rw [life_fold h2] at h3
    exact (Option.some.inj h3).symm
  have back : ∀ {s}, Life none (evsOf p m.acc ++ [e]) s → ∃ s', Life (m.ports.lookup p) [e] s' := by
    intro s h1
    generalize hz : evsOf p m.acc ++ [e] = z at h1
    cases h1 with
    | nil => simp at hz
    | added h1 =>
      obtain ⟨h2, h3⟩ := List.append_inj' hz rfl
      cases h3
      rw [← h2] at h1
      rw [uniq (hi.life p) h1]
      exact ⟨_, .added (es := []) (.nil _)⟩
    | up h1 =>
      obtain ⟨h2, h3⟩ := List.append_inj' hz rfl
      cases h3
      rw [← h2] at h1
      rw [uniq (hi.life p) h1]
      exact ⟨_, .up (es := []) (.nil _)⟩
    | down h1 =>
      obtain ⟨h2, h3⟩ := List.append_inj' hz rfl
      cases h3
      rw [← h2] at h1
      rw [uniq (hi.life p) h1]
      exact ⟨_, .down (es := []) (.nil _)⟩
    | removed h1 =>
      obtain ⟨h2, h3⟩ := List.append_inj' hz rfl
      cases h3
      rw [← h2] at h1
      rw [uniq (hi.life p) h1]
      exact ⟨_, .removed (es := []) (.nil _)⟩
  rcases step_inv hs with ⟨_, _, hl, _⟩ | ⟨t', p', e', hl, hj, ha, rfl⟩ | ⟨t', p', e', ports, hl, hj, ha, rfl⟩ |
    ⟨_, _, hl, _⟩ | ⟨_, _, _, hl, _⟩
  · cases hl
  · cases hl
    refine ⟨?_, fun _ => rfl⟩
    rintro ⟨s, h1⟩
    obtain ⟨l', h2⟩ := (accept_iff hi.keys p e).2 (back h1)
    rw [ha] at h2
    cases h2
  · cases hl
    refine ⟨fun _ => rfl, ?_⟩
    intro hne
    obtain ⟨s, h1⟩ := (accept_iff hi.keys p e).1 ⟨_, ha⟩
    exact absurd ⟨s, life_trans (hi.life p) h1⟩ hne
  · cases hl
  · cases hl

/-- **C77**: the active monitor gives every port it knows the status found, and the events are exactly the changes, by
port number. -/
theorem C77_poll {w : Bool} {n : Nat} {ls : List Label} {m : Mon} (h : (Mon.new w n).run ls = some m) {t : Nat}
    {up : Nat → Bool} {m' : Mon} (hs : m.step (.poll t up) = some m') :
    (∀ p, m'.ports.lookup p = (m.ports.lookup p).map fun _ => up p) ∧
    ∃ found, m'.acc = m.acc ++ found ∧ (found.Pairwise fun x y => x.1 < y.1) ∧
      ∀ p e, (p, e) ∈ found ↔ ∃ b, m.ports.lookup p = some b ∧ b ≠ up p ∧ e = if up p then .up else .down := by
  have hi := mon_run_ind (P := LifeInv) (Q := fun _ => True) (fun _ _ _ h1 _ h2 => lifeInv_step h1 h2) ls _ m
    (lifeInv_new w n []) (fun _ _ => trivial) h
  rcases step_inv hs with ⟨_, _, hl, _⟩ | ⟨_, _, _, hl, _⟩ | ⟨_, _, _, _, hl, _⟩ | ⟨t', up', hl, hj, rfl⟩ |
    ⟨_, _, _, hl, _⟩
  · cases hl
  · cases hl
  · cases hl
  · cases hl
    obtain ⟨h1, h2⟩ := pollTodo_spec hi.keys up
    refine ⟨lookup_pollTable m.ports up, pollTodo m.ports up, rfl, h1, ?_⟩
    intro p e
    rw [h2]
    constructor
    · rintro (⟨h3, h4, rfl⟩ | ⟨h3, h4, rfl⟩)
      · exact ⟨true, h3, by simp [h4], by simp [h4]⟩
      · exact ⟨false, h3, by simp [h4], by simp [h4]⟩
    · rintro ⟨b, h3, h4, rfl⟩
      cases b with
      | true =>
        have h5 : up p = false := by
          cases hu : up p
          · rfl
          · simp [hu] at h4
        exact .inl ⟨h3, h5, by simp [h5]⟩
      | false =>
        have h5 : up p = true := by
          cases hu : up p
          · simp [hu] at h4
          · rfl
        exact .inr ⟨h3, h5, by simp [h5]⟩
  · cases hl

/-- **C77**: no event is lost and none is delivered twice, whatever the interleaving: once all threads are done, each
callback registered was called for every event of its type, and every change of status was sent. -/
theorem C77_delivered {w : Bool} {subs : List (Ev × Nat)} {n : Nat} {ls : List Label} {m : Mon}
    (hl : ∀ l ∈ ls, NoRegister l) (h : (newWith w subs n).run ls = some m) (hq : Quiet m) :
    m.calls.Perm (m.acc.flatMap fun x => (subs.filter fun y => y.1 = x.2).map fun y => (y.2, x.1, x.2)) ∧
    (w = true → m.msgs.flatten.Perm
      ((m.acc.filter fun x => x.2 = .up ∨ x.2 = .down).map fun x => (x.1, decide (x.2 = .up)))) ∧
    (w = false → m.msgs = []) ∧ [] ∉ m.msgs := by
  have hi := mon_run_ind (P := Sent w subs) (Q := NoRegister) (fun _ _ _ h1 h2 h3 => sent_step h1 h2 h3) ls _ m
    (sent_new w subs n) hl h
  have hz : m.jobs.flatten = [] := List.flatten_eq_nil_iff.2 hq
  have e1 : (fun x : Nat × Ev => decide (x.2 = .up ∨ x.2 = .down)) = told := by
    funext x
    cases hx : x.2 <;> simp [told, hx]
  have e2 : (fun x : Nat × Ev => (x.1, decide (x.2 = .up))) = oneStatus := by
    funext x
    cases hx : x.2 <;> simp [oneStatus, hx]
  refine ⟨?_, ?_, hi.silent, hi.full⟩
  · have := hi.calls
    rw [hz] at this
    simpa [callsFor, handlerCalls] using this.symm
  · intro hw
    have := hi.statuses hw
    rw [hz] at this
    rw [e1, e2]
    simpa using this.symm

/-- **C77 (partial)**: with one thread (no `notify` while callbacks for an earlier event run), callbacks and messages
come in the order of the events, so that what is seen of each port is its life.  (With more threads: `C77_reordered`.) -/
theorem C77_order_partial {w : Bool} {subs : List (Ev × Nat)} {ls : List Label} {m : Mon}
    (hl : ∀ l ∈ ls, NoRegister l) (h : (newWith w subs 1).run ls = some m) (hq : Quiet m) :
    m.calls = (m.acc.flatMap fun x => (subs.filter fun y => y.1 = x.2).map fun y => (y.2, x.1, x.2)) ∧
    (w = true → m.msgs.flatten =
      ((m.acc.filter fun x => x.2 = .up ∨ x.2 = .down).map fun x => (x.1, decide (x.2 = .up)))) ∧
    ∀ p, Life none (evsOf p m.acc) (m.ports.lookup p) := by
  have hi := mon_run_ind (P := fun m => Order w subs m ∧ LifeInv m) (Q := NoRegister)
    (fun _ _ _ h1 h2 h3 => ⟨order_step h1.1 h2 h3, lifeInv_step h1.2 h3⟩) ls _ m
    ⟨order_new w subs, lifeInv_new w 1 subs⟩ hl h
  obtain ⟨js, h1, h2, h3⟩ := hi.1.one
  have hz : js = [] := hq js (by rw [h1]; simp)
  subst hz
  have e1 : (fun x : Nat × Ev => decide (x.2 = .up ∨ x.2 = .down)) = told := by
    funext x
    cases hx : x.2 <;> simp [told, hx]
  have e2 : (fun x : Nat × Ev => (x.1, decide (x.2 = .up))) = oneStatus := by
    funext x
    cases hx : x.2 <;> simp [oneStatus, hx]
  refine ⟨?_, ?_, hi.2.life⟩
  · simpa [callsFor, handlerCalls] using h2.symm
  · intro hw
    rw [e1, e2]
    simpa using (h3 hw).symm

/-- **C77 (partial)**: for a port that is never removed, the statuses sent are up, down, up, down, ... -/
theorem C77_alternate_partial {subs : List (Ev × Nat)} {ls : List Label} {m : Mon}
    (hl : ∀ l ∈ ls, NoRegister l) (h : (newWith true subs 1).run ls = some m) (hq : Quiet m) {p : Nat}
    (hr : (p, Ev.removed) ∉ m.acc) {i : Nat} {b : Bool} (hb : (statusesOf p m.msgs.flatten)[i]? = some b) :
    b = true ↔ i % 2 = 0 := by
  have hi := mon_run_ind (P := fun m => Order true subs m ∧ LifeInv m) (Q := NoRegister)
    (fun _ _ _ h1 h2 h3 => ⟨order_step h1.1 h2 h3, lifeInv_step h1.2 h3⟩) ls _ m
    ⟨order_new true subs, lifeInv_new true 1 subs⟩ hl h
  obtain ⟨js, h1, _, h3⟩ := hi.1.one
  have hz : js = [] := hq js (by rw [h1]; simp)
  subst hz
  have h4 := h3 rfl
  simp only [List.flatMap_nil, List.append_nil] at h4
  rw [← h4, statusesOf_told] at hb
  refine (life_alternates (hi.2.life p) ?_).2.2 i b hb
  intro hm
  simp only [evsOf, List.mem_map, List.mem_filter, decide_eq_true_eq] at hm
  obtain ⟨⟨q, e⟩, ⟨h5, rfl⟩, rfl⟩ := hm
  exact hr h5

/-- Removing a port that is up sends nothing: a subscriber still has the port up, and sees "up" twice in a row when
the port is added again. -/
theorem C77_removed_up : ∃ ls m, (∀ l ∈ ls, NoRegister l) ∧ (newWith true [] 1).run ls = some m ∧ Quiet m ∧
    m.ports.lookup 7 = none ∧ statusesOf 7 m.msgs.flatten = [true] ∧
    ∃ ls' m', m.run ls' = some m' ∧ Quiet m' ∧ statusesOf 7 m'.msgs.flatten = [true, true] := by
  refine ⟨[.notify 0 7 .added, .go 0, .notify 0 7 .up, .go 0, .go 0, .notify 0 7 .removed, .go 0], _, ?_, rfl, ?_,
    rfl, rfl, [.notify 0 7 .added, .go 0, .notify 0 7 .up, .go 0, .go 0], _, rfl, ?_, rfl⟩
  · intro l hl
    simp only [List.mem_cons, List.not_mem_nil, or_false] at hl
    rcases hl with rfl | rfl | rfl | rfl | rfl | rfl | rfl <;> trivial
  · unfold Quiet; decide
  · unfold Quiet; decide

/-- Two threads: callbacks run without `port_mutex`, so a callback may be told that a port is up after it was told that
the port was removed. -/
theorem C77_reordered : ∃ ls m, (newWith false [(.added, 1), (.up, 1), (.removed, 1)] 2).run ls = some m ∧ Quiet m ∧
    m.calls = [(1, 7, .added), (1, 7, .removed), (1, 7, .up)] ∧ ¬ ∃ s, Life none [.added, .removed, .up] s := by
  refine ⟨[.notify 1 7 .added, .go 1, .poll 0 (fun _ => true), .notify 1 7 .removed, .go 1, .go 0, .go 0], _, rfl, ?_,
    by decide, ?_⟩
  · unfold Quiet; decide
  · rintro ⟨s, h⟩
    have h1 := life_fold h
    simp [lifeStep] at h1

/-- A run that meets the hypotheses: two ports, one found up by the active monitor, then both down. -/
example : ∃ ls m, (∀ l ∈ ls, NoRegister l) ∧ (newWith true [(.up, 1), (.down, 2)] 1).run ls = some m ∧ Quiet m ∧
    m.acc = [(7, .added), (5, .added), (7, .up), (5, .up), (5, .down), (7, .down)] ∧
    m.msgs = [[(7, true)], [(5, true)], [(5, false), (7, false)]] ∧
    m.calls = [(1, 7, .up), (1, 5, .up), (2, 5, .down), (2, 7, .down)] ∧ m.ports.lookup 5 = some false := by
  refine ⟨[.notify 0 7 .added, .go 0, .notify 0 5 .added, .go 0, .notify 0 7 .up, .go 0, .go 0,
    .poll 0 (fun _ => true), .go 0, .go 0, .notify 0 5 .added, .poll 0 (fun _ => false), .go 0, .go 0, .go 0], _, ?_,
    rfl, ?_, by decide, by decide, by decide, by decide⟩
  · intro l hl
    simp only [List.mem_cons, List.not_mem_nil, or_false] at hl
    rcases hl with rfl | rfl | rfl | rfl | rfl | rfl | rfl | rfl | rfl | rfl | rfl | rfl | rfl | rfl | rfl <;> trivial
  · unfold Quiet; decide

/-! ## C78 -/

/-- **C78 (partial)**: for every sequence of messages, the ports known and their statuses are those the messages say, a
packet is given to the switch exactly if its port was added, not removed, and is up at that moment (or ports are not
enforced), unchanged and in order; and the monitor knows the same.  What follows a message in its buffer has no effect.
Partial: `port_add` and `port_remove` are not
called (`C78_api`), messages are complete (`C78_overread`). -/
theorem C78_partial (enforce w : Bool) (ms : List (Req × Bytes)) (hf : ∀ r ∈ ms, r.1.Fits) (hist : List Req)
    (hr : hist = (ms.map Prod.fst).reverse) :
    ∃ d, (Dev.new enforce w).receive (ms.map fun r => encode r.1 ++ r.2) = some d ∧
      (∀ p, d.info.lookup p = if known p hist then some (lastUp p hist) else none) ∧
      d.packets = packetsIn enforce hist ∧
      (∀ p, d.portIsUp p = letIn enforce p hist) ∧
      (enforce = true → ∀ p, d.mon.ports.lookup p = d.info.lookup p) := by
  subst hr
  obtain ⟨d, h1, h2⟩ := receive_inv ms [] _ (devInv_new enforce w) hf
  rw [List.append_nil] at h2
  refine ⟨d, h1, h2.info, h2.packets, ?_, h2.mon⟩
  intro p
  unfold Dev.portIsUp letIn
  rw [h2.enforce, h2.info p]
  cases known p (ms.map Prod.fst).reverse <;> cases lastUp p (ms.map Prod.fst).reverse <;> rfl

/-- `port_remove` fails (it is not supported) but the monitor is told: callbacks say the port was removed, packets from
the port still come in, and nobody is told when it goes down. -/
theorem C78_api : ∃ d, (Dev.new true true).receive [encode (.add 3)] = some d ∧
    d.mon.acc = [(3, .added), (3, .up)] ∧ (d.apiRemove 3).mon.acc = [(3, .added), (3, .up), (3, .removed)] ∧
    (∃ d', (d.apiRemove 3).handle (encode (.packet 3 [1])) = some d' ∧ d'.packets = [(3, [1])]) ∧
    ∃ d', (d.apiRemove 3).handle (encode (.status 3 false)) = some d' ∧ d'.portIsUp 3 = false ∧
      d'.mon = (d.apiRemove 3).mon := by
  refine ⟨_, rfl, by decide +kernel, by decide +kernel, ⟨_, rfl, by decide +kernel⟩, ⟨_, rfl, by decide +kernel, by decide +kernel⟩⟩

/-- `port_add` fails too, and callbacks say the port was added; it is not there. -/
theorem C78_api_add : ((Dev.new true true).apiAdd 3).mon.acc = [(3, .added)] ∧
    ((Dev.new true true).apiAdd 3).info.lookup 3 = none := by decide +kernel

/-- A message shorter than its header is read beyond its end. -/
theorem C78_short (d : Dev) {msg : Bytes} (h : msg.length < 12) : d.handle msg = none := by
  unfold Dev.handle
  rw [if_pos h]

/-- A packet whose message says it is longer than it is: the switch reads beyond the end of the message. -/
theorem C78_overread (d : Dev) {p n : Nat} {data : Bytes} (hp : p < 2 ^ 32) (hn : n < 2 ^ 32)
    (hl : data.length < n) (hd : d.portIsUp p = true) :
    d.handle (le32 3 ++ le32 p ++ le32 n ++ data) = none := by
  obtain ⟨h0, h1, h2, h3, h4⟩ := word_enc 3 p n data (by omega) hp hn
  simp only [Dev.handle, h0, h1, h2, h4]
  have hd' : d.lets p = true := hd
  rw [if_neg (by omega), if_pos hd', if_pos (by omega)]

/-- Messages that meet the hypotheses; packets before the port is there, while it is down and after it was removed are not let
in. -/
example : ∃ d, (Dev.new true false).receive ([.packet 300 [9], .add 300, .packet 300 [1, 2], .status 300 false,
      .packet 300 [3], .status 300 true, .packet 300 [4], .remove 300, .packet 300 [5]].map encode) = some d ∧
    d.packets = [(300, [1, 2]), (300, [4])] :=
  ⟨_, rfl, by decide +kernel⟩

/-- A packet followed by another byte. -/
example : ∃ d, (Dev.new false false).receive ([(Req.packet 5 [1, 2], [7])].map fun r => encode r.1 ++ r.2) = some d ∧
    d.packets = [(5, [1, 2])] := ⟨_, rfl, by decide +kernel⟩

end Bm.Ports
