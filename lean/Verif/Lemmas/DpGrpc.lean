import Verif.Model.DpGrpc
import Verif.Lemmas.Ports

/-!
# Lemmas for C106
-/

namespace Bm.DpGrpc
open Bm.DpGrpc.Spec

/-! ## The log -/

/-- The stream the thread serves. -/
def PC.stream : PC → Option Nat
  | .none => Option.none
  | .reading k | .handling k _ | .creating k _ _ | .labelling k _ _ | .draining k | .drainHeld k | .closing k => some k

theorem current_snoc (l : List Ev) (e : Ev) : current (l ++ [e]) = match e with
    | .opened k => some k
    | .closed _ => none
    | _ => current l := by
  simp only [current, List.foldl_append, List.foldl_cons, List.foldl_nil]
  cases e <;> rfl

theorem stats_snoc (p : Nat) (l : List Ev) (e : Ev) : Spec.stats p (l ++ [e]) = (Spec.stats p l).next p e := by
  simp only [Spec.stats, List.foldl_append, List.foldl_cons, List.foldl_nil]

theorem up_snoc (p : Nat) (l : List Ev) (e : Ev) : up p (l ++ [e]) = match e with
    | .status q u => if q = p then u else up p l
    | _ => up p l := by
  simp only [up, List.foldl_append, List.foldl_cons, List.foldl_nil]
  cases e <;> rfl

theorem came_snoc (l : List Ev) (e : Ev) (pid : Nat) : Came (l ++ [e]) pid ↔ Came l pid ∨ Came [e] pid := by
  simp only [Came, List.mem_append, exists_or]
  exact or_or_or_comm

theorem always_nil (P : List Ev → Ev → Prop) : Always P [] := by
  intro l e r h; simp at h

theorem always_snoc {P : List Ev → Ev → Prop} {l : List Ev} {e : Ev} (h : Always P l) (he : P l e) : Always P (l ++ [e]) := by
  intro l' e' r hl
  rcases List.eq_nil_or_concat r with rfl | ⟨r', x, rfl⟩
  · have := List.append_inj' hl rfl
    obtain ⟨rfl, h2⟩ := this
    cases h2; exact he
  · rw [List.concat_eq_append, ← List.cons_append, ← List.append_assoc] at hl
    exact h l' e' r' (List.append_inj' hl rfl).1

theorem came_mono {l r : List Ev} {pid : Nat} (h : Came l pid) : Came (l ++ r) pid := by
  rcases h with ⟨k, q, h⟩ | h
  · exact .inl ⟨k, q, List.mem_append_left _ h⟩
  · exact .inr (List.mem_append_left _ h)

/-! ## The invariant -/

/-- What holds in all states. -/
structure Inv (c : Cfg) (s : St) : Prop where
  act : s.active = s.pc.stream
  cur : current s.log = s.active
  exc : s.excl = .drain ↔ ∃ k, s.pc = .drainHeld k
  opened : ∀ k, Ev.opened k ∈ s.log → k < s.streams
  live : ∀ pid ∈ s.live, Came s.log pid
  outq : ∀ x ∈ s.outq, Came s.log x.1
  next : ∀ pid, Came s.log pid → pid < s.nextId
  pend : ∀ pid ∈ s.pending, pid < s.nextId ∧ ¬ Came s.log pid
  nodup : s.pending.Nodup
  cre : ∀ k r pid, s.pc = .creating k r pid → pid < s.nextId ∧ ¬ Came s.log pid ∧ pid ∉ s.pending
  req : ∀ k r, (s.pc = .handling k r ∨ (∃ pid, s.pc = .creating k r pid)) → r.dev = c.dev ∧ r.data ≠ []
  lab : ∀ k r pid, s.pc = .labelling k r pid → Ev.accepted k r pid ∈ s.log
  uniq : ∀ k r k' r' pid, Ev.accepted k r pid ∈ s.log → Ev.accepted k' r' pid ∈ s.log → k = k' ∧ r = r'
  disj : ∀ k r pid, Ev.accepted k r pid ∈ s.log → Ev.injected pid ∉ s.log
  own : ∀ k r pid, Ev.accepted k r pid ∈ s.log → (pid ∈ s.live ∨ ∃ x ∈ s.outq, x.1 = pid) → s.active = some k
  gone : (∃ k, s.pc = .closing k) → ∀ k r pid, Ev.accepted k r pid ∈ s.log → pid ∉ s.live ∧ ∀ x ∈ s.outq, x.1 ≠ pid
  proper : Always (Proper c.dev c.cpu) s.log

theorem inv_init (c : Cfg) : Inv c {} := by
  constructor <;> simp [PC.stream, current, Came, Always]

/-- Events that change neither the stream nor the packets that came. -/
def Ev.Idle : Ev → Prop
  | .opened _ | .closed _ | .accepted .. | .injected _ => False
  | _ => True

theorem current_idle {l : List Ev} {e : Ev} (h : Ev.Idle e) : current (l ++ [e]) = current l := by
  rw [current_snoc]; cases e <;> first | rfl | exact h.elim

theorem mem_idle {l : List Ev} {e : Ev} (h : Ev.Idle e) :
    (∀ k, Ev.opened k ∈ l ++ [e] ↔ Ev.opened k ∈ l) ∧ (∀ k r pid, Ev.accepted k r pid ∈ l ++ [e] ↔ Ev.accepted k r pid ∈ l) ∧
    (∀ pid, Ev.injected pid ∈ l ++ [e] ↔ Ev.injected pid ∈ l) ∧ (∀ pid, Came (l ++ [e]) pid ↔ Came l pid) := by
  have h1 : ∀ k, Ev.opened k ∈ l ++ [e] ↔ Ev.opened k ∈ l := by
    intro k; cases e <;> simp_all [Ev.Idle]
  have h2 : ∀ k r pid, Ev.accepted k r pid ∈ l ++ [e] ↔ Ev.accepted k r pid ∈ l := by
    intro k r pid; cases e <;> simp_all [Ev.Idle]
  have h3 : ∀ pid, Ev.injected pid ∈ l ++ [e] ↔ Ev.injected pid ∈ l := by
    intro k; cases e <;> simp_all [Ev.Idle]
  exact ⟨h1, h2, h3, fun pid => by simp only [Came, h2, h3]⟩

/-- The parts of the state the invariant talks about. -/
def St.core (s : St) := (s.active, s.pc, s.excl, s.streams, s.live, s.outq, s.nextId, s.pending)

/-- An idle event, or none, is logged, and nothing else changes but tables. -/
theorem inv_idle {c : Cfg} {s s' : St} (h : Inv c s) (hc : s'.core = s.core)
    (hl : s'.log = s.log ∨ ∃ e, Ev.Idle e ∧ Proper c.dev c.cpu s.log e ∧ s'.log = s.log ++ [e]) : Inv c s' := by
  simp only [St.core, Prod.mk.injEq] at hc
  obtain ⟨h1, h2, h3, h4, h5, h6, h7, h8⟩ := hc
  have hm : current s'.log = current s.log ∧ (∀ k, Ev.opened k ∈ s'.log ↔ Ev.opened k ∈ s.log) ∧
      (∀ k r pid, Ev.accepted k r pid ∈ s'.log ↔ Ev.accepted k r pid ∈ s.log) ∧
      (∀ pid, Ev.injected pid ∈ s'.log ↔ Ev.injected pid ∈ s.log) ∧ (∀ pid, Came s'.log pid ↔ Came s.log pid) ∧
      Always (Proper c.dev c.cpu) s'.log := by
    rcases hl with hl | ⟨e, he, hp, hl⟩
    · rw [hl]; exact ⟨rfl, fun _ => Iff.rfl, fun _ _ _ => Iff.rfl, fun _ => Iff.rfl, fun _ => Iff.rfl, h.proper⟩
    · rw [hl]
      obtain ⟨m1, m2, m3, m4⟩ := mem_idle (l := s.log) he
      exact ⟨current_idle he, m1, m2, m3, m4, always_snoc h.proper hp⟩
  obtain ⟨m0, m1, m2, m3, m4, m5⟩ := hm
  constructor
  · rw [h1, h2]; exact h.act
  · rw [m0, h1]; exact h.cur
  · rw [h2, h3]; exact h.exc
  · simp only [m1, h4]; exact h.opened
  · simp only [m4, h5]; exact h.live
  · simp only [m4, h6]; exact h.outq
  · simp only [m4, h7]; exact h.next
  · simp only [m4, h7, h8]; exact h.pend
  · rw [h8]; exact h.nodup
  · simp only [m4, h2, h7, h8]; exact h.cre
  · simp only [h2]; exact h.req
  · simp only [m2, h2]; exact h.lab
  · simp only [m2]; exact h.uniq
  · simp only [m2, m3]; exact h.disj
  · simp only [m2, h5, h6, h1]; exact h.own
  · simp only [m2, h5, h6, h2]; exact h.gone
  · exact m5

theorem addPort_core (s : St) (p : Nat) : (s.addPort p).core = s.core ∧ (s.addPort p).log = s.log ∧
    (s.addPort p).trans = s.trans ∧ (s.addPort p).stats = s.stats := by
  unfold St.addPort; split <;> exact ⟨rfl, rfl, rfl, rfl⟩

/-- The thread goes on to `pc'` without having a packet in its hands; packets may go. -/
theorem inv_pc {c : Cfg} {s s' : St} (h : Inv c s) (ha : s'.active = s.active) (hs : s'.pc.stream = s.pc.stream)
    (hst : s'.streams = s.streams) (hl : s'.log = s.log) (hn : s'.nextId = s.nextId) (hp : s'.pending = s.pending)
    (hlive : ∀ x ∈ s'.live, x ∈ s.live) (hout : ∀ x ∈ s'.outq, x.1 ∈ s.live ∨ ∃ y ∈ s.outq, y.1 = x.1)
    (he : s'.excl = .drain ↔ ∃ k, s'.pc = .drainHeld k)
    (hcre : ∀ k r pid, s'.pc = .creating k r pid → s.pc = s'.pc)
    (hreq : ∀ k r, s'.pc = .handling k r → r.dev = c.dev ∧ r.data ≠ [])
    (hlab : ∀ k r pid, s'.pc = .labelling k r pid → s.pc = s'.pc)
    (hgone : (∃ k, s'.pc = .closing k) → (s'.live = [] ∧ s'.outq = []) ∨ s.pc = s'.pc) : Inv c s' := by
  have key : ∀ pid, (pid ∈ s'.live ∨ ∃ x ∈ s'.outq, x.1 = pid) → (pid ∈ s.live ∨ ∃ x ∈ s.outq, x.1 = pid) := by
    rintro pid (h1 | ⟨x, h1, rfl⟩)
    · exact .inl (hlive _ h1)
    · exact hout _ h1
  have key2 : ∀ pid, (pid ∈ s.live ∨ ∃ x ∈ s.outq, x.1 = pid) → Came s.log pid := by
    rintro pid (h1 | ⟨x, h1, rfl⟩)
    · exact h.live _ h1
    · exact h.outq _ h1
  constructor
  · rw [ha, hs]; exact h.act
  · rw [hl, ha]; exact h.cur
  · exact he
  · rw [hl, hst]; exact h.opened
  · intro pid h1; rw [hl]; exact key2 _ (key _ (.inl h1))
  · intro x h1; rw [hl]; exact key2 _ (key _ (.inr ⟨x, h1, rfl⟩))
  · rw [hl, hn]; exact h.next
  · rw [hl, hn, hp]; exact h.pend
  · rw [hp]; exact h.nodup
  · intro k r pid h1
    rw [hl, hn, hp]
    exact h.cre k r pid ((hcre _ _ _ h1).trans h1)
  · rintro k r (h1 | ⟨pid, h1⟩)
    · exact hreq _ _ h1
    · exact h.req k r (.inr ⟨pid, (hcre _ _ _ h1).trans h1⟩)
  · intro k r pid h1
    rw [hl]
    exact h.lab k r pid ((hlab _ _ _ h1).trans h1)
  · rw [hl]; exact h.uniq
  · rw [hl]; exact h.disj
  · intro k r pid h1 h2
    rw [hl] at h1; rw [ha]
    exact h.own k r pid h1 (key _ h2)
  · intro hcl k r pid h1
    rw [hl] at h1
    rcases hgone hcl with ⟨e1, e2⟩ | e
    · rw [e1, e2]; simp
    · have := h.gone (by rw [e]; exact hcl) k r pid h1
      constructor
      · intro h2; exact this.1 (hlive _ h2)
      · intro x h2 h3
        rcases hout _ h2 with h4 | ⟨y, h4, h5⟩
        · exact this.1 (h3 ▸ h4)
        · exact this.2 y h4 (h5.trans h3)
  · rw [hl]; exact h.proper

theorem transmitFn_core (s : St) (port pid : Nat) (data : Bytes) : (s.transmitFn port pid data).core = s.core := by
  unfold St.transmitFn; split <;> rfl

theorem transmitFn_log (s : St) (port pid : Nat) (data : Bytes) : (s.transmitFn port pid data).log = s.log ++
    [match s.active with
      | some k => Ev.response k pid port ((s.trans.find? pid).getD 0) data
      | none => Ev.lost pid port data] := by
  unfold St.transmitFn; split <;> simp_all [St.count]

theorem setStatus_core (c : Cfg) (s : St) (dev p : Nat) (op : Option Bool) : (s.setStatus c dev p op).core = s.core ∧
    ∃ e, Ev.Idle e ∧ (s.setStatus c dev p op).log = s.log ++ [e] ∧ ∀ d q l, Proper d q l e := by
  unfold St.setStatus
  split
  · exact ⟨rfl, .invalid, trivial, rfl, fun _ _ _ => trivial⟩
  · split
    · exact ⟨rfl, .invalid, trivial, rfl, fun _ _ _ => trivial⟩
    · rename_i b
      obtain ⟨h1, h2, -⟩ := addPort_core s p
      refine ⟨h1, .status p b, trivial, ?_, fun _ _ _ => trivial⟩
      show (s.addPort p).log ++ [Ev.status p b] = _
      rw [h2]

/-- Packets go, an idle event is logged. -/
theorem inv_less {c : Cfg} {s : St} (h : Inv c s) (live' : List Nat) (outq' : List (Nat × Nat × Bytes))
    (hlive : ∀ x ∈ live', x ∈ s.live) (hout : ∀ x ∈ outq', x.1 ∈ s.live ∨ ∃ y ∈ s.outq, y.1 = x.1) :
    Inv c { s with live := live', outq := outq' } :=
  inv_pc h rfl rfl rfl rfl rfl rfl hlive hout h.exc (fun _ _ _ _ => rfl) (fun k r h1 => h.req k r (.inl h1))
    (fun _ _ _ _ => rfl) (fun _ => .inr rfl)

theorem inv_step {c : Cfg} {s s' : St} {l : Label} (h : Inv c s) (hs : s.step c l = some s') : Inv c s' := by
  cases l with
  | start =>
    simp only [St.step] at hs
    split at hs
    · cases hs; exact inv_idle h rfl (.inl rfl)
    · cases hs
  | opens =>
    simp only [St.step] at hs
    split at hs
    · split at hs
      · cases hs; exact inv_idle h rfl (.inr ⟨.notReady, trivial, trivial, rfl⟩)
      · split at hs
        · rename_i ha
          cases hs
          exact inv_idle h rfl (.inr ⟨.exhausted, trivial, by show current s.log ≠ none; rw [h.cur]; exact ha, rfl⟩)
        · rename_i ha
          have ha' : s.active = none := by simpa using ha
          have hpc : s.pc = .none := by
            have := h.act; rw [ha'] at this
            cases hp : s.pc <;> rw [hp] at this <;> first | rfl | cases this
          have nolive : ∀ k r pid, Ev.accepted k r pid ∈ s.log → pid ∉ s.live ∧ ∀ x ∈ s.outq, x.1 ≠ pid := by
            intro k r pid h1
            constructor
            · intro h2; have := h.own k r pid h1 (.inl h2); rw [ha'] at this; cases this
            · intro x h2 h3; have := h.own k r pid h1 (.inr ⟨x, h2, h3⟩); rw [ha'] at this; cases this
          cases hs
          have acc : ∀ k r pid, Ev.accepted k r pid ∈ s.log ++ [Ev.opened s.streams] ↔ Ev.accepted k r pid ∈ s.log := by simp
          have inj : ∀ pid, Ev.injected pid ∈ s.log ++ [Ev.opened s.streams] ↔ Ev.injected pid ∈ s.log := by simp
          have came : ∀ pid, Came (s.log ++ [Ev.opened s.streams]) pid ↔ Came s.log pid := by simp [Came]
          constructor
          · rfl
          · rw [current_snoc]
          · show s.excl = .drain ↔ ∃ k, PC.reading s.streams = .drainHeld k
            rw [h.exc, hpc]; simp
          · intro k hk
            show k < s.streams + 1
            simp only [List.mem_append, List.mem_singleton] at hk
            rcases hk with hk | hk
            · exact Nat.lt_succ_of_lt (h.opened k hk)
            · cases hk; omega
          · simp only [came]; exact h.live
          · simp only [came]; exact h.outq
          · simp only [came]; exact h.next
          · simp only [came]; exact h.pend
          · exact h.nodup
          · intro k r pid h1; cases h1
          · rintro k r (h1 | ⟨pid, h1⟩) <;> cases h1
          · intro k r pid h1; cases h1
          · simp only [acc]; exact h.uniq
          · simp only [acc, inj]; exact h.disj
          · intro k r pid h1 h2
            rw [acc] at h1
            have := nolive k r pid h1
            rcases h2 with h2 | ⟨x, h2, h3⟩
            · exact absurd h2 this.1
            · exact absurd h3 (this.2 x h2)
          · rintro ⟨k, h1⟩; cases h1
          · refine always_snoc h.proper ⟨?_, ?_⟩
            · rw [h.cur, ha']
            · intro h1; exact Nat.lt_irrefl _ (h.opened _ h1)
    · cases hs
  | read r =>
    simp only [St.step] at hs
    split at hs
    · rename_i k hk
      have hcur : current s.log = some k := by rw [h.cur, h.act, hk]; rfl
      split at hs
      · rename_i hr
        cases hs
        exact inv_idle h rfl (.inr ⟨.skipped k r, trivial, ⟨hcur, hr⟩, rfl⟩)
      · rename_i hr
        cases hs
        obtain ⟨h1, h2, -⟩ := addPort_core s r.port
        simp only [St.core, Prod.mk.injEq] at h1
        obtain ⟨a1, a2, a3, a4, a5, a6, a7, a8⟩ := h1
        refine inv_pc h a1 ?_ a4 h2 a7 a8 ?_ ?_ ?_ ?_ ?_ ?_ ?_
        · rw [hk]; rfl
        · intro x hx; exact a5 ▸ hx
        · intro x hx; exact .inr ⟨x, a6 ▸ hx, rfl⟩
        · show (s.addPort r.port).excl = .drain ↔ ∃ j, PC.handling k r = .drainHeld j
          rw [a3, h.exc, hk]; simp
        · intro _ _ _ h1; cases h1
        · intro k' r' h1
          cases h1
          simp only [not_or, Decidable.not_not] at hr
          exact hr
        · intro _ _ _ h1; cases h1
        · rintro ⟨_, h1⟩; cases h1
    · cases hs
  | take =>
    simp only [St.step] at hs
    split at hs
    · rename_i k r hk
      cases hs
      constructor
      · show s.active = _; rw [h.act, hk]; rfl
      · exact h.cur
      · show s.excl = .drain ↔ ∃ j, PC.creating k r s.nextId = .drainHeld j
        rw [h.exc, hk]; simp
      · exact h.opened
      · exact h.live
      · exact h.outq
      · intro pid h1; exact Nat.lt_succ_of_lt (h.next _ h1)
      · intro pid h1; exact ⟨Nat.lt_succ_of_lt (h.pend _ h1).1, (h.pend _ h1).2⟩
      · exact h.nodup
      · intro k' r' pid h1
        cases h1
        exact ⟨Nat.lt_succ_self _, fun h2 => Nat.lt_irrefl _ (h.next _ h2), fun h2 => Nat.lt_irrefl _ (h.pend _ h2).1⟩
      · rintro k' r' (h1 | ⟨pid, h1⟩) <;> cases h1
        exact h.req k r (.inl hk)
      · intro _ _ _ h1; cases h1
      · exact h.uniq
      · exact h.disj
      · exact h.own
      · rintro ⟨_, h1⟩; cases h1
      · exact h.proper
    · cases hs
  | create =>
    simp only [St.step] at hs
    split at hs
    · rename_i k r pid hk
      split at hs
      · rename_i he
        cases hs
        obtain ⟨c1, c2, c3⟩ := h.cre k r pid hk
        have hact : s.active = some k := by rw [h.act, hk]; rfl
        have acc : ∀ k' r' p, Ev.accepted k' r' p ∈ s.log ++ [Ev.accepted k r pid] ↔
            Ev.accepted k' r' p ∈ s.log ∨ (k' = k ∧ r' = r ∧ p = pid) := by
          intro k' r' p; simp
        have inj : ∀ p, Ev.injected p ∈ s.log ++ [Ev.accepted k r pid] ↔ Ev.injected p ∈ s.log := by simp
        have came : ∀ p, Came (s.log ++ [Ev.accepted k r pid]) p ↔ Came s.log p ∨ p = pid := by
          intro p; rw [came_snoc]; simp [Came]
        constructor
        · exact hact
        · rw [current_snoc]; exact h.cur
        · show s.excl = .drain ↔ ∃ j, PC.labelling k r pid = .drainHeld j
          rw [he]; simp
        · intro j hj; exact h.opened j (by simpa using hj)
        · intro p hp
          simp only [List.mem_append, List.mem_singleton] at hp
          rw [came]
          rcases hp with hp | hp
          · exact .inl (h.live _ hp)
          · exact .inr hp
        · intro x hx; rw [came]; exact .inl (h.outq _ hx)
        · intro p hp
          rw [came] at hp
          rcases hp with hp | rfl
          · exact h.next _ hp
          · exact c1
        · intro p hp
          refine ⟨(h.pend _ hp).1, ?_⟩
          rw [came]
          rintro (h1 | rfl)
          · exact (h.pend _ hp).2 h1
          · exact c3 hp
        · exact h.nodup
        · intro _ _ _ h1; cases h1
        · rintro k' r' (h1 | ⟨p, h1⟩) <;> cases h1
        · intro k' r' p h1
          cases h1
          simp
        · intro k1 r1 k2 r2 p h1 h2
          rw [acc] at h1 h2
          rcases h1 with h1 | ⟨rfl, rfl, rfl⟩ <;> rcases h2 with h2 | ⟨e1, e2, e3⟩
          · exact h.uniq _ _ _ _ _ h1 h2
          · exact absurd (.inl ⟨_, _, e3 ▸ h1⟩) c2
          · exact absurd (.inl ⟨_, _, h2⟩) c2
          · exact ⟨e1.symm, e2.symm⟩
        · intro k1 r1 p h1
          rw [acc] at h1; rw [inj]
          rcases h1 with h1 | ⟨rfl, rfl, rfl⟩
          · exact h.disj _ _ _ h1
          · intro h2; exact c2 (.inr h2)
        · intro k1 r1 p h1 h2
          rw [acc] at h1
          show s.active = some k1
          rcases h1 with h1 | ⟨rfl, rfl, rfl⟩
          · rcases h2 with h2 | h2
            · simp only [List.mem_append, List.mem_singleton] at h2
              rcases h2 with h2 | rfl
              · exact h.own _ _ _ h1 (.inl h2)
              · exact absurd (.inl ⟨_, _, h1⟩) c2
            · exact h.own _ _ _ h1 (.inr h2)
          · exact hact
        · rintro ⟨_, h1⟩; cases h1
        · exact always_snoc h.proper ⟨h.cur.trans hact, (h.req k r (.inr ⟨_, hk⟩)).1, (h.req k r (.inr ⟨_, hk⟩)).2, c2⟩
      · cases hs
    · cases hs
  | label =>
    simp only [St.step] at hs
    split at hs
    · rename_i k r pid hk
      have : Inv c { s with pc := .reading k } := by
        refine inv_pc h rfl ?_ rfl rfl rfl rfl (fun _ hx => hx) (fun x hx => .inr ⟨x, hx, rfl⟩) ?_ ?_ ?_ ?_ ?_
        · rw [hk]; rfl
        · show s.excl = .drain ↔ ∃ j, PC.reading k = .drainHeld j
          rw [h.exc, hk]; simp
        · intro _ _ _ h1; cases h1
        · intro _ _ h1; cases h1
        · intro _ _ _ h1; cases h1
        · rintro ⟨_, h1⟩; cases h1
      cases hs
      refine inv_idle this ?_ (.inl ?_)
      · split <;> rfl
      · split <;> rfl
    · cases hs
  | eof =>
    simp only [St.step] at hs
    split at hs
    · rename_i k hk
      cases hs
      refine inv_pc h rfl ?_ rfl rfl rfl rfl (fun _ hx => hx) (fun x hx => .inr ⟨x, hx, rfl⟩) ?_ ?_ ?_ ?_ ?_
      · rw [hk]; rfl
      · show s.excl = .drain ↔ ∃ j, PC.draining k = .drainHeld j
        rw [h.exc, hk]; simp
      · intro _ _ _ h1; cases h1
      · intro _ _ h1; cases h1
      · intro _ _ _ h1; cases h1
      · rintro ⟨_, h1⟩; cases h1
    · cases hs
  | drainLock =>
    simp only [St.step] at hs
    split at hs
    · rename_i k hk
      split at hs
      · cases hs
        refine inv_pc h rfl ?_ rfl rfl rfl rfl (fun _ hx => hx) (fun x hx => .inr ⟨x, hx, rfl⟩) ?_ ?_ ?_ ?_ ?_
        · rw [hk]; rfl
        · simp
        · intro _ _ _ h1; cases h1
        · intro _ _ h1; cases h1
        · intro _ _ _ h1; cases h1
        · rintro ⟨_, h1⟩; cases h1
      · cases hs
    · cases hs
  | drained =>
    simp only [St.step] at hs
    split at hs
    · rename_i k hk
      split at hs
      · rename_i he
        cases hs
        refine inv_pc h rfl ?_ rfl rfl rfl rfl (fun _ hx => hx) (fun x hx => .inr ⟨x, hx, rfl⟩) ?_ ?_ ?_ ?_ ?_
        · rw [hk]; rfl
        · simp
        · intro _ _ _ h1; cases h1
        · intro _ _ h1; cases h1
        · intro _ _ _ h1; cases h1
        · intro _; exact .inl he
      · cases hs
    · cases hs
  | close =>
    simp only [St.step] at hs
    split at hs
    · rename_i k hk
      have hg := h.gone ⟨k, hk⟩
      have hcur : current s.log = some k := by rw [h.cur, h.act, hk]; rfl
      cases hs
      have acc : ∀ k' r pid, Ev.accepted k' r pid ∈ s.log ++ [Ev.closed k] ↔ Ev.accepted k' r pid ∈ s.log := by simp
      have inj : ∀ pid, Ev.injected pid ∈ s.log ++ [Ev.closed k] ↔ Ev.injected pid ∈ s.log := by simp
      have came : ∀ pid, Came (s.log ++ [Ev.closed k]) pid ↔ Came s.log pid := by simp [Came]
      constructor
      · rfl
      · rw [current_snoc]
      · show s.excl = .drain ↔ ∃ k, PC.none = .drainHeld k
        rw [h.exc, hk]; simp
      · intro j hj; exact h.opened j (by simpa using hj)
      · simp only [came]; exact h.live
      · simp only [came]; exact h.outq
      · simp only [came]; exact h.next
      · simp only [came]; exact h.pend
      · exact h.nodup
      · intro k r pid h1; cases h1
      · rintro k r (h1 | ⟨pid, h1⟩) <;> cases h1
      · intro k r pid h1; cases h1
      · simp only [acc]; exact h.uniq
      · simp only [acc, inj]; exact h.disj
      · intro k' r pid h1 h2
        rw [acc] at h1
        have := hg k' r pid h1
        rcases h2 with h2 | ⟨x, h2, h3⟩
        · exact absurd h2 this.1
        · exact absurd h3 (this.2 x h2)
      · rintro ⟨k, h1⟩; cases h1
      · exact always_snoc h.proper hcur
    · cases hs
  | piTake =>
    simp only [St.step, Option.some.injEq] at hs
    subst hs
    constructor
    · exact h.act
    · exact h.cur
    · exact h.exc
    · exact h.opened
    · exact h.live
    · exact h.outq
    · intro pid h1; exact Nat.lt_succ_of_lt (h.next _ h1)
    · intro pid h1
      simp only [List.mem_append, List.mem_singleton] at h1
      rcases h1 with h1 | rfl
      · exact ⟨Nat.lt_succ_of_lt (h.pend _ h1).1, (h.pend _ h1).2⟩
      · exact ⟨Nat.lt_succ_self _, fun h2 => Nat.lt_irrefl _ (h.next _ h2)⟩
    · show (s.pending ++ [s.nextId]).Nodup
      rw [List.nodup_append]
      refine ⟨h.nodup, by simp, ?_⟩
      intro a ha b hb
      simp only [List.mem_singleton] at hb
      subst hb
      exact Nat.ne_of_lt (h.pend _ ha).1
    · intro k r pid h1
      obtain ⟨c1, c2, c3⟩ := h.cre k r pid h1
      refine ⟨Nat.lt_succ_of_lt c1, c2, ?_⟩
      simp only [List.mem_append, List.mem_singleton, not_or]
      exact ⟨c3, Nat.ne_of_lt c1⟩
    · exact h.req
    · exact h.lab
    · exact h.uniq
    · exact h.disj
    · exact h.own
    · exact h.gone
    · exact h.proper
  | piCreate pid =>
    simp only [St.step] at hs
    split at hs
    · rename_i hp
      cases hs
      obtain ⟨c1, c2⟩ := h.pend pid hp.1
      have acc : ∀ k' r' p, Ev.accepted k' r' p ∈ s.log ++ [Ev.injected pid] ↔ Ev.accepted k' r' p ∈ s.log := by simp
      have inj : ∀ p, Ev.injected p ∈ s.log ++ [Ev.injected pid] ↔ Ev.injected p ∈ s.log ∨ p = pid := by simp
      have came : ∀ p, Came (s.log ++ [Ev.injected pid]) p ↔ Came s.log p ∨ p = pid := by
        intro p; rw [came_snoc]; simp [Came]
      have nodup := h.nodup
      constructor
      · exact h.act
      · rw [current_snoc]; exact h.cur
      · exact h.exc
      · intro j hj; exact h.opened j (by simpa using hj)
      · intro p hp
        simp only [List.mem_append, List.mem_singleton] at hp
        rw [came]
        rcases hp with hp | hp
        · exact .inl (h.live _ hp)
        · exact .inr hp
      · intro x hx; rw [came]; exact .inl (h.outq _ hx)
      · intro p hp
        rw [came] at hp
        rcases hp with hp | rfl
        · exact h.next _ hp
        · exact c1
      · intro p h1
        rw [nodup.mem_erase_iff] at h1
        refine ⟨(h.pend _ h1.2).1, ?_⟩
        rw [came]
        rintro (h2 | h2)
        · exact (h.pend _ h1.2).2 h2
        · exact h1.1 h2
      · exact nodup.erase _
      · intro k r p h1
        obtain ⟨d1, d2, d3⟩ := h.cre k r p h1
        refine ⟨d1, ?_, fun h2 => d3 (List.mem_of_mem_erase h2)⟩
        rw [came]
        rintro (h2 | rfl)
        · exact d2 h2
        · exact d3 hp.1
      · exact h.req
      · intro k r p h1; rw [acc]; exact h.lab k r p h1
      · simp only [acc]; exact h.uniq
      · intro k1 r1 p h1
        rw [acc] at h1; rw [inj]
        rintro (h2 | rfl)
        · exact h.disj _ _ _ h1 h2
        · exact c2 (.inl ⟨_, _, h1⟩)
      · intro k1 r1 p h1 h2
        rw [acc] at h1
        rcases h2 with h2 | h2
        · simp only [List.mem_append, List.mem_singleton] at h2
          rcases h2 with h2 | rfl
          · exact h.own _ _ _ h1 (.inl h2)
          · exact absurd (.inl ⟨_, _, h1⟩) c2
        · exact h.own _ _ _ h1 (.inr h2)
      · intro h1 k1 r1 p h2
        rw [acc] at h2
        have := h.gone h1 k1 r1 p h2
        refine ⟨?_, this.2⟩
        simp only [List.mem_append, List.mem_singleton, not_or]
        refine ⟨this.1, ?_⟩
        rintro rfl
        exact c2 (.inl ⟨_, _, h2⟩)
      · exact always_snoc h.proper c2
    · cases hs
  | copy pid =>
    simp only [St.step] at hs
    split at hs
    · rename_i hp
      cases hs
      refine inv_less h (s.live ++ [pid]) s.outq ?_ (fun x hx => .inr ⟨x, hx, rfl⟩)
      intro x hx
      simp only [List.mem_append, List.mem_singleton] at hx
      rcases hx with hx | rfl
      · exact hx
      · exact hp
    · cases hs
  | drop pid =>
    simp only [St.step] at hs
    split at hs
    · cases hs
      exact inv_less h (s.live.erase pid) s.outq (fun x hx => List.mem_of_mem_erase hx) (fun x hx => .inr ⟨x, hx, rfl⟩)
    · cases hs
  | emit pid port data =>
    simp only [St.step] at hs
    split at hs
    · rename_i hp
      cases hs
      refine inv_less h (s.live.erase pid) (s.outq ++ [(pid, port, data)]) (fun x hx => List.mem_of_mem_erase hx) ?_
      intro x hx
      simp only [List.mem_append, List.mem_singleton] at hx
      rcases hx with hx | rfl
      · exact .inr ⟨x, hx, rfl⟩
      · exact .inl hp
    · cases hs
  | transmit =>
    simp only [St.step] at hs
    split at hs
    · cases hs
    · rename_i pid port data q hq
      have hi : Inv c { s with outq := q } :=
        inv_less h s.live q (fun _ hx => hx) (fun x hx => .inr ⟨x, by rw [hq]; exact List.mem_cons_of_mem _ hx, rfl⟩)
      have hm : (pid, port, data) ∈ s.outq := by rw [hq]; exact List.mem_cons_self ..
      have hcame : Came s.log pid := h.outq _ hm
      split at hs
      · rename_i hcpu
        cases hs
        exact inv_idle hi rfl (.inr ⟨.packetIn pid data, trivial, ⟨by omega, hcame⟩, rfl⟩)
      · rename_i hcpu
        have hcpu' : ¬ (c.cpu ≠ 0 ∧ port = c.cpu) := fun h1 => hcpu ⟨by omega, h1.2⟩
        split at hs
        · cases hs
          refine inv_idle hi (transmitFn_core ..) (.inr ?_)
          rw [transmitFn_log]
          refine ⟨_, ?_, ?_, rfl⟩
          · dsimp only; split <;> trivial
          · dsimp only
            split
            · rename_i k hk
              refine ⟨h.cur.trans hk, ?_, hcpu'⟩
              rcases hcame with ⟨k', r, h1⟩ | h1
              · have := h.own k' r pid h1 (.inr ⟨_, hm, rfl⟩)
                rw [hk] at this; cases this
                exact .inl ⟨r, h1⟩
              · exact .inr h1
            · rename_i hk
              refine ⟨h.cur.trans hk, ?_, hcpu'⟩
              rcases hcame with ⟨k', r, h1⟩ | h1
              · have := h.own k' r pid h1 (.inr ⟨_, hm, rfl⟩)
                rw [hk] at this; cases this
              · exact h1
        · cases hs
  | setStatus dev p op =>
    simp only [St.step] at hs
    split at hs
    · cases hs
      obtain ⟨h1, e, h2, h3, h4⟩ := setStatus_core c s dev p op
      exact inv_idle h h1 (.inr ⟨e, h2, h4 _ _ _, h3⟩)
    · cases hs
  | clear p =>
    simp only [St.step] at hs
    split at hs
    · cases hs
      exact inv_idle h rfl (.inr ⟨.cleared p, trivial, trivial, rfl⟩)
    · cases hs
  | swapBegin =>
    simp only [St.step] at hs
    split at hs
    · rename_i he
      cases hs
      refine inv_pc h rfl rfl rfl rfl rfl rfl (fun _ hx => hx) (fun x hx => .inr ⟨x, hx, rfl⟩) ?_ (fun _ _ _ _ => rfl)
        (fun k r h1 => h.req k r (.inl h1)) (fun _ _ _ _ => rfl) (fun _ => .inr rfl)
      have := h.exc
      rw [he] at this
      simpa using this
    · cases hs
  | swapEnd =>
    simp only [St.step] at hs
    split at hs
    · rename_i he
      cases hs
      have : Inv c { s with excl := .none } := by
        refine inv_pc h rfl rfl rfl rfl rfl rfl (fun _ hx => hx) (fun x hx => .inr ⟨x, hx, rfl⟩) ?_ (fun _ _ _ _ => rfl)
          (fun k r h1 => h.req k r (.inl h1)) (fun _ _ _ _ => rfl) (fun _ => .inr rfl)
        have := h.exc
        rw [he.1] at this
        simpa using this
      exact inv_idle this rfl (.inr ⟨.exchanged, trivial, trivial, rfl⟩)
    · cases hs
  | apiAdd p =>
    simp only [St.step, Option.some.injEq] at hs
    subst hs; exact inv_idle h rfl (.inl rfl)
  | apiRemove p =>
    simp only [St.step, Option.some.injEq] at hs
    subst hs; exact inv_idle h rfl (.inl rfl)

theorem inv_reach {c : Cfg} {P : St → Label → Prop} {s : St} (h : Reach c P s) : Inv c s := by
  induction h with
  | init => exact inv_init c
  | step _ _ hs ih => exact inv_step ih hs

end Bm.DpGrpc
