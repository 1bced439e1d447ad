import Verif.Model.Debugger
import Mathlib.Data.List.Basic
import Mathlib.Tactic.ByContra

/-!
# Lemmas about the debugger
-/

namespace Bm.Debugger

open Bm.Debugger.Spec

theorem toBytes4 (v : Nat) : toBytes 4 v = bytes4 v := by
  simp [toBytes, bytes4, Nat.div_div_eq_div_mul]

/-- What is stored about packets. -/
structure Data (s : State) (h : List Vis) : Prop where
  live : ∃ L : List Pid, L.Nodup ∧ (∀ p, p ∈ L ↔ inside p h = true) ∧
    ∀ n, s.counts n = (L.filter fun q => q.1 == n).length
  rg : ∀ p, s.regs p = if inside p h then some (fun id => value p id h) else none
  ct : ∀ p, s.ctrs p = if inside p h then some (places p h) else none
  sz : ∀ p id b, value p id h = some b → b.length ≤ 208

/-- Where requests and replies stand. -/
def PhaseOk (s : State) (h : List Vis) : Prop :=
  match s.phase with
  | .idle => pending h = none ∧ s.canContinue = !attached h ∧ s.breakNext = false
  | .got _ => pending h = none ∧ s.canContinue = !attached h ∧ s.breakNext = false ∧ s.reply = none
  | .waiting => ∃ n r h0, pending h = some (n, r, h0) ∧
    match s.reply with
    | some (k, m) => k = num h0 n r ∧ s.canContinue = !attached h ∧ s.breakNext = false ∧
        (answer h0 r = some m ∨ ((r = .cont ∨ r = .next) ∧ attached h = true ∧
          ((∃ e h1, h = .pkt e :: h1 ∧ Stops h1 e ∧ m = report e) ∨ (m = .keepAlive ∧ ¬ Stopped h))))
    | none => (r = .cont ∨ r = .next) ∧ attached h = true ∧ s.canContinue = true ∧
        s.breakNext = decide (r = .next) ∧ s.reqId = num h0 n r ∧ ¬ Stopped h

/-- What is stored about requests. -/
structure Ctl (s : State) (h : List Vis) : Prop where
  good : Good num h
  att : s.attached = attached h
  br : s.breakIn = breaksIn h
  st : s.stopIn = stopsIn h
  wt : ∀ id, s.watch.contains id = watching id h
  fi : s.filter = (chosen h).filter fun q => q.2 != anyCopy
  fa : s.filterAll = ((chosen h).filter fun q => q.2 == anyCopy).map Prod.fst
  quiet : attached h = false → breaksIn h = false ∧ stopsIn h = false ∧ ∀ id, watching id h = false
  ph : PhaseOk s h

theorem filters_iff {s : State} {h : List Vis} (c : Ctl s h) (p : Pid) :
    inFilters s p = true ↔ Chosen (chosen h) p := by
  unfold inFilters Chosen
  rw [c.fi, c.fa]
  generalize chosen h = l
  by_cases hl : l = []
  · subst hl; simp
  · have hne : ¬ ((l.filter fun q => q.2 != anyCopy).isEmpty = true ∧
        ((l.filter fun q => q.2 == anyCopy).map Prod.fst).isEmpty = true) := by
      rintro ⟨h1, h2⟩
      obtain ⟨q, hq⟩ := List.exists_mem_of_ne_nil l hl
      simp only [List.isEmpty_iff, List.map_eq_nil_iff, List.filter_eq_nil_iff] at h1 h2
      have a := h1 q hq
      have b := h2 q hq
      simp at a b
      exact b a
    rw [if_neg (by simpa using hne)]
    by_cases hA : (((l.filter fun q => q.2 == anyCopy).map Prod.fst).contains p.1) = true
    · rw [if_pos hA]
      simp only [List.contains_iff_mem, List.mem_map, List.mem_filter, beq_iff_eq] at hA
      obtain ⟨q, ⟨hq, h2⟩, h1⟩ := hA
      simp only [true_iff]
      exact .inr ⟨q, hq, h1, .inl h2⟩
    · rw [if_neg hA]
      simp only [List.contains_iff_mem, List.mem_filter, bne_iff_ne]
      simp only [List.contains_iff_mem, List.mem_map, List.mem_filter, beq_iff_eq] at hA
      constructor
      · rintro ⟨h1, -⟩; exact .inr ⟨p, h1, rfl, .inr rfl⟩
      · rintro (h0 | ⟨q, hq, h1, h2⟩)
        · exact absurd h0 hl
        · by_cases hm : q.2 = anyCopy
          · exact absurd ⟨q, ⟨hq, hm⟩, h1⟩ hA
          · have hqp : q = p := Prod.ext h1 (h2.resolve_left hm)
            exact ⟨hqp ▸ hq, hqp ▸ hm⟩

/-! ## Packets -/

theorem answer_awaits {h0 : List Vis} {r : Req} {m : Msg} (h : answer h0 r = some m) : ¬ (r = .cont ∨ r = .next) := by
  rintro (rfl | rfl) <;> cases h

/-- Facts about a state in which packets may go on. -/
theorem run_facts {s : State} {h : List Vis} (c : Ctl s h) (hc : s.canContinue = true) :
    Running h ∧ (s.breakNext = true ↔ AwaitsNext h) ∧
    (attached h = true → ∃ n r h0, s.phase = .waiting ∧ s.reply = none ∧ pending h = some (n, r, h0) ∧
      (r = .cont ∨ r = .next) ∧ s.reqId = num h0 n r) := by
  have hp := c.ph
  unfold PhaseOk at hp
  rcases hph : s.phase with _ | r | _
  · rw [hph] at hp
    obtain ⟨h1, h2, h3⟩ := hp
    rw [hc] at h2
    have ha : attached h = false := by simpa using h2.symm
    refine ⟨.inl ha, ?_, fun hx => by rw [ha] at hx; cases hx⟩
    rw [h3]
    simp only [Bool.false_eq_true, false_iff]
    rintro ⟨n, h0, e⟩
    rw [h1] at e; cases e
  · rw [hph] at hp
    obtain ⟨h1, h2, h3, -⟩ := hp
    rw [hc] at h2
    have ha : attached h = false := by simpa using h2.symm
    refine ⟨.inl ha, ?_, fun hx => by rw [ha] at hx; cases hx⟩
    rw [h3]
    simp only [Bool.false_eq_true, false_iff]
    rintro ⟨n, h0, e⟩
    rw [h1] at e; cases e
  · rw [hph] at hp
    obtain ⟨n, r, h0, h1, h2⟩ := hp
    cases hr : s.reply with
    | some x =>
      obtain ⟨k, m⟩ := x
      rw [hr] at h2
      obtain ⟨-, h3, h4, h5⟩ := h2
      rw [hc] at h3
      have ha : attached h = false := by simpa using h3.symm
      refine ⟨.inl ha, ?_, fun hx => by rw [ha] at hx; cases hx⟩
      rw [h4]
      simp only [Bool.false_eq_true, false_iff]
      rintro ⟨n', h0', e⟩
      rw [h1] at e; cases e
      rcases h5 with h5 | ⟨-, h5, -⟩
      · exact answer_awaits h5 (.inr rfl)
      · rw [ha] at h5; cases h5
    | none =>
      rw [hr] at h2
      obtain ⟨h3, h4, h5, h6, h7, h8⟩ := h2
      refine ⟨.inr ⟨⟨n, r, h0, h1, h3⟩, h8⟩, ?_, fun _ => ⟨n, r, h0, rfl, rfl, h1, h3, h7⟩⟩
      rw [h6, decide_eq_true_eq]
      constructor
      · rintro rfl; exact ⟨n, h0, h1⟩
      · rintro ⟨n', h0', e⟩
        rw [h1] at e; cases e; rfl

theorem stops_attached {s : State} {h : List Vis} (c : Ctl s h) (hc : s.canContinue = true) {e : Pkt}
    (he : Interests h e) : attached h = true := by
  by_contra ha
  have ha : attached h = false := by simpa using ha
  obtain ⟨q1, -, q3⟩ := c.quiet ha
  obtain ⟨-, hn, -⟩ := run_facts c hc
  have hx : ¬ AwaitsNext h := by
    rintro ⟨n, h0, e0⟩
    have hp := c.ph
    unfold PhaseOk at hp
    split at hp
    · rw [hp.1] at e0; cases e0
    · rw [hp.1] at e0; cases e0
    · obtain ⟨n', r, h0', h1, h2⟩ := hp
      rw [e0] at h1; cases h1
      split at h2
      · rcases h2.2.2.2 with h5 | ⟨-, h5, -⟩
        · exact answer_awaits h5 (.inr rfl)
        · rw [ha] at h5; cases h5
      · rw [ha] at h2; cases h2.2.1
  cases e <;> simp [Interests, hx, q1, q3] at he

/-- A packet does something the program need not stop for. -/
theorem Ctl.quietStep {s : State} {h : List Vis} (c : Ctl s h) (hc : s.canContinue = true) {e : Pkt}
    (hs : ¬ Stops h e)
    (hin : ∀ p port, e = .enter p port → stopsIn h = true → ∃ c, inside (p.1, c) h = true) (r t k) :
    Ctl { s with regs := r, ctrs := t, counts := k } (.pkt e :: h) := by
  refine ⟨.pkt c.good (run_facts c hc).1 hin, c.att, c.br, c.st, c.wt, c.fi, c.fa, c.quiet, ?_⟩
  have hp := c.ph
  unfold PhaseOk at hp ⊢
  simp only
  split at hp
  · exact hp
  · exact hp
  · obtain ⟨n, rq, h0, h1, h2⟩ := hp
    refine ⟨n, rq, h0, h1, ?_⟩
    cases hr : s.reply with
    | some x =>
      obtain ⟨kk, m⟩ := x
      rw [hr] at h2
      obtain ⟨h3, h4, h5, h6⟩ := h2
      refine ⟨h3, h4, h5, ?_⟩
      rcases h6 with h6 | ⟨-, h6, -⟩
      · exact .inl h6
      · rw [hc, h6] at h4; cases h4
    | none =>
      rw [hr] at h2
      exact ⟨h2.1, h2.2.1, h2.2.2.1, h2.2.2.2.1, h2.2.2.2.2.1, hs⟩

/-- A packet does something the program has to stop for. -/
theorem Ctl.stopStep {s : State} {h : List Vis} (c : Ctl s h) (hc : s.canContinue = true) {e : Pkt}
    (hs : Stops h e)
    (hin : ∀ p port, e = .enter p port → stopsIn h = true → ∃ c, inside (p.1, c) h = true) (r t k) :
    s.reply = none ∧
    Ctl { s with
      regs := r
      ctrs := t
      counts := k
      canContinue := false
      breakNext := false
      reply := some (s.reqId, report e) } (.pkt e :: h) := by
  have ha := stops_attached c hc hs.2
  obtain ⟨hrun, -, hw⟩ := run_facts c hc
  obtain ⟨n, rq, h0, hph, hrep, hpend, hrq, hid⟩ := hw ha
  refine ⟨hrep, .pkt c.good hrun hin, c.att, c.br, c.st, c.wt, c.fi, c.fa, c.quiet, ?_⟩
  unfold PhaseOk
  simp only [hph]
  exact ⟨n, rq, h0, hpend, hid, by show false = !attached h; rw [ha]; rfl, trivial,
    .inr ⟨hrq, ha, .inl ⟨e, h, rfl, hs, rfl⟩⟩⟩

/-! ## Data -/

theorem Data.put_upd {s : State} {h : List Vis} (d : Data s h) {p : Pid} {id : Nat} {b : Bytes}
    (hi : inside p h = true) (hb : b.length ≤ 208) :
    Data { s with regs := put s.regs p (some (setReg (fun i => value p i h) id b)) } (.pkt (.upd p id b) :: h) := by
  have hin : ∀ q, inside q (.pkt (.upd p id b) :: h) = inside q h := fun _ => rfl
  refine ⟨d.live, ?_, d.ct, ?_⟩
  · intro q
    simp only [put]
    rw [hin]
    by_cases hq : q = p
    · subst hq
      rw [if_pos rfl, if_pos hi]
      congr 1
      funext x
      simp only [setReg, value, true_and]
      by_cases hx : x = id
      · rw [if_pos hx, if_pos hx.symm]
      · rw [if_neg hx, if_neg (Ne.symm hx)]
    · rw [if_neg hq, d.rg]
      congr 2
      funext x
      simp only [value]
      rw [if_neg (fun hh => hq hh.1.symm)]
  · intro q x b' hv
    simp only [value] at hv
    split at hv
    · cases hv; exact hb
    · exact d.sz _ _ _ hv

theorem head_ge {v : Nat} (hv : v < 2 ^ 32) : 0x80 ≤ ((bytes4 v).headD 0).toNat ↔ 2 ^ 31 ≤ v := by
  simp only [bytes4, List.headD_cons, UInt8.toNat_ofNat']
  omega

theorem Data.put_ctr {s : State} {h : List Vis} (d : Data s h) {p : Pid} {v : Nat}
    (hi : inside p h = true) :
    Data { s with
      regs := put s.regs p (some (setReg (fun i => value p i h) ctrField (bytes4 v)))
      ctrs := put s.ctrs p (some (if 2 ^ 31 ≤ v then (places p h).dropLast else places p h ++ [v])) }
      (.pkt (.ctr p v) :: h) := by
  have hin : ∀ q, inside q (.pkt (.ctr p v) :: h) = inside q h := fun _ => rfl
  refine ⟨d.live, ?_, ?_, ?_⟩
  · intro q
    simp only [put]
    rw [hin]
    by_cases hq : q = p
    · subst hq
      rw [if_pos rfl, if_pos hi]
      congr 1
      funext x
      simp only [setReg, value, true_and]
    · rw [if_neg hq, d.rg]
      congr 2
      funext x
      simp only [value]
      rw [if_neg (fun hh => hq hh.1.symm)]
  · intro q
    simp only [put, places]
    rw [hin]
    by_cases hq : q = p
    · subst hq
      rw [if_pos rfl, if_pos hi, if_pos rfl]
    · rw [if_neg hq, d.ct, if_neg (Ne.symm hq)]
  · intro q x b' hv
    simp only [value] at hv
    split at hv
    · cases hv; simp [bytes4]
    · exact d.sz _ _ _ hv

theorem inside_enter (p q : Pid) (port : Int) (h : List Vis) :
    inside q (.pkt (.enter p port) :: h) = (decide (p = q) || inside q h) := rfl

theorem Data.put_enter {s : State} {h : List Vis} (d : Data s h) {p : Pid} {port : Int}
    (hi : inside p h = false) :
    Data { s with
      regs := put s.regs p (some fun _ => none)
      ctrs := put s.ctrs p (some [])
      counts := put s.counts p.1 (s.counts p.1 + 1) } (.pkt (.enter p port) :: h) := by
  refine ⟨?_, ?_, ?_, ?_⟩
  · obtain ⟨L, h1, h2, h3⟩ := d.live
    refine ⟨p :: L, List.nodup_cons.2 ⟨by rw [h2, hi]; simp, h1⟩, ?_, ?_⟩
    · intro q
      rw [inside_enter, List.mem_cons, h2, eq_comm (a := q)]
      simp
    · intro n
      simp only [put, List.filter_cons]
      by_cases hn : n = p.1
      · subst hn; simp [h3]
      · rw [if_neg hn, if_neg (by simpa using Ne.symm hn), h3]
  · intro q
    simp only [put, inside_enter]
    by_cases hq : q = p
    · subst hq
      simp [value]
    · rw [if_neg hq, d.rg]
      have : decide (p = q) = false := by simpa using Ne.symm hq
      simp only [this, Bool.false_or, value, if_neg (Ne.symm hq)]
  · intro q
    simp only [put, inside_enter, places]
    by_cases hq : q = p
    · subst hq; simp
    · rw [if_neg hq, d.ct]
      have : decide (p = q) = false := by simpa using Ne.symm hq
      simp only [this, Bool.false_or, if_neg (Ne.symm hq)]
  · intro q x b' hv
    simp only [value] at hv
    split at hv
    · cases hv
    · exact d.sz _ _ _ hv

theorem count_pos {s : State} {h : List Vis} (d : Data s h) (n : Nat) :
    s.counts n ≠ 0 ↔ ∃ c, inside (n, c) h = true := by
  obtain ⟨L, h1, h2, h3⟩ := d.live
  rw [h3, ne_eq, List.length_eq_zero_iff, List.filter_eq_nil_iff]
  constructor
  · intro hx
    by_contra hc
    refine hx fun q hq hqn => hc ⟨q.2, ?_⟩
    simp only [beq_iff_eq] at hqn
    rw [← hqn]
    exact (h2 q).1 hq
  · rintro ⟨c, hc⟩ hx
    exact hx (n, c) ((h2 _).2 hc) (by simp)

theorem Data.put_leave {s : State} {h : List Vis} (d : Data s h) {p : Pid}
    (hi : inside p h = true) :
    Data { s with
      regs := put s.regs p none
      ctrs := put s.ctrs p none
      counts := put s.counts p.1 (s.counts p.1 - 1) } (.pkt (.leave p) :: h) := by
  have hin : ∀ q, inside q (.pkt (.leave p) :: h) = (!decide (p = q) && inside q h) := fun _ => rfl
  refine ⟨?_, ?_, ?_, ?_⟩
  · obtain ⟨L, h1, h2, h3⟩ := d.live
    refine ⟨L.erase p, h1.erase p, ?_, ?_⟩
    · intro q
      rw [hin, h1.mem_erase_iff, h2, ne_eq, eq_comm (a := q)]
      simp
    · intro n
      have hm := (h2 p).2 hi
      have hperm := (List.perm_cons_erase hm).filter (fun q => q.1 == n)
      have hl := hperm.length_eq
      rw [List.filter_cons] at hl
      simp only [put]
      by_cases hn : n = p.1
      · subst hn
        simp only [beq_self_eq_true, if_true, List.length_cons] at hl
        rw [if_pos rfl, h3, hl]; omega
      · rw [if_neg (by simpa using Ne.symm hn)] at hl
        rw [if_neg hn, h3, hl]
  · intro q
    simp only [put, hin]
    by_cases hq : q = p
    · subst hq; simp
    · rw [if_neg hq, d.rg]
      have : decide (p = q) = false := by simpa using Ne.symm hq
      rw [this]
      simp [value]
  · intro q
    simp only [put, hin, places]
    by_cases hq : q = p
    · subst hq; simp
    · rw [if_neg hq, d.ct]
      have : decide (p = q) = false := by simpa using Ne.symm hq
      rw [this]; simp
  · intro q x b' hv
    exact d.sz q x b' hv


/-- The invariant. -/
structure Inv (s : State) (h : List Vis) : Prop where
  d : Data s h
  c : Ctl s h

theorem say_ok {s : State} {m : Msg} (h1 : s.reply = none) (h2 : size m ≤ 256) :
    say s m = .ok { s with reply := some (s.reqId, m) } := by
  unfold say
  rw [if_neg (by omega), h1]

theorem update_inv {s : State} {h : List Vis} (c : Ctl s h) (hc : s.canContinue = true) {e : Pkt} {p : Pid}
    {id : Nat} {b : Bytes} (f : Nat → Option Bytes) (t)
    (hreg : s.regs p = some f) (hpid : e.pid = p) (hint : Interests h e ↔ (AwaitsNext h ∨ watching id h = true))
    (hrep : report e = .field p id b) (hb : b.length ≤ 208) (hent : ∀ p port, e ≠ .enter p port)
    (d : Data { s with
      regs := put s.regs p (some (setReg f id b))
      ctrs := t } (.pkt e :: h)) :
    ∃ s', update { s with ctrs := t } p id b = .ok s' ∧ Inv s' (.pkt e :: h) := by
  have hin : ∀ p port, e = .enter p port → stopsIn h = true → ∃ c, inside (p.1, c) h = true :=
    fun p port he => absurd he (hent p port)
  have hcond : (inFilters s p && (s.breakNext || s.watch.contains id)) = true ↔ Stops h e := by
    unfold Stops
    rw [hpid, hint, ← filters_iff c, ← (run_facts c hc).2.1, ← c.wt]
    simp only [Bool.and_eq_true, Bool.or_eq_true]
  unfold update
  simp only [hreg]
  have e1 : inFilters { s with
      regs := put s.regs p (some (setReg f id b))
      ctrs := t } p = inFilters s p := rfl
  rw [e1]
  by_cases hs : Stops h e
  · rw [if_pos (hcond.2 hs)]
    obtain ⟨hr, hctl⟩ := c.stopStep hc hs hin (put s.regs p (some (setReg f id b))) t s.counts
    rw [say_ok (by exact hr) (by simp only [size]; omega), ← hrep]
    exact ⟨_, rfl, ⟨d.live, d.rg, d.ct, d.sz⟩, hctl⟩
  · rw [if_neg (fun hx => hs (hcond.1 hx))]
    exact ⟨_, rfl, d, c.quietStep hc hs hin _ _ _⟩

theorem pkt_inv {s : State} {h : List Vis} (i : Inv s h) {e : Pkt} (hp : Polite h (.pkt e)) :
    (pkt s e = .blocked ∧ (s.canContinue = false ∨ (stopsIn h = true ∧ ∃ p port, e = .enter p port ∧ ¬ ∃ c, inside (p.1, c) h = true))) ∨
    ∃ s', pkt s e = .ok s' ∧ Inv s' (.pkt e :: h) := by
  by_cases hc : s.canContinue = true
  swap
  · have hc : s.canContinue = false := by simpa using hc
    left
    refine ⟨?_, .inl hc⟩
    cases e <;> simp [pkt, hc]
  have hn := (run_facts i.c hc).2.1
  cases e with
  | enter p port =>
    have hi : inside p h = false := hp
    simp only [pkt]
    by_cases hst : (s.stopIn && s.counts p.1 == 0) = true
    · left
      rw [if_neg (by rw [hst]; simp)]
      simp only [Bool.and_eq_true, beq_iff_eq] at hst
      exact ⟨rfl, .inr ⟨i.c.st ▸ hst.1, p, port, rfl, fun hx => (count_pos i.d p.1).2 hx hst.2⟩⟩
    · right
      rw [if_pos (by rw [hc, Bool.eq_false_iff.2 hst]; rfl)]
      have hin : ∀ p' port', Pkt.enter p port = .enter p' port' → stopsIn h = true →
          ∃ c, inside (p'.1, c) h = true := by
        intro p' port' he hs
        cases he
        rw [← count_pos i.d]
        intro h0
        rw [← i.c.st] at hs
        rw [hs, h0] at hst
        exact hst rfl
      have hcond : (inFilters s p && (s.breakNext || s.breakIn)) = true ↔ Stops h (.enter p port) := by
        unfold Stops Interests
        rw [← hn, ← i.c.br]
        simp only [Bool.and_eq_true, Bool.or_eq_true]
        rw [filters_iff i.c]
        exact Iff.rfl
      unfold enter
      rw [i.d.rg, i.d.ct, hi]
      simp only [Bool.false_eq_true, if_false, Option.isSome_none, Bool.or_self]
      have e1 : inFilters { s with
          regs := put s.regs p (some fun _ => none)
          ctrs := put s.ctrs p (some [])
          counts := put s.counts p.1 (s.counts p.1 + 1) } p = inFilters s p := rfl
      rw [e1]
      have d := i.d.put_enter (port := port) hi
      by_cases hs : Stops h (.enter p port)
      · rw [if_pos (hcond.2 hs)]
        obtain ⟨hr, hctl⟩ := i.c.stopStep hc hs hin (put s.regs p (some fun _ => none))
          (put s.ctrs p (some [])) (put s.counts p.1 (s.counts p.1 + 1))
        rw [say_ok (by exact hr) (by simp [size])]
        exact ⟨_, rfl, ⟨d.live, d.rg, d.ct, d.sz⟩, hctl⟩
      · rw [if_neg (fun hx => hs (hcond.1 hx))]
        exact ⟨_, rfl, d, i.c.quietStep hc hs hin _ _ _⟩
  | leave p =>
    right
    have hi : inside p h = true := hp
    have h0 : s.counts p.1 ≠ 0 := (count_pos i.d p.1).2 ⟨p.2, hi⟩
    simp only [pkt]
    unfold leave
    rw [if_pos hc, i.d.rg, i.d.ct, hi]
    simp only [if_true, Option.isNone_some, Bool.false_or]
    rw [if_neg (by simpa using h0)]
    exact ⟨_, rfl, i.d.put_leave hi, i.c.quietStep hc (e := .leave p) (fun hs => hs.2) (fun _ _ he => by cases he) _ _ _⟩
  | upd p id b =>
    right
    obtain ⟨hi, hb⟩ := hp
    simp only [pkt]
    rw [if_pos hc]
    have hreg : s.regs p = some fun id => value p id h := by rw [i.d.rg, if_pos hi]
    exact update_inv i.c hc (e := .upd p id b) _ s.ctrs hreg rfl Iff.rfl rfl hb (fun _ _ he => by cases he)
      (i.d.put_upd hi hb)
  | ctr p v =>
    right
    obtain ⟨hi, hv, hpop⟩ := hp
    simp only [pkt]
    rw [if_pos hc]
    have hreg : s.regs p = some fun id => value p id h := by rw [i.d.rg, if_pos hi]
    have hct : s.ctrs p = some (places p h) := by rw [i.d.ct, if_pos hi]
    have d := i.d.put_ctr (v := v) hi
    unfold counter
    simp only [hct, toBytes4]
    by_cases hv' : 2 ^ 31 ≤ v
    · rw [if_pos ((head_ge hv).2 hv'), if_neg (by simpa using hpop hv')]
      rw [if_pos hv'] at d
      exact update_inv i.c hc (e := .ctr p v) _ _ hreg rfl Iff.rfl rfl (by simp [bytes4])
        (fun _ _ he => by cases he) d
    · rw [if_neg (fun hx => hv' ((head_ge hv).1 hx))]
      rw [if_neg hv'] at d
      exact update_inv i.c hc (e := .ctr p v) _ _ hreg rfl Iff.rfl rfl (by simp [bytes4])
        (fun _ _ he => by cases he) d

/-! ## Requests -/

theorem Data.req {s s' : State} {h : List Vis} (d : Data s h) {v : Vis} (hv : ∀ e, v ≠ .pkt e)
    (h1 : s'.regs = s.regs) (h2 : s'.ctrs = s.ctrs) (h3 : s'.counts = s.counts) : Data s' (v :: h) := by
  obtain ⟨d1, d2, d3, d4⟩ := d
  cases v with
  | pkt e => exact absurd rfl (hv e)
  | req n r => exact ⟨by rw [h3]; exact d1, by rw [h1]; exact d2, by rw [h2]; exact d3, d4⟩
  | rep n m => exact ⟨by rw [h3]; exact d1, by rw [h1]; exact d2, by rw [h2]; exact d3, d4⟩
  | cfg => exact ⟨by rw [h3]; exact d1, by rw [h1]; exact d2, by rw [h2]; exact d3, d4⟩

theorem sends_status {s : State} {c : Nat} (h1 : s.reply = none) :
    say s (.status c) = .ok { s with reply := some (s.reqId, .status c) } := say_ok h1 (by simp [size])

theorem code_false {b : Bool} (h : b = false) : code b = .status 1 := by rw [h]; rfl

theorem code_true {b : Bool} (h : b = true) : code b = .status 0 := by rw [h]; rfl

theorem dispatch_inv {s : State} {h : List Vis} (i : Inv s h) {r : Req} (hph : s.phase = .got r)
    (hp : Polite h (.req s.reqId r)) :
    ∃ s', (dispatch s r).wait = .ok s' ∧ Inv s' (.req s.reqId r :: h) := by
  obtain ⟨d, g, ha, hbr, hst, hwt, hfi, hfa, hq, hpo⟩ := i
  unfold PhaseOk at hpo
  rw [hph] at hpo
  obtain ⟨p1, p2, p3, p4⟩ := hpo
  have hg : Good num (.req s.reqId r :: h) := .req g p1
  have hd : ∀ s' : State, s'.regs = s.regs → s'.ctrs = s.ctrs → s'.counts = s.counts →
      Data s' (.req s.reqId r :: h) := fun s' => d.req (fun _ he => by cases he)
  -- a request answered at once that leaves the rest alone
  have hsame : ∀ m, size m ≤ 256 → answer h r = some m → clears h r = false →
      attached (.req s.reqId r :: h) = attached h → breaksIn (.req s.reqId r :: h) = breaksIn h →
      stopsIn (.req s.reqId r :: h) = stopsIn h → (∀ id, watching id (.req s.reqId r :: h) = watching id h) →
      chosen (.req s.reqId r :: h) = chosen h →
      ∃ s', (say s m).wait = .ok s' ∧ Inv s' (.req s.reqId r :: h) := by
    intro m hm han hcl e1 e2 e3 e4 e5
    rw [say_ok p4 hm]
    refine ⟨_, rfl, hd _ rfl rfl rfl, hg, ha.trans e1.symm, hbr.trans e2.symm, hst.trans e3.symm,
      fun id => (hwt id).trans (e4 id).symm, by rw [e5]; exact hfi, by rw [e5]; exact hfa, ?_, ?_⟩
    · rw [e1, e2, e3]; intro hx; exact ⟨(hq hx).1, (hq hx).2.1, fun id => (e4 id).trans ((hq hx).2.2 id)⟩
    · exact ⟨s.reqId, r, h, rfl, by simp [num, hcl], by rw [e1]; exact p2, p3, .inl han⟩
  cases r with
  | cont =>
    have hat : attached h = true := hp
    exact ⟨_, rfl, hd _ rfl rfl rfl, hg, ha, hbr, hst, hwt, hfi, hfa, hq,
      s.reqId, .cont, h, rfl, by rw [p4]; exact ⟨.inl rfl, hat, rfl, p3, rfl, fun hx => hx⟩⟩
  | next =>
    have hat : attached h = true := hp
    exact ⟨_, rfl, hd _ rfl rfl rfl, hg, ha, hbr, hst, hwt, hfi, hfa, hq,
      s.reqId, .next, h, rfl, by rw [p4]; exact ⟨.inr rfl, hat, rfl, rfl, rfl, fun hx => hx⟩⟩
  | getValue p id =>
    simp only [dispatch]
    by_cases hi : inside p h = true
    · have hr : s.regs p = some fun id => value p id h := by rw [d.rg, if_pos hi]
      rw [hr]
      cases hv : value p id h with
      | none =>
        simp only [hv]
        exact hsame _ (by simp [size]) (by simp [answer, hi, hv]) rfl rfl rfl rfl (fun _ => rfl) rfl
      | some b =>
        simp only [hv]
        exact hsame _ (by have := d.sz _ _ _ hv; simp only [size]; omega) (by simp [answer, hi, hv])
          rfl rfl rfl rfl (fun _ => rfl) rfl
    · have hr : s.regs p = none := by rw [d.rg, if_neg hi]
      rw [hr]
      exact hsame _ (by simp [size]) (by simp [answer, hi]) rfl rfl rfl rfl (fun _ => rfl) rfl
  | getBacktrace p =>
    simp only [dispatch]
    have hl : (places p h).length ≤ 54 := hp
    by_cases hi : inside p h = true
    · have hr : s.ctrs p = some (places p h) := by rw [d.ct, if_pos hi]
      rw [hr]
      exact hsame _ (by simp only [size]; omega) (by simp [answer, hi]) rfl rfl rfl rfl (fun _ => rfl) rfl
    · have hr : s.ctrs p = none := by rw [d.ct, if_neg hi]
      rw [hr]
      exact hsame _ (by simp [size]) (by simp [answer, hi]) rfl rfl rfl rfl (fun _ => rfl) rfl
  | breakIn =>
    simp only [dispatch]
    have hat : attached h = true := hp
    rw [sends_status (by exact p4)]
    exact ⟨_, rfl, hd _ rfl rfl rfl, hg, ha, rfl, hst, hwt, hfi, hfa,
      fun hx => absurd ((show attached h = false from hx).symm.trans hat) (by decide),
      s.reqId, _, h, rfl, rfl, p2, p3, .inl rfl⟩
  | removeIn =>
    simp only [dispatch]
    by_cases hb : s.breakIn = true
    · rw [if_neg (by rw [hb]; simp), sends_status (by exact p4)]
      exact ⟨_, rfl, hd _ rfl rfl rfl, hg, ha, rfl, hst, hwt, hfi, hfa,
        fun hx => ⟨rfl, (hq hx).2.1, (hq hx).2.2⟩,
        s.reqId, _, h, rfl, rfl, p2, p3, .inl (congrArg some (code_true (hbr ▸ hb)))⟩
    · have hb : s.breakIn = false := by simpa using hb
      rw [if_pos (by rw [hb]; rfl)]
      exact hsame _ (by simp [size]) (congrArg some (code_false (hbr ▸ hb))) rfl rfl
        (by rw [← hbr, hb]; rfl) rfl (fun _ => rfl) rfl
  | stopIn =>
    simp only [dispatch]
    have hat : attached h = true := hp
    rw [sends_status (by exact p4)]
    exact ⟨_, rfl, hd _ rfl rfl rfl, hg, ha, hbr, rfl, hwt, hfi, hfa,
      fun hx => absurd ((show attached h = false from hx).symm.trans hat) (by decide),
      s.reqId, _, h, rfl, rfl, p2, p3, .inl rfl⟩
  | resumeIn =>
    simp only [dispatch]
    by_cases hb : s.stopIn = true
    · rw [if_neg (by rw [hb]; simp), sends_status (by exact p4)]
      exact ⟨_, rfl, hd _ rfl rfl rfl, hg, ha, hbr, rfl, hwt, hfi, hfa,
        fun hx => ⟨(hq hx).1, rfl, (hq hx).2.2⟩,
        s.reqId, _, h, rfl, rfl, p2, p3, .inl (congrArg some (code_true (hst ▸ hb)))⟩
    · have hb : s.stopIn = false := by simpa using hb
      rw [if_pos (by rw [hb]; rfl)]
      exact hsame _ (by simp [size]) (congrArg some (code_false (hst ▸ hb))) rfl rfl rfl
        (by rw [← hst, hb]; rfl) (fun _ => rfl) rfl
  | filter l =>
    have hl : l.length ≤ 30 := hp
    simp only [dispatch]
    rw [if_neg (by omega), sends_status (by exact p4)]
    exact ⟨_, rfl, hd _ rfl rfl rfl, hg, ha, hbr, hst, hwt, rfl, rfl, hq,
      s.reqId, _, h, rfl, rfl, p2, p3, .inl rfl⟩
  | watch id =>
    simp only [dispatch]
    have hat : attached h = true := hp
    rw [sends_status (by exact p4)]
    refine ⟨_, rfl, hd _ rfl rfl rfl, hg, ha, hbr, hst, ?_, hfi, hfa,
      fun hx => absurd ((show attached h = false from hx).symm.trans hat) (by decide),
      s.reqId, _, h, rfl, rfl, p2, p3, .inl rfl⟩
    intro x
    simp only [watching, ← hwt, List.contains_cons]
    by_cases hx : x = id
    · subst hx; simp
    · simp [hx, Ne.symm hx]
  | unwatch id =>
    simp only [dispatch]
    by_cases hb : s.watch.contains id = true
    · rw [if_pos hb, sends_status (by exact p4)]
      have hw : ∀ x, (s.watch.filter fun y => y != id).contains x = watching x (.req s.reqId (.unwatch id) :: h) := by
        intro x
        simp only [watching, ← hwt]
        by_cases hx : x = id
        · subst hx; simp
        · have : decide (id = x) = false := by simpa using Ne.symm hx
          rw [this]
          simp only [Bool.not_false, Bool.true_and]
          rw [Bool.eq_iff_iff]
          simp [hx]
      refine ⟨_, rfl, hd _ rfl rfl rfl, hg, ha, hbr, hst, hw, hfi, hfa, ?_,
        s.reqId, _, h, rfl, rfl, p2, p3, .inl (congrArg some (code_true (hwt id ▸ hb)))⟩
      intro hx
      refine ⟨(hq hx).1, (hq hx).2.1, fun x => ?_⟩
      simp only [watching, (hq hx).2.2 x, Bool.and_false]
    · have hb : s.watch.contains id = false := by simpa using hb
      rw [if_neg (by rw [hb]; simp)]
      refine hsame _ (by simp [size]) (congrArg some (code_false (hwt id ▸ hb))) rfl rfl rfl rfl ?_ rfl
      intro x
      simp only [watching]
      by_cases hx : id = x
      · subst hx; rw [← hwt, hb]; simp
      · simp [hx]
  | reset =>
    simp only [dispatch]
    rw [sends_status (by exact p4)]
    exact ⟨_, rfl, hd _ rfl rfl rfl, hg, ha, rfl, rfl, fun _ => rfl, rfl, rfl,
      fun _ => ⟨rfl, rfl, fun _ => rfl⟩, s.reqId, _, h, rfl, rfl, p2, p3, .inl rfl⟩
  | attach =>
    simp only [dispatch]
    by_cases hat : attached h = true
    · have hcl : clears h .attach = false := by simp [clears, hat]
      rw [if_pos (ha.trans hat)]
      exact hsame _ (by simp [size]) (congrArg some (code_false (by rw [hat]; rfl))) hcl hat.symm
        (by simp [breaksIn, hcl]) (by simp [stopsIn, hcl]) (fun _ => by simp [watching, hcl]) (by simp [chosen, hcl])
    · have hat : attached h = false := by simpa using hat
      have hcl : clears h .attach = true := by simp [clears, hat]
      rw [if_neg (by rw [ha, hat]; simp), sends_status (by exact p4)]
      exact ⟨_, rfl, hd _ rfl rfl rfl, hg, rfl, by simp [breaksIn, hcl, resetState], by simp [stopsIn, hcl, resetState],
        fun _ => by simp [watching, hcl, resetState], by simp [chosen, hcl, resetState],
        by simp [chosen, hcl, resetState], fun hx => (by cases hx),
        s.reqId, _, h, rfl, by simp [num, hcl, resetState], rfl, p3, .inl (by simp [answer, hat, code])⟩
  | detach =>
    simp only [dispatch]
    by_cases hat : attached h = true
    · have hcl : clears h .detach = true := by simp [clears, hat]
      rw [if_neg (by rw [ha, hat]; simp), sends_status (by exact p4)]
      exact ⟨_, rfl, hd _ rfl rfl rfl, hg, rfl, by simp [breaksIn, hcl, resetState], by simp [stopsIn, hcl, resetState],
        fun _ => by simp [watching, hcl, resetState], by simp [chosen, hcl, resetState],
        by simp [chosen, hcl, resetState],
        fun _ => ⟨by simp [breaksIn, hcl], by simp [stopsIn, hcl], fun _ => by simp [watching, hcl]⟩,
        s.reqId, _, h, rfl, by simp [num, hcl, resetState], rfl, p3, .inl (by simp [answer, hat, code])⟩
    · have hat : attached h = false := by simpa using hat
      have hcl : clears h .detach = false := by simp [clears, hat]
      rw [if_pos (by rw [ha, hat]; rfl)]
      exact hsame _ (by simp [size]) (congrArg some (code_false hat)) hcl hat.symm
        (by simp [breaksIn, hcl]) (by simp [stopsIn, hcl]) (fun _ => by simp [watching, hcl]) (by simp [chosen, hcl])

theorem init_inv : Inv {} [] := by
  refine ⟨⟨⟨[], List.nodup_nil, by simp [inside], by simp⟩, ?_, ?_, ?_⟩, .nil, rfl, rfl, rfl, fun _ => rfl, rfl, rfl,
    fun _ => ⟨rfl, rfl, fun _ => rfl⟩, rfl, rfl, rfl⟩
  · intro p; simp [inside]
  · intro p; simp [inside]
  · intro p id b hv; cases hv

theorem recv_inv {s : State} {h : List Vis} (i : Inv s h) {n : Nat} {r : Req} (hph : s.phase = .idle) :
    Inv { s with
      reply := none
      reqId := n
      phase := .got r } h := by
  obtain ⟨d, g, ha, hbr, hst, hwt, hfi, hfa, hq, hpo⟩ := i
  unfold PhaseOk at hpo
  rw [hph] at hpo
  exact ⟨⟨d.live, d.rg, d.ct, d.sz⟩, g, ha, hbr, hst, hwt, hfi, hfa, hq, hpo.1, hpo.2.1, hpo.2.2, rfl⟩

theorem timeout_inv {s : State} {h : List Vis} (i : Inv s h) (hph : s.phase = .waiting) (hr : s.reply = none) :
    Inv { s with
      canContinue := false
      breakNext := false
      reply := some (s.reqId, .keepAlive) } h := by
  obtain ⟨d, g, ha, hbr, hst, hwt, hfi, hfa, hq, hpo⟩ := i
  unfold PhaseOk at hpo
  rw [hph, hr] at hpo
  obtain ⟨n, r, h0, h1, h2, h3, h4, h5, h6, h7⟩ := hpo
  refine ⟨⟨d.live, d.rg, d.ct, d.sz⟩, g, ha, hbr, hst, hwt, hfi, hfa, hq, ?_⟩
  unfold PhaseOk
  simp only [hph]
  exact ⟨n, r, h0, h1, h6, by rw [h3]; rfl, trivial, .inr ⟨h2, h3, .inr ⟨trivial, h7⟩⟩⟩

theorem send_inv {s : State} {h : List Vis} (i : Inv s h) (hph : s.phase = .waiting) {k : Nat} {m : Msg}
    (hr : s.reply = some (k, m)) : Inv { s with phase := .idle } (.rep k m :: h) := by
  obtain ⟨d, g, ha, hbr, hst, hwt, hfi, hfa, hq, hpo⟩ := i
  unfold PhaseOk at hpo
  rw [hph, hr] at hpo
  obtain ⟨n, r, h0, h1, h2, h3, h4, h5⟩ := hpo
  refine ⟨d.req (fun _ he => by cases he) rfl rfl rfl, ?_, ha, hbr, hst, hwt, hfi, hfa, hq, rfl, h3, h4⟩
  subst h2
  rcases h5 with h5 | ⟨h5, h6, h7 | h7⟩
  · exact .answer g h1 h5
  · obtain ⟨e, h', rfl, h8, rfl⟩ := h7
    exact .stop g h1 h5 h8
  · obtain ⟨rfl, h8⟩ := h7
    exact .alive g h1 h5 h8

theorem cfg_inv {s : State} {h : List Vis} (i : Inv s h) (hp : attached h = false) : Inv s (.cfg :: h) := by
  obtain ⟨d, g, ha, hbr, hst, hwt, hfi, hfa, hq, hpo⟩ := i
  refine ⟨d.req (fun _ he => by cases he) rfl rfl rfl, .cfg g hp, ha, hbr, hst, hwt, hfi, hfa, hq, ?_⟩
  unfold PhaseOk at hpo ⊢
  split at hpo
  · exact hpo
  · exact hpo
  · obtain ⟨n, r, h0, h1, h2⟩ := hpo
    refine ⟨n, r, h0, h1, ?_⟩
    cases hr : s.reply with
    | none => rw [hr] at h2; rw [hp] at h2; cases h2.2.1
    | some x =>
      obtain ⟨k, m⟩ := x
      rw [hr] at h2
      obtain ⟨h3, h4, h5, h6⟩ := h2
      refine ⟨h3, h4, h5, ?_⟩
      rcases h6 with h6 | ⟨-, h6, -⟩
      · exact .inl h6
      · rw [hp] at h6; cases h6

theorem step_inv {s : State} {h : List Vis} (i : Inv s h) {a : Act}
    (hp : ∀ v, vis s a = some v → Polite h v) :
    step s a = .blocked ∨ ∃ s', step s a = .ok s' ∧ Inv s' (hist s a h) := by
  cases a with
  | recv n r =>
    cases hph : s.phase with
    | idle =>
      right
      simp only [step, hph]
      exact ⟨_, rfl, recv_inv i hph⟩
    | got _ => left; simp only [step, hph]
    | waiting => left; simp only [step, hph]
  | dispatch =>
    cases hph : s.phase with
    | idle => left; simp only [step, hph]
    | got r =>
      right
      have hv : vis s .dispatch = some (.req s.reqId r) := by simp only [vis, hph]
      simp only [step, hist, hv, hph]
      exact dispatch_inv i hph (hp _ hv)
    | waiting => left; simp only [step, hph]
  | timeout =>
    cases hph : s.phase with
    | idle => left; simp only [step, hph]
    | got r => left; simp only [step, hph]
    | waiting =>
      cases hr : s.reply with
      | some x => left; simp only [step, hph, hr]
      | none =>
        right
        simp only [step, hph, hr]
        rw [say_ok rfl (by simp [size])]
        have := timeout_inv i hph hr
        rw [hph] at this
        exact ⟨_, rfl, this⟩
  | send =>
    cases hph : s.phase with
    | idle => left; simp only [step, hph]
    | got r => left; simp only [step, hph]
    | waiting =>
      cases hr : s.reply with
      | none => left; simp only [step, hph, hr]
      | some x =>
        right
        simp only [step, hist, vis, hph, hr, Option.map_some]
        have := send_inv i hph hr
        rw [hr] at this
        exact ⟨_, rfl, this⟩
  | pkt e =>
    rcases pkt_inv i (hp _ rfl) with hb | hb
    · exact .inl hb.1
    · exact .inr hb
  | cfg =>
    right
    have hat : attached h = false := hp _ rfl
    refine ⟨s, ?_, cfg_inv i hat⟩
    simp [step, cfg, i.c.att, hat]

end Bm.Debugger
