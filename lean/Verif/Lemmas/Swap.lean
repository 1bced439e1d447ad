import Verif.Spec.Swap
import Verif.Lemmas.Monitor

/-!
# Invariants of the exchange of configurations
-/

namespace Bm.Swap

open Spec

variable {C : Type}

/-- The thread owns `process_packet_mutex`. -/
def PC.holdsPkt : PC C → Bool
  | .draining _ _ => true
  | .swapping _ _ => true
  | .factory _ _ => true
  | _ => false

/-- What a step that does not fail can be. -/
inductive Stepped (s : Sw C) : Label C → Sw C → Prop where
  | disabledL {t j} : s.threads[t]? = some .idle → Stepped s (.load t j) s
  | disabledS {t} : s.threads[t]? = some .idle → Stepped s (.swap t) s
  | load {t j} : s.threads[t]? = some .idle → Stepped s (.load t j) (s.at t (.loading j 0))
  | swap {t} : s.threads[t]? = some .idle → Stepped s (.swap t) (s.at t (.ordering 0))
  | loadEnd {t j i} : s.threads[t]? = some (.loading j i) → s.cxts[i]? = none →
      Stepped s (.go t) (s.at t (.storing j))
  | loadFail {t j i c x} : s.threads[t]? = some (.loading j i) → s.cxts[i]? = some c → c.rt = some x →
      Stepped s (.go t) (s.at t .idle)
  | loadOne {t j i c} : s.threads[t]? = some (.loading j i) → s.cxts[i]? = some c → c.rt = none →
      Stepped s (.go t) ({ s with cxts := s.cxts.set i { c with rt := some j } }.at t (.loading j (i + 1)))
  | store {t j} : s.threads[t]? = some (.storing j) → Stepped s (.go t) ({ s with current := j }.at t .idle)
  | orderEnd {t i} : s.threads[t]? = some (.ordering i) → s.cxts[i]? = none →
      Stepped s (.go t) (s.at t .locking)
  | orderFail {t i c} : s.threads[t]? = some (.ordering i) → s.cxts[i]? = some c → c.rt = none →
      Stepped s (.go t) (s.at t .idle)
  | orderOne {t i c x} : s.threads[t]? = some (.ordering i) → s.cxts[i]? = some c → c.rt = some x →
      Stepped s (.go t) ({ s with cxts := s.cxts.set i { c with ordered := true } }.at t (.ordering (i + 1)))
  | lock {t} : s.threads[t]? = some .locking → s.cfgMutex = false →
      Stepped s (.go t) ({ s with cfgMutex := true }.at t .checking)
  | check {t} : s.threads[t]? = some .checking → s.cxts.any Cxt.ordered = true →
      Stepped s (.go t) (s.at t .lockPkt)
  | lockPkt {t} : s.threads[t]? = some .lockPkt → s.pktMutex = false →
      Stepped s (.go t) ({ s with pktMutex := true }.at t (.draining 0 true))
  | drained {t i rc c p} : s.threads[t]? = some (.draining i rc) → s.cxts[i]? = some c →
      s.pools[i]? = some p → c.ordered = true → p.count = 0 → Stepped s (.go t) (s.at t (.swapping i rc))
  | skip {t i rc c p} : s.threads[t]? = some (.draining i rc) → s.cxts[i]? = some c →
      s.pools[i]? = some p → c.ordered = false → Stepped s (.go t) (s.at t (.draining (i + 1) rc))
  | finish {t i} : s.threads[t]? = some (.draining i false) → (s.cxts[i]? = none ∨ s.pools[i]? = none) →
      Stepped s (.go t) ({ s with cfgMutex := false, pktMutex := false }.at t .idle)
  | doSwap {t i rc c} : s.threads[t]? = some (.swapping i rc) → s.cxts[i]? = some c → c.ordered = true →
      Stepped s (.go t) ({ s with cxts := s.cxts.set i c.doSwap }.at t (.factory i rc))
  | noSwap {t i rc c} : s.threads[t]? = some (.swapping i rc) → s.cxts[i]? = some c → c.ordered = false →
      Stepped s (.go t) (s.at t (.draining (i + 1) rc))
  | factory {t i rc c p} : s.threads[t]? = some (.factory i rc) → s.cxts[i]? = some c →
      s.pools[i]? = some p → p.count = 0 →
      Stepped s (.go t) ({ s with pools := s.pools.set i ⟨c.cur, [], 0⟩ }.at t (.draining (i + 1) false))
  | newPacket {c s'} : s.pktMutex = false → s.create c = some s' → Stepped s (.newPacket c) s'
  | clone {p k s'} : s.packets[p]? = some k → s.create k.cxt = some s' → Stepped s (.clone p) s'
  | cloneTo {p c k s'} : s.packets[p]? = some k → s.create c = some s' → Stepped s (.cloneTo p c) s'
  | stay {p c k} : s.packets[p]? = some k → k.cxt = c → Stepped s (.change p c) s
  | change {p c k s1 s'} : s.packets[p]? = some k → k.cxt ≠ c → s.drop p = some s1 → s1.create c = some s' →
      Stepped s (.change p c) s'
  | destroy {p s'} : s.drop p = some s' → Stepped s (.destroy p) s'

/-- A failed assertion. -/
inductive Failed (s : Sw C) : Label C → Prop where
  | check {t} : s.threads[t]? = some .checking → s.cxts.any Cxt.ordered = false → Failed s (.go t)
  | finish {t i} : s.threads[t]? = some (.draining i true) → (s.cxts[i]? = none ∨ s.pools[i]? = none) →
      Failed s (.go t)
  | factory {t i rc p} : s.threads[t]? = some (.factory i rc) → s.pools[i]? = some p → p.count ≠ 0 →
      Failed s (.go t)

theorem go_cases {s : Sw C} {t : Nat} {pc : PC C} {o : Out C} (hp : s.threads[t]? = some pc)
    (h : s.go t pc = some o) :
    (o = .bad ∧ Failed s (.go t)) ∨ ∃ s' r, o = .ok s' r ∧ Stepped s (.go t) s' := by
  cases pc with
  | idle => simp [Sw.go] at h
  | loading j i =>
    simp only [Sw.go] at h
    cases hc : s.cxts[i]? with
    | none =>
      simp only [hc, Option.some.injEq] at h
      exact .inr ⟨_, _, h.symm, .loadEnd hp hc⟩
    | some c =>
      simp only [hc, Cxt.load] at h
      cases hr : c.rt with
      | none =>
        simp only [hr, Option.some.injEq] at h
        exact .inr ⟨_, _, h.symm, .loadOne hp hc hr⟩
      | some x =>
        simp only [hr, Option.some.injEq] at h
        exact .inr ⟨_, _, h.symm, .loadFail hp hc hr⟩
  | storing j =>
    simp only [Sw.go] at h
    by_cases hm : s.cfgMutex = true
    · rw [if_pos hm] at h
      cases h
    · rw [if_neg hm, Option.some.injEq] at h
      exact .inr ⟨_, _, h.symm, .store hp⟩
  | ordering i =>
    simp only [Sw.go] at h
    cases hc : s.cxts[i]? with
    | none =>
      simp only [hc, Option.some.injEq] at h
      exact .inr ⟨_, _, h.symm, .orderEnd hp hc⟩
    | some c =>
      simp only [hc, Cxt.order] at h
      cases hr : c.rt with
      | none =>
        simp only [hr, Option.some.injEq] at h
        exact .inr ⟨_, _, h.symm, .orderFail hp hc hr⟩
      | some x =>
        simp only [hr, Option.some.injEq] at h
        refine .inr ⟨_, _, h.symm, ?_⟩
        have := Stepped.orderOne hp hc hr
        rw [hr] at this
        exact this
  | locking =>
    simp only [Sw.go] at h
    cases hm : s.cfgMutex with
    | true => simp [hm] at h
    | false =>
      simp only [hm, Bool.false_eq_true, if_false, Option.some.injEq] at h
      exact .inr ⟨_, _, h.symm, .lock hp hm⟩
  | checking =>
    simp only [Sw.go] at h
    by_cases ha : s.cxts.any Cxt.ordered = true
    · rw [if_pos ha, Option.some.injEq] at h
      exact .inr ⟨_, _, h.symm, .check hp ha⟩
    · rw [if_neg ha, Option.some.injEq] at h
      exact .inl ⟨h.symm, .check hp (by simpa using ha)⟩
  | lockPkt =>
    simp only [Sw.go] at h
    cases hm : s.pktMutex with
    | true => simp [hm] at h
    | false =>
      simp only [hm, Bool.false_eq_true, if_false, Option.some.injEq] at h
      exact .inr ⟨_, _, h.symm, .lockPkt hp hm⟩
  | draining i rc =>
    simp only [Sw.go] at h
    cases hc : s.cxts[i]? with
    | none =>
      simp only [hc] at h
      cases rc with
      | true =>
        simp only [if_true, Option.some.injEq] at h
        exact .inl ⟨h.symm, .finish hp (.inl hc)⟩
      | false =>
        simp only [Bool.false_eq_true, if_false, Option.some.injEq] at h
        exact .inr ⟨_, _, h.symm, .finish hp (.inl hc)⟩
    | some c =>
      cases hq : s.pools[i]? with
      | none =>
        simp only [hc, hq] at h
        cases rc with
        | true =>
          simp only [if_true, Option.some.injEq] at h
          exact .inl ⟨h.symm, .finish hp (.inr hq)⟩
        | false =>
          simp only [Bool.false_eq_true, if_false, Option.some.injEq] at h
          exact .inr ⟨_, _, h.symm, .finish hp (.inr hq)⟩
      | some p =>
        simp only [hc, hq] at h
        cases ho : c.ordered with
        | true =>
          simp only [ho, if_true] at h
          by_cases hz : p.count = 0
          · rw [if_pos hz, Option.some.injEq] at h
            exact .inr ⟨_, _, h.symm, .drained hp hc hq ho hz⟩
          · simp [hz] at h
        | false =>
          simp only [ho, Bool.false_eq_true, if_false, Option.some.injEq] at h
          exact .inr ⟨_, _, h.symm, .skip hp hc hq ho⟩
  | swapping i rc =>
    simp only [Sw.go] at h
    cases hc : s.cxts[i]? with
    | none => simp [hc] at h
    | some c =>
      simp only [hc] at h
      cases ho : c.ordered with
      | true =>
        simp only [ho, if_true, Option.some.injEq] at h
        exact .inr ⟨_, _, h.symm, .doSwap hp hc ho⟩
      | false =>
        simp only [ho, Bool.false_eq_true, if_false, Option.some.injEq] at h
        exact .inr ⟨_, _, h.symm, .noSwap hp hc ho⟩
  | factory i rc =>
    simp only [Sw.go] at h
    cases hc : s.cxts[i]? with
    | none => simp [hc] at h
    | some c =>
      cases hq : s.pools[i]? with
      | none => simp [hc, hq] at h
      | some p =>
        simp only [hc, hq] at h
        by_cases hz : p.count = 0
        · rw [if_pos hz, Option.some.injEq] at h
          exact .inr ⟨_, _, h.symm, .factory hp hc hq hz⟩
        · rw [if_neg hz, Option.some.injEq] at h
          exact .inl ⟨h.symm, .factory hp hq hz⟩

theorem step_cases {s : Sw C} {l : Label C} {o : Out C} (h : s.step l = some o) :
    (o = .bad ∧ Failed s l) ∨ ∃ s' r, o = .ok s' r ∧ Stepped s l s' := by
  cases l with
  | load t j =>
    simp only [Sw.step] at h
    split at h
    · rename_i hp
      split at h
      · cases h
        exact .inr ⟨_, _, rfl, .load hp⟩
      · cases h
        exact .inr ⟨_, _, rfl, .disabledL hp⟩
    · cases h
  | swap t =>
    simp only [Sw.step] at h
    split at h
    · rename_i hp
      split at h
      · cases h
        exact .inr ⟨_, _, rfl, .swap hp⟩
      · cases h
        exact .inr ⟨_, _, rfl, .disabledS hp⟩
    · cases h
  | go t =>
    simp only [Sw.step] at h
    cases hp : s.threads[t]? with
    | none => simp [hp] at h
    | some pc =>
      simp only [hp] at h
      exact go_cases hp h
  | newPacket c =>
    simp only [Sw.step] at h
    cases hm : s.pktMutex with
    | true => simp [hm] at h
    | false =>
      simp only [hm, Bool.false_eq_true, if_false] at h
      obtain ⟨s', h1, rfl⟩ := Option.map_eq_some_iff.1 h
      exact .inr ⟨_, _, rfl, .newPacket hm h1⟩
  | clone p =>
    simp only [Sw.step] at h
    cases hk : s.packets[p]? with
    | none => simp [hk] at h
    | some k =>
      simp only [hk] at h
      obtain ⟨s', h1, rfl⟩ := Option.map_eq_some_iff.1 h
      exact .inr ⟨_, _, rfl, .clone hk h1⟩
  | cloneTo p c =>
    simp only [Sw.step] at h
    cases hk : s.packets[p]? with
    | none => simp [hk] at h
    | some k =>
      simp only [hk] at h
      obtain ⟨s', h1, rfl⟩ := Option.map_eq_some_iff.1 h
      exact .inr ⟨_, _, rfl, .cloneTo hk h1⟩
  | change p c =>
    simp only [Sw.step] at h
    cases hk : s.packets[p]? with
    | none => simp [hk] at h
    | some k =>
      simp only [hk] at h
      by_cases hc : k.cxt = c
      · rw [if_pos hc, Option.some.injEq] at h
        exact .inr ⟨_, _, h.symm, .stay hk hc⟩
      · rw [if_neg hc] at h
        obtain ⟨s', h1, rfl⟩ := Option.map_eq_some_iff.1 h
        obtain ⟨s1, h2, h3⟩ := Option.bind_eq_some_iff.1 h1
        exact .inr ⟨_, _, rfl, .change hk hc h2 h3⟩
  | destroy p =>
    simp only [Sw.step] at h
    obtain ⟨s', h1, rfl⟩ := Option.map_eq_some_iff.1 h
    exact .inr ⟨_, _, rfl, .destroy h1⟩


/-! ## Packets and the containers they hold -/

/-- Number of packets of context `c`. -/
def Sw.inCxt (s : Sw C) (c : Nat) : Nat := s.packets.countP (fun k => decide (k.cxt = c))

/-- The invariant of packets, pools and `process_packet_mutex`. -/
structure Inv (n : Nat) (s : Sw C) : Prop where
  lenC : s.cxts.length = n
  lenP : s.pools.length = n
  count : ∀ c p, s.pools[c]? = some p → p.count = s.inCxt c
  free : ∀ (c : Nat) (p : Pool C), s.pools[c]? = some p → ∀ v ∈ p.free, v = p.factory
  phv : ∀ k ∈ s.packets, ∃ p, s.pools[k.cxt]? = some p ∧ k.phv = p.factory
  cur : ∀ c x p, s.cxts[c]? = some x → s.pools[c]? = some p →
    x.cur = p.factory ∨ ∃ (t : Nat) (rc : Bool), s.threads[t]? = some (PC.factory c rc)
  mutex : s.threads.countP PC.holdsPkt = s.pktMutex.toNat
  empty : ∀ (t i : Nat) (rc : Bool), (s.threads[t]? = some (PC.swapping i rc) ∨
    s.threads[t]? = some (PC.factory i rc)) → s.inCxt i = 0

theorem holds_of_free {n : Nat} {s : Sw C} (h : Inv n s) (hm : s.pktMutex = false) {t : Nat} {pc : PC C}
    (hp : s.threads[t]? = some pc) : pc.holdsPkt = false := by
  have h0 := h.mutex
  rw [hm] at h0
  have h1 : s.threads.countP PC.holdsPkt = 0 := h0
  rw [List.countP_eq_zero] at h1
  have := h1 pc (List.mem_of_getElem? hp)
  simpa using this

/-- Two threads owning the mutex are the same. -/
theorem holds_unique {n : Nat} {s : Sw C} (h : Inv n s) {t u : Nat} {a b : PC C}
    (ht : s.threads[t]? = some a) (hu : s.threads[u]? = some b) (ha : a.holdsPkt = true)
    (hb : b.holdsPkt = true) : t = u := by
  by_contra hne
  have h0 := h.mutex
  have h1 := Monitor.countP_set PC.holdsPkt _ _ _ PC.idle ht
  have hu' : (s.threads.set t PC.idle)[u]? = some b := by
    rw [List.getElem?_set_ne hne]
    exact hu
  have h2 : 0 < (s.threads.set t PC.idle).countP PC.holdsPkt :=
    List.countP_pos_iff.2 ⟨b, List.mem_of_getElem? hu', hb⟩
  have h3 : (PC.idle : PC C).holdsPkt = false := rfl
  rw [ha, h3] at h1
  have h4 : s.pktMutex.toNat ≤ 1 := by cases s.pktMutex <;> simp
  simp at h1
  omega

theorem at_threads (s : Sw C) (t : Nat) (pc : PC C) : (s.at t pc).threads = s.threads.set t pc := rfl

/-- Reading the threads after thread `t` moved. -/
theorem get_at {s : Sw C} {t : Nat} {a b : PC C} (ht : s.threads[t]? = some a) (u : Nat) (pc : PC C) :
    (s.threads.set t b)[u]? = some pc ↔ (u = t ∧ pc = b) ∨ (u ≠ t ∧ s.threads[u]? = some pc) := by
  by_cases hu : u = t
  · subst hu
    rw [List.getElem?_set_self (List.getElem?_eq_some_iff.1 ht).1]
    simp [eq_comm]
  · rw [List.getElem?_set_ne (Ne.symm hu)]
    simp [hu]


/-- A thread moves, nothing happens to the packets and to what they are processed with. -/
theorem inv_move {n : Nat} {s s' : Sw C} (h : Inv n s) {t : Nat} {a b : PC C} (ht : s.threads[t]? = some a)
    (hth : s'.threads = s.threads.set t b) (hpk : s'.packets = s.packets) (hpo : s'.pools = s.pools)
    (hlen : s'.cxts.length = s.cxts.length)
    (hcx : ∀ (c : Nat) (x : Cxt C), s'.cxts[c]? = some x → ∃ y : Cxt C, s.cxts[c]? = some y ∧ y.cur = x.cur)
    (hm : s'.pktMutex.toNat + a.holdsPkt.toNat = s.pktMutex.toNat + b.holdsPkt.toNat)
    (ha : ∀ i rc, a ≠ .factory i rc)
    (hb : ∀ i rc, (b = .swapping i rc ∨ b = .factory i rc) → s.inCxt i = 0) : Inv n s' := by
  have hin : ∀ c, s'.inCxt c = s.inCxt c := fun c => by simp only [Sw.inCxt, hpk]
  refine ⟨by rw [hlen, h.lenC], by rw [hpo, h.lenP], ?_, ?_, ?_, ?_, ?_, ?_⟩
  · intro c p hp
    rw [hpo] at hp
    rw [hin, h.count c p hp]
  · intro c p hp
    rw [hpo] at hp
    exact h.free c p hp
  · rw [hpk, hpo]
    exact h.phv
  · intro c x p hx hp
    rw [hpo] at hp
    obtain ⟨y, hy, hyx⟩ := hcx c x hx
    rcases h.cur c y p hy hp with h1 | ⟨u, rc, hu⟩
    · exact .inl (hyx ▸ h1)
    · refine .inr ⟨u, rc, ?_⟩
      rw [hth, get_at ht]
      refine .inr ⟨?_, hu⟩
      rintro rfl
      rw [hu] at ht
      exact ha _ _ (Option.some.inj ht).symm
  · rw [hth]
    have := Monitor.countP_set PC.holdsPkt _ _ _ b ht
    have := h.mutex
    omega
  · intro u i rc hu
    rw [hth, get_at ht, get_at ht] at hu
    rw [hin]
    rcases hu with (⟨_, hu⟩ | ⟨_, hu⟩) | (⟨_, hu⟩ | ⟨_, hu⟩)
    · exact hb i rc (.inl hu.symm)
    · exact h.empty u i rc (.inl hu)
    · exact hb i rc (.inr hu.symm)
    · exact h.empty u i rc (.inr hu)

theorem cur_same {s : Sw C} : ∀ (c : Nat) (x : Cxt C), s.cxts[c]? = some x →
    ∃ y : Cxt C, s.cxts[c]? = some y ∧ y.cur = x.cur := fun _ x h => ⟨x, h, rfl⟩

theorem cur_set {l : List (Cxt C)} {i : Nat} {c c' : Cxt C} (hc : l[i]? = some c) (he : c'.cur = c.cur) :
    ∀ (j : Nat) (x : Cxt C), (l.set i c')[j]? = some x → ∃ y : Cxt C, l[j]? = some y ∧ y.cur = x.cur := by
  intro j x hx
  by_cases hj : i = j
  · subst hj
    rw [List.getElem?_set_self (List.getElem?_eq_some_iff.1 hc).1] at hx
    cases hx
    exact ⟨c, hc, he.symm⟩
  · rw [List.getElem?_set_ne hj] at hx
    exact ⟨x, hx, rfl⟩

/-- Creating a packet. -/
theorem inv_create {n : Nat} {s s' : Sw C} (h : Inv n s) {c : Nat} (hc : s.create c = some s')
    (hno : ∀ (t : Nat) (rc : Bool), s.threads[t]? ≠ some (PC.swapping c rc) ∧
      s.threads[t]? ≠ some (PC.factory c rc)) : Inv n s' := by
  unfold Sw.create at hc
  cases hp : s.pools[c]? with
  | none => simp [hp] at hc
  | some p =>
    simp only [hp, Option.some.injEq] at hc
    have hlt := (List.getElem?_eq_some_iff.1 hp).1
    have hg : p.get.1 = p.factory ∧ p.get.2.factory = p.factory ∧ p.get.2.count = p.count + 1 ∧
        ∀ v ∈ p.get.2.free, v = p.factory := by
      unfold Pool.get
      cases hf : p.free with
      | nil =>
        refine ⟨rfl, rfl, rfl, ?_⟩
        simp [hf]
      | cons v l =>
        have := h.free c p hp
        rw [hf] at this
        refine ⟨this v (by simp), rfl, rfl, ?_⟩
        intro w hw
        exact this w (by simp at hw ⊢; exact .inr hw)
    obtain ⟨g1, g2, g3, g4⟩ := hg
    subst hc
    have hin : ∀ d, Sw.inCxt { s with pools := s.pools.set c p.get.2, packets := s.packets ++ [⟨c, p.get.1⟩] } d =
        s.inCxt d + if c = d then 1 else 0 := by
      intro d
      simp [Sw.inCxt, List.countP_append, List.countP_cons]
    refine ⟨h.lenC, by simp [h.lenP], ?_, ?_, ?_, ?_, h.mutex, ?_⟩
    · intro d q hq
      rw [hin]
      by_cases hd : c = d
      · subst hd
        rw [List.getElem?_set_self hlt] at hq
        cases hq
        rw [g3, h.count c p hp]
        simp
      · rw [List.getElem?_set_ne hd] at hq
        rw [h.count d q hq]
        simp [hd]
    · intro d q hq
      by_cases hd : c = d
      · subst hd
        rw [List.getElem?_set_self hlt] at hq
        cases hq
        rw [g2]
        exact g4
      · rw [List.getElem?_set_ne hd] at hq
        exact h.free d q hq
    · intro k hk
      simp only [List.mem_append, List.mem_singleton] at hk
      have hold : ∀ (d : Nat) (q : Pool C), s.pools[d]? = some q → ∃ q' : Pool C, (s.pools.set c p.get.2)[d]? = some q' ∧
          q'.factory = q.factory := by
        intro d q hq
        by_cases hd : c = d
        · subst hd
          rw [List.getElem?_set_self hlt]
          rw [hp] at hq
          cases hq
          exact ⟨_, rfl, g2⟩
        · rw [List.getElem?_set_ne hd]
          exact ⟨q, hq, rfl⟩
      rcases hk with hk | rfl
      · obtain ⟨q, hq, e⟩ := h.phv k hk
        obtain ⟨q', hq', e'⟩ := hold _ q hq
        exact ⟨q', hq', by rw [e, e']⟩
      · obtain ⟨q', hq', e'⟩ := hold c p hp
        exact ⟨q', hq', by rw [e', ← g1]⟩
    · intro d x q hx hq
      by_cases hd : c = d
      · subst hd
        rw [List.getElem?_set_self hlt] at hq
        cases hq
        rw [g2]
        exact h.cur c x p hx hp
      · rw [List.getElem?_set_ne hd] at hq
        exact h.cur d x q hx hq
    · intro t i rc ht
      rw [hin]
      have h1 := h.empty t i rc ht
      by_cases hd : c = i
      · subst hd
        rcases ht with ht | ht
        · exact absurd ht (hno t rc).1
        · exact absurd ht (hno t rc).2
      · simp [hd, h1]

theorem countP_eraseIdx {α : Type} (p : α → Bool) : ∀ (l : List α) (i : Nat) (a : α), l[i]? = some a →
    (l.eraseIdx i).countP p + (p a).toNat = l.countP p
  | [], i, a, h => by simp at h
  | b :: l, 0, a, h => by
    simp only [List.getElem?_cons_zero, Option.some.injEq] at h
    subst h
    simp only [List.eraseIdx_zero, List.tail_cons, List.countP_cons]
    cases p b <;> simp
  | b :: l, i + 1, a, h => by
    simp only [List.getElem?_cons_succ] at h
    have := countP_eraseIdx p l i a h
    simp only [List.eraseIdx_cons_succ, List.countP_cons]
    omega

/-- A packet is destroyed. -/
theorem inv_drop {n : Nat} {s s' : Sw C} (h : Inv n s) {i : Nat} (hc : s.drop i = some s') : Inv n s' := by
  unfold Sw.drop at hc
  cases hk : s.packets[i]? with
  | none => simp [hk] at hc
  | some k =>
    simp only [hk] at hc
    cases hp : s.pools[k.cxt]? with
    | none => simp [hp] at hc
    | some p =>
      simp only [hp, Option.some.injEq] at hc
      subst hc
      have hlt := (List.getElem?_eq_some_iff.1 hp).1
      have hin : ∀ d, Sw.inCxt
          { s with pools := s.pools.set k.cxt (p.release k.phv), packets := s.packets.eraseIdx i } d +
            (decide (k.cxt = d)).toNat = s.inCxt d := by
        intro d
        exact countP_eraseIdx _ _ _ _ hk
      have hphv : k.phv = p.factory := by
        obtain ⟨q, hq, e⟩ := h.phv k (List.mem_of_getElem? hk)
        rw [hp] at hq
        cases hq
        exact e
      refine ⟨h.lenC, by simp [h.lenP], ?_, ?_, ?_, ?_, h.mutex, ?_⟩
      · intro d q hq
        have h1 := hin d
        by_cases hd : k.cxt = d
        · subst hd
          rw [List.getElem?_set_self hlt] at hq
          cases hq
          have h2 := h.count _ p hp
          simp only [Pool.release, decide_true, Bool.toNat_true] at h1 ⊢
          omega
        · rw [List.getElem?_set_ne hd] at hq
          rw [h.count d q hq]
          simp only [hd, decide_false, Bool.toNat_false] at h1
          omega
      · intro d q hq
        by_cases hd : k.cxt = d
        · subst hd
          rw [List.getElem?_set_self hlt] at hq
          cases hq
          intro v hv
          simp only [Pool.release, List.mem_cons] at hv ⊢
          rcases hv with rfl | hv
          · exact hphv
          · exact h.free _ p hp v hv
        · rw [List.getElem?_set_ne hd] at hq
          exact h.free d q hq
      · intro k' hk'
        obtain ⟨q, hq, e⟩ := h.phv k' (List.mem_of_mem_eraseIdx hk')
        by_cases hd : k.cxt = k'.cxt
        · rw [← hd, hp] at hq
          cases hq
          refine ⟨p.release k.phv, ?_, e⟩
          show (s.pools.set k.cxt (p.release k.phv))[k'.cxt]? = _
          rw [← hd, List.getElem?_set_self hlt]
        · exact ⟨q, by
            show (s.pools.set k.cxt (p.release k.phv))[k'.cxt]? = _
            rw [List.getElem?_set_ne hd]; exact hq, e⟩
      · intro d x q hx hq
        by_cases hd : k.cxt = d
        · subst hd
          rw [List.getElem?_set_self hlt] at hq
          cases hq
          exact h.cur _ x p hx hp
        · rw [List.getElem?_set_ne hd] at hq
          exact h.cur d x q hx hq
      · intro t j rc ht
        have h1 := h.empty t j rc ht
        have h2 := hin j
        omega


theorem inv_step {n : Nat} {s s' : Sw C} {l : Label C} (h : Inv n s) (ha : Allowed n l)
    (hs : Stepped s l s') : Inv n s' := by
  -- a context in which there is a packet is not being exchanged
  have hbusy : ∀ (p : Nat) (k : Pkt C), s.packets[p]? = some k → ∀ (t : Nat) (rc : Bool),
      s.threads[t]? ≠ some (PC.swapping k.cxt rc) ∧ s.threads[t]? ≠ some (PC.factory k.cxt rc) := by
    intro p k hk t rc
    have hpos : 0 < s.inCxt k.cxt := List.countP_pos_iff.2 ⟨k, List.mem_of_getElem? hk, by simp⟩
    constructor
    · intro ht
      have := h.empty t _ rc (.inl ht)
      omega
    · intro ht
      have := h.empty t _ rc (.inr ht)
      omega
  have hone : n = 1 → ∀ (p : Nat) (k : Pkt C), s.packets[p]? = some k → k.cxt = 0 := by
    intro h1 p k hk
    obtain ⟨q, hq, _⟩ := h.phv k (List.mem_of_getElem? hk)
    have := (List.getElem?_eq_some_iff.1 hq).1
    rw [h.lenP] at this
    omega
  have hcr : ∀ {s1 s2 : Sw C} {c : Nat}, Inv n s1 → n = 1 → s1.create c = some s2 → c = 0 := by
    intro s1 s2 c h1 hn hc
    unfold Sw.create at hc
    cases hp : s1.pools[c]? with
    | none => simp [hp] at hc
    | some p =>
      have := (List.getElem?_eq_some_iff.1 hp).1
      rw [h1.lenP] at this
      omega
  cases hs with
  | disabledL ht => exact h
  | disabledS ht => exact h
  | load ht => exact inv_move h ht rfl rfl rfl rfl cur_same rfl (by simp) (by simp)
  | swap ht => exact inv_move h ht rfl rfl rfl rfl cur_same rfl (by simp) (by simp)
  | loadEnd ht hc => exact inv_move h ht rfl rfl rfl rfl cur_same rfl (by simp) (by simp)
  | loadFail ht hc hr => exact inv_move h ht rfl rfl rfl rfl cur_same rfl (by simp) (by simp)
  | loadOne ht hc hr =>
    exact inv_move h ht rfl rfl rfl (List.length_set ..) (cur_set hc rfl) rfl (by simp) (by simp)
  | store ht => exact inv_move h ht rfl rfl rfl rfl cur_same rfl (by simp) (by simp)
  | orderEnd ht hc => exact inv_move h ht rfl rfl rfl rfl cur_same rfl (by simp) (by simp)
  | orderFail ht hc hr => exact inv_move h ht rfl rfl rfl rfl cur_same rfl (by simp) (by simp)
  | orderOne ht hc hr =>
    exact inv_move h ht rfl rfl rfl (List.length_set ..) (cur_set hc rfl) rfl (by simp) (by simp)
  | lock ht hm => exact inv_move h ht rfl rfl rfl rfl cur_same rfl (by simp) (by simp)
  | check ht hm => exact inv_move h ht rfl rfl rfl rfl cur_same rfl (by simp) (by simp)
  | lockPkt ht hm => exact inv_move h ht rfl rfl rfl rfl cur_same (by simp [hm, PC.holdsPkt, Sw.at]) (by simp) (by simp)
  | @drained t i rc c p ht hc hp ho hz =>
    refine inv_move h ht rfl rfl rfl rfl cur_same rfl (by simp) ?_
    intro j rc' hj
    simp only [PC.swapping.injEq, reduceCtorEq, or_false] at hj
    rw [← hj.1, ← h.count _ _ hp, hz]
  | skip ht hc hp ho => exact inv_move h ht rfl rfl rfl rfl cur_same rfl (by simp) (by simp)
  | @finish t i ht hc =>
    refine inv_move h ht rfl rfl rfl rfl cur_same ?_ (by simp) (by simp)
    cases hm : s.pktMutex with
    | false => simpa [PC.holdsPkt] using holds_of_free h hm ht
    | true => rfl
  | @doSwap t i rc c ht hc ho =>
    have hlt := (List.getElem?_eq_some_iff.1 hc).1
    have h0 := h.empty t i rc (.inl ht)
    refine ⟨?_, h.lenP, h.count, h.free, h.phv, ?_, ?_, ?_⟩
    · show (s.cxts.set i c.doSwap).length = n
      rw [List.length_set, h.lenC]
    · intro d x p hx hp
      by_cases hd : i = d
      · subst hd
        refine .inr ⟨t, rc, ?_⟩
        rw [at_threads, get_at ht]
        exact .inl ⟨rfl, rfl⟩
      · have hx' : s.cxts[d]? = some x := by
          rw [← hx]
          exact (List.getElem?_set_ne hd).symm
        rcases h.cur d x p hx' hp with h1 | ⟨u, rc', hu⟩
        · exact .inl h1
        · refine .inr ⟨u, rc', ?_⟩
          rw [at_threads, get_at ht]
          refine .inr ⟨?_, hu⟩
          rintro rfl
          rw [hu] at ht
          cases ht
    · have := Monitor.countP_set PC.holdsPkt _ _ _ (PC.factory i rc) ht
      have h2 := h.mutex
      show List.countP PC.holdsPkt (s.threads.set t (PC.factory i rc)) = s.pktMutex.toNat
      simp only [PC.holdsPkt] at this
      omega
    · intro u j rc' hu
      rw [at_threads, get_at ht, get_at ht] at hu
      show s.inCxt j = 0
      rcases hu with (⟨_, hu⟩ | ⟨_, hu⟩) | (⟨_, hu⟩ | ⟨_, hu⟩)
      · cases hu
      · exact h.empty u j rc' (.inl hu)
      · cases hu
        exact h0
      · exact h.empty u j rc' (.inr hu)
  | noSwap ht hc ho => exact inv_move h ht rfl rfl rfl rfl cur_same rfl (by simp) (by simp)
  | @factory t i rc c p ht hc hp hz =>
    have hlt := (List.getElem?_eq_some_iff.1 hp).1
    have h0 := h.empty t i rc (.inr ht)
    refine ⟨h.lenC, ?_, ?_, ?_, ?_, ?_, ?_, ?_⟩
    · show (s.pools.set i _).length = n
      rw [List.length_set, h.lenP]
    · intro d q hq
      by_cases hd : i = d
      · subst hd
        have hq' : (s.pools.set i ⟨c.cur, [], 0⟩)[i]? = some q := hq
        rw [List.getElem?_set_self hlt] at hq'
        cases hq'
        exact h0.symm
      · have hq' : (s.pools.set i ⟨c.cur, [], 0⟩)[d]? = some q := hq
        rw [List.getElem?_set_ne hd] at hq'
        exact h.count d q hq'
    · intro d q hq
      by_cases hd : i = d
      · subst hd
        have hq' : (s.pools.set i ⟨c.cur, [], 0⟩)[i]? = some q := hq
        rw [List.getElem?_set_self hlt] at hq'
        cases hq'
        simp
      · have hq' : (s.pools.set i ⟨c.cur, [], 0⟩)[d]? = some q := hq
        rw [List.getElem?_set_ne hd] at hq'
        exact h.free d q hq'
    · intro k hk
      obtain ⟨q, hq, e⟩ := h.phv k hk
      have hd : i ≠ k.cxt := by
        rintro rfl
        have : 0 < s.inCxt k.cxt := List.countP_pos_iff.2 ⟨k, hk, by simp⟩
        omega
      refine ⟨q, ?_, e⟩
      show (s.pools.set i ⟨c.cur, [], 0⟩)[k.cxt]? = _
      rw [List.getElem?_set_ne hd]
      exact hq
    · intro d x q hx hq
      have hq' : (s.pools.set i ⟨c.cur, [], 0⟩)[d]? = some q := hq
      by_cases hd : i = d
      · subst hd
        rw [List.getElem?_set_self hlt] at hq'
        cases hq'
        have hx' : s.cxts[i]? = some x := hx
        rw [hc] at hx'
        cases hx'
        exact .inl rfl
      · rw [List.getElem?_set_ne hd] at hq'
        rcases h.cur d x q hx hq' with h1 | ⟨u, rc', hu⟩
        · exact .inl h1
        · refine .inr ⟨u, rc', ?_⟩
          rw [at_threads, get_at ht]
          refine .inr ⟨?_, hu⟩
          rintro rfl
          rw [hu] at ht
          cases ht
          exact hd rfl
    · have := Monitor.countP_set PC.holdsPkt _ _ _ (PC.draining (i + 1) false) ht
      have h2 := h.mutex
      show List.countP PC.holdsPkt (s.threads.set t (PC.draining (i + 1) false)) = s.pktMutex.toNat
      simp only [PC.holdsPkt] at this
      omega
    · intro u j rc' hu
      rw [at_threads, get_at ht, get_at ht] at hu
      show s.inCxt j = 0
      rcases hu with (⟨_, hu⟩ | ⟨_, hu⟩) | (⟨_, hu⟩ | ⟨_, hu⟩)
      · cases hu
      · exact h.empty u j rc' (.inl hu)
      · cases hu
      · exact h.empty u j rc' (.inr hu)
  | newPacket hm hc =>
    refine inv_create h hc fun t rc => ⟨?_, ?_⟩
    · intro ht
      have := holds_of_free h hm ht
      simp [PC.holdsPkt] at this
    · intro ht
      have := holds_of_free h hm ht
      simp [PC.holdsPkt] at this
  | clone hk hc => exact inv_create h hc (hbusy _ _ hk)
  | cloneTo hk hc =>
    rcases ha with ha | ha
    · have h0 := hcr h ha hc
      subst h0
      rw [← hone ha _ _ hk] at hc
      exact inv_create h hc (hbusy _ _ hk)
    · exact ha.elim
  | stay hk hc => exact h
  | change hk hne hd hc =>
    rcases ha with ha | ha
    · have h0 := hcr (inv_drop h hd) ha hc
      exact absurd (by rw [hone ha _ _ hk, h0]) hne
    · exact ha.elim
  | destroy hd => exact inv_drop h hd

/-- What every step preserves holds after a run. -/
theorem run_ind {P : Sw C → Prop} {Q : Label C → Prop}
    (hstep : ∀ s l s', P s → Q l → Stepped s l s' → P s') : ∀ (ls : List (Label C)) (s : Sw C), P s →
      (∀ l ∈ ls, Q l) → ∀ {o rs}, s.run ls = some (o, rs) →
      (∃ s', o = .ok s' none ∧ P s') ∨ (o = .bad ∧ ∃ s1 l, P s1 ∧ l ∈ ls ∧ Failed s1 l)
  | [], s, hP, hQ, o, rs, h => by
    simp only [Sw.run, Option.some.injEq, Prod.mk.injEq] at h
    exact .inl ⟨s, h.1.symm, hP⟩
  | l :: ls, s, hP, hQ, o, rs, h => by
    simp only [Sw.run] at h
    cases hl : s.step l with
    | none => simp [hl] at h
    | some x =>
      rcases step_cases hl with ⟨rfl, hf⟩ | ⟨s1, r, rfl, hs⟩
      · simp only [hl, Option.some.injEq, Prod.mk.injEq] at h
        exact .inr ⟨h.1.symm, s, l, hP, by simp, hf⟩
      · simp only [hl] at h
        obtain ⟨⟨o', rs'⟩, h1, h2⟩ := Option.map_eq_some_iff.1 h
        cases h2
        rcases run_ind hstep ls s1 (hstep _ _ _ hP (hQ l (by simp)) hs) (fun l' hl' => hQ l' (by simp [hl'])) h1 with
          h3 | ⟨h3, s2, l2, h4, h5, h6⟩
        · exact .inl h3
        · exact .inr ⟨h3, s2, l2, h4, by simp [h5], h6⟩

theorem inv_new (x : C) (n m : Nat) : Inv n (Sw.new x n m) := by
  refine ⟨by simp [Sw.new], by simp [Sw.new], ?_, ?_, ?_, ?_, ?_, ?_⟩
  · intro c p hp
    simp only [Sw.new, List.getElem?_replicate] at hp
    split at hp
    · cases hp
      rfl
    · cases hp
  · intro c p hp
    simp only [Sw.new, List.getElem?_replicate] at hp
    split at hp
    · cases hp
      simp
    · cases hp
  · simp [Sw.new]
  · intro c y p hy hp
    simp only [Sw.new, List.getElem?_replicate] at hp hy
    split at hp
    · rename_i hc
      rw [if_pos hc] at hy
      cases hp
      cases hy
      exact .inl rfl
    · cases hp
  · simp [Sw.new, PC.holdsPkt]
  · intro t i rc ht
    simp only [Sw.new, List.getElem?_replicate] at ht
    split at ht <;> simp at ht

/-- A failed assertion in `set_phv_factory` is excluded by the invariant. -/
theorem no_factory_failure {n : Nat} {s : Sw C} (h : Inv n s) {t i : Nat} {rc : Bool} {p : Pool C}
    (ht : s.threads[t]? = some (.factory i rc)) (hp : s.pools[i]? = some p) : p.count = 0 := by
  rw [h.count i p hp]
  exact h.empty t i rc (.inr ht)

/-- What a packet's header vector was made for is what the context processes packets with. -/
theorem packet_cur {n : Nat} {s : Sw C} (h : Inv n s) {k : Pkt C} (hk : k ∈ s.packets) :
    Uses s k.cxt k.phv := by
  obtain ⟨p, hp, e⟩ := h.phv k hk
  have hlt := (List.getElem?_eq_some_iff.1 hp).1
  have hlt' : k.cxt < s.cxts.length := by rw [h.lenC, ← h.lenP]; exact hlt
  obtain ⟨x, hx⟩ : ∃ x, s.cxts[k.cxt]? = some x := ⟨_, List.getElem?_eq_getElem hlt'⟩
  refine ⟨x, hx, ?_⟩
  rcases h.cur _ x p hx hp with h1 | ⟨t, rc, ht⟩
  · rw [h1, e]
  · have h0 := h.empty t _ rc (.inr ht)
    have : 0 < s.inCxt k.cxt := List.countP_pos_iff.2 ⟨k, hk, by simp⟩
    omega


/-! ## One thread exchanges configurations -/

/-- The thread is not in `swap_configs`. -/
def PC.calm : PC C → Bool
  | .idle => true
  | .loading _ _ => true
  | .storing _ => true
  | _ => false

/-- Contexts from `a` to before `b` are to be swapped. -/
def OrdIn (l : List (Cxt C)) (P : Nat → Prop) : Prop :=
  ∀ (j : Nat) (c : Cxt C), P j → l[j]? = some c → c.ordered = true

/-- What is known when the one thread that swaps is at `pc`. -/
def Ord (l : List (Cxt C)) : PC C → Prop
  | .ordering i => OrdIn l (· < i)
  | .locking => OrdIn l fun _ => True
  | .checking => OrdIn l fun _ => True
  | .lockPkt => OrdIn l fun _ => True
  | .draining i rc => OrdIn l (i ≤ ·) ∧ (rc = true → i = 0)
  | .swapping i rc => OrdIn l (i ≤ ·) ∧ (rc = true → i = 0)
  | .factory i _ => OrdIn l (i < ·)
  | _ => True

theorem ord_congr {l l' : List (Cxt C)} (h : ∀ (j : Nat) (c : Cxt C), l'[j]? = some c →
    ∃ d : Cxt C, l[j]? = some d ∧ (d.ordered = true → c.ordered = true)) {pc : PC C} (ho : Ord l pc) : Ord l' pc := by
  have key : ∀ P, OrdIn l P → OrdIn l' P := by
    intro P hP j c hj hc
    obtain ⟨d, hd, e⟩ := h j c hc
    exact e (hP j d hj hd)
  cases pc <;> simp only [Ord] at ho ⊢
  · exact key _ ho
  · exact key _ ho
  · exact key _ ho
  · exact key _ ho
  · exact ⟨key _ ho.1, ho.2⟩
  · exact ⟨key _ ho.1, ho.2⟩
  · exact key _ ho

structure OneInv (t0 : Nat) (s : Sw C) : Prop where
  others : ∀ (t : Nat) (pc : PC C), t ≠ t0 → s.threads[t]? = some pc → pc.calm = true
  ord : ∀ pc, s.threads[t0]? = some pc → Ord s.cxts pc

/-- Any thread moves. -/
theorem one_move {t0 : Nat} {s s' : Sw C} (h : OneInv t0 s) {t : Nat} {a b : PC C} (ht : s.threads[t]? = some a)
    (hth : s'.threads = s.threads.set t b)
    (hcx : ∀ (j : Nat) (c : Cxt C), j < s'.cxts.length → s'.cxts[j]? = some c →
      ∃ d : Cxt C, s.cxts[j]? = some d ∧ (a.calm = true → d.ordered = true → c.ordered = true))
    (hcalm : t ≠ t0 → a.calm = true → b.calm = true)
    (hb : t = t0 → Ord s.cxts a → Ord s'.cxts b) : OneInv t0 s' := by
  constructor
  · intro u pc hu hpc
    rw [hth, get_at ht] at hpc
    rcases hpc with ⟨rfl, rfl⟩ | ⟨_, hpc⟩
    · exact hcalm hu (h.others _ _ hu ht)
    · exact h.others u pc hu hpc
  · intro pc hpc
    rw [hth, get_at ht] at hpc
    rcases hpc with ⟨rfl, rfl⟩ | ⟨hne, hpc⟩
    · exact hb rfl (h.ord _ ht)
    · have ha := h.others t a (Ne.symm hne) ht
      refine ord_congr ?_ (h.ord pc hpc)
      intro j c hc
      obtain ⟨d, hd, e⟩ := hcx j c (List.getElem?_eq_some_iff.1 hc).1 hc
      exact ⟨d, hd, e ha⟩

theorem create_same {s s' : Sw C} {c : Nat} (h : s.create c = some s') :
    s'.threads = s.threads ∧ s'.cxts = s.cxts ∧ s'.current = s.current := by
  unfold Sw.create at h
  cases hp : s.pools[c]? with
  | none => simp [hp] at h
  | some p =>
    simp only [hp, Option.some.injEq] at h
    subst h
    exact ⟨rfl, rfl, rfl⟩

theorem drop_same {s s' : Sw C} {c : Nat} (h : s.drop c = some s') :
    s'.threads = s.threads ∧ s'.cxts = s.cxts ∧ s'.current = s.current := by
  unfold Sw.drop at h
  cases hp : s.packets[c]? with
  | none => simp [hp] at h
  | some k =>
    simp only [hp] at h
    cases hq : s.pools[k.cxt]? with
    | none => simp [hq] at h
    | some p =>
      simp only [hq, Option.some.injEq] at h
      subst h
      exact ⟨rfl, rfl, rfl⟩

theorem one_step {t0 : Nat} {s s' : Sw C} {l : Label C} (h : OneInv t0 s) (ha : OneSwapper t0 l)
    (hs : Stepped s l s') : OneInv t0 s' := by
  have same : ∀ {P : Cxt C → Cxt C → Prop}, (∀ c, P c c) → ∀ (j : Nat) (c : Cxt C), j < s.cxts.length →
      s.cxts[j]? = some c → ∃ d : Cxt C, s.cxts[j]? = some d ∧ P d c := fun hP j c _ hc => ⟨c, hc, hP c⟩
  have sameS : ∀ {a : PC C} (i : Nat) (c' c0 : Cxt C), s.cxts[i]? = some c0 →
      (a.calm = true → c0.ordered = true → c'.ordered = true) → ∀ (j : Nat) (c : Cxt C),
      j < (s.cxts.set i c').length → (s.cxts.set i c')[j]? = some c →
      ∃ d : Cxt C, s.cxts[j]? = some d ∧ (a.calm = true → d.ordered = true → c.ordered = true) := by
    intro a i c' c0 hc0 he j c hj hc
    by_cases hij : i = j
    · subst hij
      rw [List.getElem?_set_self (List.getElem?_eq_some_iff.1 hc0).1] at hc
      cases hc
      exact ⟨c0, hc0, he⟩
    · rw [List.getElem?_set_ne hij] at hc
      exact ⟨c, hc, fun _ e => e⟩
  have keep : s'.threads = s.threads ∧ s'.cxts = s.cxts ∧ s'.current = s.current → OneInv t0 s' := by
    rintro ⟨e1, e2, _⟩
    exact ⟨by rw [e1]; exact h.others, by rw [e1, e2]; exact h.ord⟩
  cases hs with
  | disabledL ht => exact h
  | disabledS ht => exact h
  | load ht => exact one_move h ht rfl (same fun _ _ e => e) (by simp [PC.calm]) (by simp [Ord])
  | swap ht =>
    refine one_move h ht rfl (same fun _ _ e => e) ?_ ?_
    · intro hne
      exact absurd (ha _ rfl) hne
    · intro _ _ j c hj
      exact absurd hj (by omega)
  | loadEnd ht hc => exact one_move h ht rfl (same fun _ _ e => e) (by simp [PC.calm]) (by simp [Ord])
  | loadFail ht hc hr => exact one_move h ht rfl (same fun _ _ e => e) (by simp [PC.calm]) (by simp [Ord])
  | loadOne ht hc hr =>
    exact one_move h ht rfl (sameS _ _ _ hc (fun _ e => e)) (by simp [PC.calm]) (by simp [Ord])
  | store ht => exact one_move h ht rfl (same fun _ _ e => e) (by simp [PC.calm]) (by simp [Ord])
  | @orderEnd t i ht hc =>
    refine one_move h ht rfl (same fun _ _ e => e) (by simp [PC.calm]) ?_
    intro _ ho j c _ hj
    have h1 := (List.getElem?_eq_some_iff.1 hj).1
    have h2 := List.getElem?_eq_none_iff.1 hc
    exact ho j c (by simp only [Sw.at] at h1; omega) hj
  | orderFail ht hc hr => exact one_move h ht rfl (same fun _ _ e => e) (by simp [PC.calm]) (by simp [Ord])
  | @orderOne t i c x ht hc hr =>
    refine one_move h ht rfl (sameS _ _ _ hc (fun _ _ => rfl)) (by simp [PC.calm]) ?_
    intro _ ho j d hj hd
    have hd' : (s.cxts.set i { c with ordered := true })[j]? = some d := hd
    by_cases hij : i = j
    · subst hij
      rw [List.getElem?_set_self (List.getElem?_eq_some_iff.1 hc).1] at hd'
      cases hd'
      rfl
    · rw [List.getElem?_set_ne hij] at hd'
      exact ho j d (show j < i by omega) hd'
  | lock ht hm => exact one_move h ht rfl (same fun _ _ e => e) (by simp [PC.calm]) (fun _ ho => ho)
  | check ht hm => exact one_move h ht rfl (same fun _ _ e => e) (by simp [PC.calm]) (fun _ ho => ho)
  | lockPkt ht hm =>
    exact one_move h ht rfl (same fun _ _ e => e) (by simp [PC.calm])
      (fun _ ho => ⟨fun j c _ hc => ho j c trivial hc, fun _ => rfl⟩)
  | drained ht hc hp ho hz => exact one_move h ht rfl (same fun _ _ e => e) (by simp [PC.calm]) (fun _ ho => ho)
  | @skip t i rc c p ht hc hp ho =>
    refine one_move h ht rfl (same fun _ _ e => e) (by simp [PC.calm]) ?_
    intro _ hord
    have := hord.1 i c (Nat.le_refl _) hc
    rw [ho] at this
    cases this
  | finish ht hc => exact one_move h ht rfl (same fun _ _ e => e) (by simp [PC.calm]) (by simp [Ord])
  | @doSwap t i rc c ht hc ho =>
    refine one_move h ht rfl (sameS _ _ _ hc (by simp [PC.calm])) (by simp [PC.calm]) ?_
    intro _ hord j d hj hd
    have hd' : (s.cxts.set i c.doSwap)[j]? = some d := hd
    have hj' : i < j := hj
    rw [List.getElem?_set_ne (by omega)] at hd'
    exact hord.1 j d (show i ≤ j by omega) hd'
  | @noSwap t i rc c ht hc ho =>
    refine one_move h ht rfl (same fun _ _ e => e) (by simp [PC.calm]) ?_
    intro _ hord
    have := hord.1 i c (Nat.le_refl _) hc
    rw [ho] at this
    cases this
  | @factory t i rc c p ht hc hp hz =>
    exact one_move h ht rfl (same fun _ _ e => e) (by simp [PC.calm])
      (fun _ ho => ⟨fun j c hj hc => ho j c (show i < j from hj) hc, by simp⟩)
  | newPacket hm hc => exact keep (create_same hc)
  | clone hk hc => exact keep (create_same hc)
  | cloneTo hk hc => exact keep (create_same hc)
  | stay hk hc => exact h
  | change hk hne hd hc =>
    have h1 := drop_same hd
    have h2 := create_same hc
    exact keep ⟨h2.1.trans h1.1, h2.2.1.trans h1.2.1, h2.2.2.trans h1.2.2⟩
  | destroy hd => exact keep (drop_same hd)

theorem one_new (t0 : Nat) (x : C) (n m : Nat) : OneInv t0 (Sw.new x n m) := by
  constructor
  · intro t pc _ ht
    simp only [Sw.new, List.getElem?_replicate] at ht
    split at ht
    · cases ht
      rfl
    · cases ht
  · intro pc ht
    simp only [Sw.new, List.getElem?_replicate] at ht
    split at ht
    · cases ht
      trivial
    · cases ht

/-- With one thread swapping, no assertion fails. -/
theorem no_failure {n t0 : Nat} {s : Sw C} {l : Label C} (hn : 0 < n) (h : Inv n s) (h1 : OneInv t0 s)
    (hf : Failed s l) : False := by
  have swapper : ∀ {t : Nat} {pc : PC C}, s.threads[t]? = some pc → pc.calm = false → t = t0 := by
    intro t pc ht hc
    by_contra hne
    rw [h1.others t pc hne ht] at hc
    cases hc
  obtain ⟨c, hc⟩ : ∃ c, s.cxts[0]? = some c := ⟨_, List.getElem?_eq_getElem (by rw [h.lenC]; exact hn)⟩
  cases hf with
  | check ht ha =>
    have := swapper ht rfl
    subst this
    have ho := h1.ord _ ht 0 c trivial hc
    rw [List.any_eq_false] at ha
    exact ha c (List.mem_of_getElem? hc) ho
  | finish ht hnone =>
    have := swapper ht rfl
    subst this
    have ho := (h1.ord _ ht).2 rfl
    subst ho
    rcases hnone with hnone | hnone
    · rw [hc] at hnone
      cases hnone
    · rw [List.getElem?_eq_none_iff, h.lenP] at hnone
      omega
  | factory ht hp hz => exact hz (no_factory_failure h ht hp)


/-! ## `current_config`, with one context and one thread loading configurations -/

/-- The last configuration loaded in context 0. -/
def Sw.last (s : Sw C) : Option C := s.cxts[0]?.map fun c => c.rt.getD c.cur

/-- What is known of `current_config` when the thread that loads is at `pc`. -/
def Cfg (s : Sw C) : PC C → Prop
  | .loading j (_ + 1) => s.last = some j
  | .storing j => s.last = some j
  | _ => s.last = some s.current

/-- The thread is not in `load_new_config`. -/
def PC.noLoad : PC C → Bool
  | .loading _ _ => false
  | .storing _ => false
  | _ => true

structure CfgInv (t0 : Nat) (s : Sw C) : Prop where
  others : ∀ (t : Nat) (pc : PC C), t ≠ t0 → s.threads[t]? = some pc → pc.noLoad = true
  cfg : Cfg s (s.threads[t0]?.getD .idle)

theorem cfg_noLoad {s : Sw C} {pc : PC C} (h : pc.noLoad = true) : Cfg s pc ↔ s.last = some s.current := by
  cases pc <;> simp [PC.noLoad, Cfg] at h ⊢

theorem cfg_congr {s s' : Sw C} (h1 : s'.last = s.last) (h2 : s'.current = s.current) (pc : PC C) :
    Cfg s' pc ↔ Cfg s pc := by
  unfold Cfg
  cases pc with
  | loading j i => cases i <;> simp only [h1, h2]
  | _ => simp only [h1, h2]

/-- A thread moves. -/
theorem cfg_move {t0 : Nat} {s s' : Sw C} (h : CfgInv t0 s) {t : Nat} {a b : PC C} (ht : s.threads[t]? = some a)
    (hth : s'.threads = s.threads.set t b)
    (hno : t ≠ t0 → a.noLoad = true → b.noLoad = true)
    (hsame : a.noLoad = true → s'.last = s.last ∧ s'.current = s.current)
    (hb : t = t0 → Cfg s a → Cfg s' b) : CfgInv t0 s' := by
  constructor
  · intro u pc hu hpc
    rw [hth, get_at ht] at hpc
    rcases hpc with ⟨rfl, rfl⟩ | ⟨_, hpc⟩
    · exact hno hu (h.others _ _ hu ht)
    · exact h.others u pc hu hpc
  · rw [hth]
    by_cases hu : t = t0
    · subst hu
      rw [List.getElem?_set_self (List.getElem?_eq_some_iff.1 ht).1]
      have := h.cfg
      rw [ht] at this
      exact hb rfl this
    · rw [List.getElem?_set_ne hu]
      obtain ⟨e1, e2⟩ := hsame (h.others t a hu ht)
      exact (cfg_congr e1 e2 _).2 h.cfg

theorem last_set {s : Sw C} {i : Nat} {c c' : Cxt C} (hc : s.cxts[i]? = some c)
    {s' : Sw C} (hs : s'.cxts = s.cxts.set i c') (he : c'.rt.getD c'.cur = c.rt.getD c.cur) :
    s'.last = s.last := by
  unfold Sw.last
  rw [hs]
  by_cases hi : i = 0
  · subst hi
    rw [List.getElem?_set_self (List.getElem?_eq_some_iff.1 hc).1, hc]
    simp [he]
  · rw [List.getElem?_set_ne hi]

theorem cfg_step {t0 : Nat} {s s' : Sw C} {l : Label C} (hn : s.cxts.length = 1) (h : CfgInv t0 s)
    (ha : OneLoader t0 l) (hs : Stepped s l s') : CfgInv t0 s' := by
  have zero : ∀ {i : Nat} {c : Cxt C}, s.cxts[i]? = some c → i = 0 := by
    intro i c hc
    have := (List.getElem?_eq_some_iff.1 hc).1
    omega
  have keep : s'.threads = s.threads ∧ s'.cxts = s.cxts ∧ s'.current = s.current → CfgInv t0 s' := by
    rintro ⟨e1, e2, e3⟩
    refine ⟨by rw [e1]; exact h.others, ?_⟩
    rw [e1]
    exact (cfg_congr (by simp only [Sw.last, e2]) e3 _).2 h.cfg
  cases hs with
  | disabledL ht => exact h
  | disabledS ht => exact h
  | load ht =>
    refine cfg_move h ht rfl ?_ (fun _ => ⟨rfl, rfl⟩) (fun _ e => e)
    intro hne
    exact absurd (ha _ _ rfl) hne
  | swap ht => exact cfg_move h ht rfl (fun _ _ => rfl) (fun _ => ⟨rfl, rfl⟩) (fun _ e => e)
  | @loadEnd t j i ht hc =>
    refine cfg_move h ht rfl (by simp [PC.noLoad]) (fun _ => ⟨rfl, rfl⟩) ?_
    intro _ e
    have := List.getElem?_eq_none_iff.1 hc
    obtain ⟨k, rfl⟩ : ∃ k, i = k + 1 := ⟨i - 1, by omega⟩
    exact e
  | loadFail ht hc hr =>
    have := zero hc
    subst this
    exact cfg_move h ht rfl (fun _ _ => rfl) (fun _ => ⟨rfl, rfl⟩) (fun _ e => e)
  | @loadOne t j i c ht hc hr =>
    have := zero hc
    subst this
    refine cfg_move h ht rfl (by simp [PC.noLoad]) (by simp [PC.noLoad]) ?_
    intro _ _
    show Sw.last _ = some j
    unfold Sw.last
    show Option.map _ (s.cxts.set 0 { c with rt := some j })[0]? = some j
    rw [List.getElem?_set_self (by omega)]
    rfl
  | store ht =>
    exact cfg_move h ht rfl (fun _ _ => rfl) (by simp [PC.noLoad]) (fun _ e => e)
  | orderEnd ht hc => exact cfg_move h ht rfl (fun _ _ => rfl) (fun _ => ⟨rfl, rfl⟩) (fun _ e => e)
  | orderFail ht hc hr => exact cfg_move h ht rfl (fun _ _ => rfl) (fun _ => ⟨rfl, rfl⟩) (fun _ e => e)
  | orderOne ht hc hr =>
    refine cfg_move h ht rfl (fun _ _ => rfl) (fun _ => ⟨last_set hc rfl ?_, rfl⟩) ?_
    · rfl
    · intro _ e
      show Sw.last _ = some s.current
      rw [last_set hc (by rfl) (by rfl)]
      exact e
  | lock ht hm => exact cfg_move h ht rfl (fun _ _ => rfl) (fun _ => ⟨rfl, rfl⟩) (fun _ e => e)
  | check ht hm => exact cfg_move h ht rfl (fun _ _ => rfl) (fun _ => ⟨rfl, rfl⟩) (fun _ e => e)
  | lockPkt ht hm => exact cfg_move h ht rfl (fun _ _ => rfl) (fun _ => ⟨rfl, rfl⟩) (fun _ e => e)
  | drained ht hc hp ho hz => exact cfg_move h ht rfl (fun _ _ => rfl) (fun _ => ⟨rfl, rfl⟩) (fun _ e => e)
  | skip ht hc hp ho => exact cfg_move h ht rfl (fun _ _ => rfl) (fun _ => ⟨rfl, rfl⟩) (fun _ e => e)
  | finish ht hc => exact cfg_move h ht rfl (fun _ _ => rfl) (fun _ => ⟨rfl, rfl⟩) (fun _ e => e)
  | doSwap ht hc ho =>
    refine cfg_move h ht rfl (fun _ _ => rfl) (fun _ => ⟨last_set hc rfl ?_, rfl⟩) ?_
    · rfl
    · intro _ e
      show Sw.last _ = some s.current
      rw [last_set hc (by rfl) (by rfl)]
      exact e
  | noSwap ht hc ho => exact cfg_move h ht rfl (fun _ _ => rfl) (fun _ => ⟨rfl, rfl⟩) (fun _ e => e)
  | factory ht hc hp hz => exact cfg_move h ht rfl (fun _ _ => rfl) (fun _ => ⟨rfl, rfl⟩) (fun _ e => e)
  | newPacket hm hc => exact keep (create_same hc)
  | clone hk hc => exact keep (create_same hc)
  | cloneTo hk hc => exact keep (create_same hc)
  | stay hk hc => exact h
  | change hk hne hd hc =>
    have h1 := drop_same hd
    have h2 := create_same hc
    exact keep ⟨h2.1.trans h1.1, h2.2.1.trans h1.2.1, h2.2.2.trans h1.2.2⟩
  | destroy hd => exact keep (drop_same hd)

theorem cfg_new (t0 : Nat) (x : C) (m : Nat) : CfgInv t0 (Sw.new x 1 m) := by
  have hget : ∀ (t : Nat) (pc : PC C), (Sw.new x 1 m).threads[t]? = some pc → pc = .idle := by
    intro t pc ht
    simp only [Sw.new, List.getElem?_replicate] at ht
    split at ht
    · cases ht
      rfl
    · cases ht
  constructor
  · intro t pc _ ht
    rw [hget t pc ht]
    rfl
  · cases ht : (Sw.new x 1 m).threads[t0]? with
    | none => rfl
    | some pc =>
      rw [hget t0 pc ht]
      rfl

/-! ## The length of the list of contexts, and two contexts out of step -/

theorem step_len {s s' : Sw C} {l : Label C} (hs : Stepped s l s') : s'.cxts.length = s.cxts.length := by
  cases hs with
  | loadOne => simp [Sw.at]
  | orderOne => simp [Sw.at]
  | doSwap => simp [Sw.at]
  | newPacket _ hc => rw [(create_same hc).2.1]
  | clone _ hc => rw [(create_same hc).2.1]
  | cloneTo _ hc => rw [(create_same hc).2.1]
  | change _ _ hd hc => rw [(create_same hc).2.1, (drop_same hd).2.1]
  | destroy hd => rw [(drop_same hd).2.1]
  | _ => rfl

/-- A thread that can only fail when context 0 has a new configuration and context 1 has not. -/
def PC.lost : PC C → Bool
  | .idle => true
  | .loading _ 0 => true
  | .ordering 0 => true
  | .ordering 1 => true
  | _ => false

/-- Context 0 has a new configuration, context 1 has not. -/
structure Stuck (s : Sw C) : Prop where
  c0 : ∃ c x, s.cxts[0]? = some c ∧ c.rt = some x
  c1 : ∃ c, s.cxts[1]? = some c ∧ c.rt = none
  pcs : ∀ pc ∈ s.threads, pc.lost = true

theorem stuck_move {s s' : Sw C} (h : Stuck s) {t : Nat} {a b : PC C} (_ht : s.threads[t]? = some a)
    (hth : s'.threads = s.threads.set t b) (hb : b.lost = true) (hcx : s'.cxts = s.cxts) : Stuck s' := by
  refine ⟨by rw [hcx]; exact h.c0, by rw [hcx]; exact h.c1, ?_⟩
  intro pc hpc
  rw [hth] at hpc
  rcases List.mem_or_eq_of_mem_set hpc with h1 | rfl
  · exact h.pcs pc h1
  · exact hb

theorem stuck_step {s s' : Sw C} {l : Label C} (h : Stuck s) (hs : Stepped s l s') : Stuck s' := by
  have lost : ∀ {t : Nat} {pc : PC C}, s.threads[t]? = some pc → pc.lost = true :=
    fun ht => h.pcs _ (List.mem_of_getElem? ht)
  obtain ⟨c0, x0, h0, h0r⟩ := h.c0
  obtain ⟨c1, h1, h1r⟩ := h.c1
  have keep : s'.threads = s.threads ∧ s'.cxts = s.cxts ∧ s'.current = s.current → Stuck s' := by
    rintro ⟨e1, e2, _⟩
    exact ⟨by rw [e2]; exact h.c0, by rw [e2]; exact h.c1, by rw [e1]; exact h.pcs⟩
  cases hs with
  | disabledL ht => exact h
  | disabledS ht => exact h
  | load ht => exact stuck_move h ht rfl rfl rfl
  | swap ht => exact stuck_move h ht rfl rfl rfl
  | @loadEnd t j i ht hc =>
    have := lost ht
    cases i with
    | zero => rw [h0] at hc; cases hc
    | succ i => cases this
  | loadFail ht hc hr => exact stuck_move h ht rfl rfl rfl
  | @loadOne t j i c ht hc hr =>
    have := lost ht
    cases i with
    | zero =>
      rw [h0] at hc
      cases hc
      rw [h0r] at hr
      cases hr
    | succ i => cases this
  | store ht => cases lost ht
  | @orderEnd t i ht hc =>
    have := lost ht
    match i, this with
    | 0, _ => rw [h0] at hc; cases hc
    | 1, _ => rw [h1] at hc; cases hc
  | orderFail ht hc hr => exact stuck_move h ht rfl rfl rfl
  | @orderOne t i c x ht hc hr =>
    have := lost ht
    match i, this with
    | 0, _ =>
      rw [h0] at hc
      cases hc
      refine ⟨⟨{ c0 with ordered := true }, x0, ?_, h0r⟩, ⟨c1, ?_, h1r⟩, ?_⟩
      · show (s.cxts.set 0 _)[0]? = _
        rw [List.getElem?_set_self (List.getElem?_eq_some_iff.1 h0).1]
      · show (s.cxts.set 0 _)[1]? = _
        rw [List.getElem?_set_ne (by omega), h1]
      · intro pc hpc
        rcases List.mem_or_eq_of_mem_set hpc with h2 | rfl
        · exact h.pcs pc h2
        · rfl
    | 1, _ =>
      rw [h1] at hc
      cases hc
      rw [h1r] at hr
      cases hr
  | lock ht hm => cases lost ht
  | check ht hm => cases lost ht
  | lockPkt ht hm => cases lost ht
  | drained ht hc hp ho hz => cases lost ht
  | skip ht hc hp ho => cases lost ht
  | finish ht hc => cases lost ht
  | doSwap ht hc ho => cases lost ht
  | noSwap ht hc ho => cases lost ht
  | factory ht hc hp hz => cases lost ht
  | newPacket hm hc => exact keep (create_same hc)
  | clone hk hc => exact keep (create_same hc)
  | cloneTo hk hc => exact keep (create_same hc)
  | stay hk hc => exact h
  | change hk hne hd hc =>
    have h1 := drop_same hd
    have h2 := create_same hc
    exact keep ⟨h2.1.trans h1.1, h2.2.1.trans h1.2.1, h2.2.2.trans h1.2.2⟩
  | destroy hd => exact keep (drop_same hd)

/-- No call succeeds. -/
theorem stuck_ret {s s' : Sw C} {l : Label C} {r : Option (Nat × Code)} (h : Stuck s)
    (hs : s.step l = some (.ok s' r)) : ∀ t, r ≠ some (t, .success) := by
  intro u
  cases l with
  | load t j =>
    simp only [Sw.step] at hs
    split at hs
    · split at hs <;> cases hs <;> simp
    · cases hs
  | swap t =>
    simp only [Sw.step] at hs
    split at hs
    · split at hs <;> cases hs <;> simp
    · cases hs
  | go t =>
    simp only [Sw.step] at hs
    cases hp : s.threads[t]? with
    | none => simp [hp] at hs
    | some pc =>
      simp only [hp] at hs
      have hl := h.pcs pc (List.mem_of_getElem? hp)
      cases pc with
      | idle => simp [Sw.go] at hs
      | loading j i =>
        simp only [Sw.go] at hs
        split at hs
        · cases hs
          simp
        · split at hs <;> cases hs <;> simp
      | ordering i =>
        simp only [Sw.go] at hs
        split at hs
        · cases hs
          simp
        · split at hs <;> cases hs <;> simp
      | _ => cases hl
  | newPacket c =>
    simp only [Sw.step] at hs
    split at hs
    · cases hs
    · obtain ⟨_, _, e⟩ := Option.map_eq_some_iff.1 hs
      cases e
      simp
  | clone p =>
    simp only [Sw.step] at hs
    split at hs
    · cases hs
    · obtain ⟨_, _, e⟩ := Option.map_eq_some_iff.1 hs
      cases e
      simp
  | cloneTo p c =>
    simp only [Sw.step] at hs
    split at hs
    · cases hs
    · obtain ⟨_, _, e⟩ := Option.map_eq_some_iff.1 hs
      cases e
      simp
  | change p c =>
    simp only [Sw.step] at hs
    split at hs
    · cases hs
    · split at hs
      · cases hs
        simp
      · obtain ⟨_, _, e⟩ := Option.map_eq_some_iff.1 hs
        cases e
        simp
  | destroy p =>
    simp only [Sw.step] at hs
    obtain ⟨_, _, e⟩ := Option.map_eq_some_iff.1 hs
    cases e
    simp

theorem stuck_run : ∀ (ls : List (Label C)) (s : Sw C), Stuck s → ∀ {o rs}, s.run ls = some (o, rs) →
    ∀ t, (t, Code.success) ∉ rs
  | [], s, h, o, rs, hr, t => by
    simp only [Sw.run, Option.some.injEq, Prod.mk.injEq] at hr
    rw [← hr.2]
    simp
  | l :: ls, s, h, o, rs, hr, t => by
    simp only [Sw.run] at hr
    cases hl : s.step l with
    | none => simp [hl] at hr
    | some x =>
      rcases step_cases hl with ⟨rfl, hf⟩ | ⟨s1, r, rfl, hs⟩
      · simp only [hl, Option.some.injEq, Prod.mk.injEq] at hr
        rw [← hr.2]
        simp
      · simp only [hl] at hr
        obtain ⟨⟨o', rs'⟩, h1, h2⟩ := Option.map_eq_some_iff.1 hr
        cases h2
        have h3 := stuck_run ls s1 (stuck_step h hs) h1 t
        have h4 := stuck_ret h hl t
        simp only [List.mem_append, not_or]
        refine ⟨?_, h3⟩
        intro hm
        rw [Option.mem_toList] at hm
        exact h4 hm

end Bm.Swap
