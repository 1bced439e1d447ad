import Verif.Lemmas.BmiThread

/-! # A round of the thread of the port manager -/

namespace Bm.Bmi
open Bm.Bmi.Spec

variable {s : Sys} {S : St}

/-- The ports in use. -/
def liveList (m : Mgr) : List Slot := m.ports.take m.count

theorem mem_liveList {m : Mgr} {i : Nat} {x : Slot} : (liveList m)[i]? = some x ↔ Live m i x := by
  simp only [liveList, List.getElem?_take, Live]
  split
  · rename_i h; simp [h]
  · rename_i h; simp [h]

/-- The packet that waits longest at a port. -/
def head (net : Nat → Option File) (x : Slot) : Option (Int × Bytes) :=
  match net x.fd with
  | none => none
  | some f =>
    match f.pend with
    | [] => none
    | k :: _ => if k.cut then none else some (x.port, k.data)

/-- Whether packets wait at a descriptor. -/
def waits (net : Nat → Option File) (fd : Nat) : Bool :=
  match net fd with
  | none => false
  | some f => !f.pend.isEmpty

theorem head_none {net : Nat → Option File} {x : Slot} (h : waits net x.fd = false) : head net x = none := by
  simp only [waits] at h
  simp only [head]
  cases hn : net x.fd with
  | none => rfl
  | some f =>
    rw [hn] at h
    simp only [Bool.not_eq_false', List.isEmpty_iff] at h
    simp only [h]

theorem filterMap_nil {α β : Type} {f : α → Option β} {l : List α} (h : ∀ x ∈ l, f x = none) : l.filterMap f = [] :=
  List.filterMap_eq_nil_iff.2 h

/-- The rest of the loop. -/
theorem loop_run : ∀ (k : Nat) (s : Sys) (S : St) (idx : Nat) (n : Int) (r : Nat → Bool), s.m.count - idx = k → Inv s → Rel s S →
    s.pc = .loop n r idx → (∀ x ∈ (liveList s.m).drop idx, r x.fd = waits s.net x.fd) →
    ((((liveList s.m).drop idx).filter fun x => r x.fd).length : Int) ≤ n →
    ∃ as es s', (∀ a ∈ as, a = .iter) ∧ s.run as = .ok es s' ∧ s'.pc = .copy ∧
      handed es = ((liveList s.m).drop idx).filterMap (head s.net)
  | k, s, S, idx, n, r, hk, h, hr, hp, hw, hn => by
    have hi := loop_idle h hp
    have hh := h.hd n r idx hp
    by_cases hend : n = 0 ∨ ¬ idx < s.m.count
    · refine ⟨[.iter], [.tau], { s with pc := .copy }, by simp, ?_, rfl, ?_⟩
      · have : s.step .iter = .ok .tau { s with pc := .copy } := by
          simp only [Sys.step, hp, Sys.iter, if_pos hend]
          rfl
        simp only [Sys.run, this]
      · rw [filterMap_nil]
        · rfl
        · intro x hx
          apply head_none
          rw [← hw x hx]
          rcases hend with h0 | h0
          · subst h0
            have : ((liveList s.m).drop idx).filter (fun x => r x.fd) = [] := by
              apply List.eq_nil_of_length_eq_zero; omega
            rw [List.filter_eq_nil_iff] at this
            simpa using this x hx
          · rw [List.drop_eq_nil_of_le] at hx
            · simp at hx
            · simp only [liveList, List.length_take]; omega
    · have hlt : idx < s.m.count := by omega
      have hl : idx < s.m.ports.length := by have := h.core.tab.len; have := h.core.tab.cnt; omega
      have hx : s.m.ports[idx]? = some s.m.ports[idx] := List.getElem?_eq_getElem hl
      generalize s.m.ports[idx] = x at hx
      have hlive : Live s.m idx x := ⟨hlt, hx⟩
      have hd : (liveList s.m).drop idx = x :: (liveList s.m).drop (idx + 1) := by
        have hg := mem_liveList.2 hlive
        rw [List.getElem?_eq_some_iff] at hg
        obtain ⟨h1, h2⟩ := hg
        rw [List.drop_eq_getElem_cons h1, h2]
      obtain ⟨b, f, e1, e2, e3, _⟩ := h.core.slot idx x hlive
      have hwx : r x.fd = waits s.net x.fd := hw x (by rw [hd]; simp)
      have hw' : ∀ y ∈ (liveList s.m).drop (idx + 1), r y.fd = waits s.net y.fd := fun y hy => hw y (by rw [hd]; simp [hy])
      have hne : ∀ y ∈ (liveList s.m).drop (idx + 1), y.fd ≠ x.fd := by
        intro y hy e
        obtain ⟨j, hj⟩ := List.getElem?_of_mem hy
        rw [List.getElem?_drop] at hj
        have := h.core.inj _ _ y x (mem_liveList.1 hj) hlive e
        omega
      by_cases hf : r x.fd = true
      · -- a packet waits
        rw [hwx] at hf
        have hpend : ∃ k rest, f.pend = k :: rest := by
          simp only [waits, e3] at hf
          cases hfp : f.pend with
          | nil => rw [hfp] at hf; cases hf
          | cons k rest => exact ⟨k, rest, rfl⟩
        obtain ⟨k, rest, hpend⟩ := hpend
        obtain ⟨e, s1, a1, a2, a3, a4, a5, S1, a6, a7⟩ := recv_ok h hr hi hh hlive
        have hshape : s1.m.count = s.m.count ∧ (liveList s1.m).drop (idx + 1) = (liveList s.m).drop (idx + 1) ∧
            s1.net = upd s.net x.fd (some { f with pend := rest }) ∧
            handed [e] = (head s.net x).toList := by
          have a1' := a1
          simp only [Sys.recv, e1, e2, e3, Option.bind_eq_bind, Option.bind_some, hpend] at a1'
          by_cases hc : k.cut = true
          · rw [if_pos hc] at a1'
            cases a1'
            exact ⟨rfl, rfl, rfl, by simp [handed, head, e3, hpend, hc]⟩
          · rw [if_neg hc] at a1'
            cases a1'
            refine ⟨rfl, ?_, rfl, by simp [handed, head, e3, hpend, hc]⟩
            simp only [liveList, Mgr.setStats, List.take_set]
            rw [List.drop_set_of_lt (by omega)]
        obtain ⟨b1, b2, b3, b4⟩ := hshape
        have hstep : s.step .iter = .ok e { s1 with pc := .loop (n - 1) r (idx + 1) } := by
          simp only [Sys.step, hp, Sys.iter, if_neg hend, hx, e1, Option.bind_eq_bind, Option.bind_some, hwx, hf, if_true, a1]
          rfl
        have hI1 : Inv { s1 with pc := .loop (n - 1) r (idx + 1) } :=
          inv_pc a2 a3 _ (by intro fds mf e; cases e) (fun _ _ _ _ => a5)
        have hnet : ∀ y ∈ (liveList s.m).drop (idx + 1), s1.net y.fd = s.net y.fd := by
          intro y hy
          rw [b3, upd, if_neg (hne y hy)]
        obtain ⟨as, es, s', c1, c2, c3, c4⟩ := loop_run (s.m.count - (idx + 1)) { s1 with pc := .loop (n - 1) r (idx + 1) } S1 (idx + 1) (n - 1) r
          (by show s1.m.count - (idx + 1) = _; rw [b1]) hI1 (rel_pc a7 _) rfl
          (by
            show ∀ y ∈ (liveList s1.m).drop (idx + 1), r y.fd = waits s1.net y.fd
            rw [b2]
            intro y hy
            rw [hw' y hy]
            simp only [waits, hnet y hy])
          (by
            show ((((liveList s1.m).drop (idx + 1)).filter fun x => r x.fd).length : Int) ≤ n - 1
            rw [b2]
            rw [hd, List.filter_cons, hwx, hf] at hn
            simp only [if_true, List.length_cons] at hn
            omega)
        refine ⟨.iter :: as, e :: es, s', ?_, ?_, c3, ?_⟩
        · intro a ha
          rcases List.mem_cons.1 ha with h | h
          · exact h
          · exact c1 a h
        · simp only [Sys.run, hstep, c2]
        · have c4 : handed es = ((liveList s1.m).drop (idx + 1)).filterMap (head s1.net) := c4
          have e5 : handed (e :: es) = handed [e] ++ handed es := by
            simp only [handed]
            rw [← List.filterMap_append]; rfl
          have e6 : ((liveList s.m).drop (idx + 1)).filterMap (head s1.net) =
              ((liveList s.m).drop (idx + 1)).filterMap (head s.net) := by
            apply List.filterMap_congr
            intro y hy
            simp only [head, hnet y hy]
          rw [e5, b4, c4, b2, e6, hd]
          cases hhx : head s.net x with
          | none => simp [hhx]
          | some v => simp [hhx]
      · -- no packet waits
        have hf' : r x.fd = false := by simpa using hf
        have hstep : s.step .iter = .ok .tau { s with pc := .loop n r (idx + 1) } := by
          simp only [Sys.step, hp, Sys.iter, if_neg hend, hx, e1, Option.bind_eq_bind, Option.bind_some, if_neg hf]
          rfl
        have hI1 : Inv { s with pc := .loop n r (idx + 1) } :=
          inv_pc h hi _ (by intro fds mf e; cases e) (fun _ _ _ _ => hh)
        obtain ⟨as, es, s', c1, c2, c3, c4⟩ := loop_run (s.m.count - (idx + 1)) { s with pc := .loop n r (idx + 1) } S (idx + 1) n r
          rfl hI1 (rel_pc hr _) rfl hw'
          (by
            rw [hd, List.filter_cons, hf'] at hn
            simpa using hn)
        refine ⟨.iter :: as, .tau :: es, s', ?_, ?_, c3, ?_⟩
        · intro a ha
          rcases List.mem_cons.1 ha with h | h
          · exact h
          · exact c1 a h
        · simp only [Sys.run, hstep, c2]
        · have e5 : handed (.tau :: es) = handed es := rfl
          rw [e5, c4, hd, List.filterMap_cons, head_none (by rw [← hwx]; exact hf')]
termination_by k => k

/-- What the thread does. -/
def OfThread (a : Act) : Prop := a = .copy ∨ a = .select ∨ a = .relock ∨ a = .iter

theorem ready_waits (hs : fd ≠ s.m.sp1) : s.ready fd = waits s.net fd := by
  simp only [Sys.ready, if_neg hs, waits]
  cases s.net fd <;> rfl

/-- The ready ports are counted. -/
theorem ready_count (h : Inv s) (hi : s.ctl = .idle) :
    ((liveList s.m).filter fun x => waits s.net x.fd).length ≤
      ((List.range (s.m.maxFd + 1).toNat).filter fun i => s.m.fds i && s.ready i).length := by
  have h1 : (((liveList s.m).filter fun x => waits s.net x.fd).map Slot.fd).Nodup := by
    have hnd : ((liveList s.m).map Slot.fd).Nodup := by
      rw [List.nodup_iff_pairwise_ne, List.pairwise_map, List.pairwise_iff_getElem]
      intro i j hi' hj hij e
      have := h.core.inj i j _ _ (mem_liveList.1 (List.getElem?_eq_getElem hi')) (mem_liveList.1 (List.getElem?_eq_getElem hj)) e
      omega
    exact hnd.sublist (List.Sublist.map _ List.filter_sublist)
  have h2 : (((liveList s.m).filter fun x => waits s.net x.fd).map Slot.fd) ⊆
      ((List.range (s.m.maxFd + 1).toNat).filter fun i => s.m.fds i && s.ready i) := by
    intro fd hfd
    obtain ⟨x, hx, rfl⟩ := List.mem_map.1 hfd
    obtain ⟨hx, hwx⟩ := List.mem_filter.1 hx
    obtain ⟨i, hi'⟩ := List.getElem?_of_mem hx
    have hl := mem_liveList.1 hi'
    obtain ⟨b, f, _, _, _, e4, e5⟩ := h.core.slot i x hl
    rw [List.mem_filter, List.mem_range]
    refine ⟨by omega, ?_⟩
    rw [ready_waits e4, hwx, h.core.bits3 i x hl (by rw [hi]; nofun)]
    rfl
  have := (h1.subperm h2).length_le
  simpa using this

/-- A round. -/
theorem round_run (h : Inv s) (hr : Rel s S) (hp : s.pc = .copy) (hi : s.ctl = .idle) (hh : s.m.handler = true)
    (hs : s.m.sp1 < 64) : ∃ as es s', (∀ a ∈ as, OfThread a) ∧ s.run as = .ok es s' ∧ s'.pc = .copy ∧
      handed es = (liveList s.m).filterMap (head s.net) := by
  have hcr : s.canRead = true := by simp [Sys.canRead, hi]
  have hst1 : s.step .copy = .ok .tau { s with pc := .select s.m.fds s.m.maxFd } := by
    simp only [Sys.step, hp, hcr, if_true]
  have hg1 := step_ok h hr .copy trivial
  rw [hst1] at hg1
  obtain ⟨hI1, _, S1, _, hr1⟩ := hg1
  obtain ⟨b1, b2, b3⟩ := hI1.sel s.m.fds s.m.maxFd rfl
  have hall : ((List.range (s.m.maxFd + 1).toNat).all fun i => !s.m.fds i || i == s.m.sp1 || (s.net i).isSome) = true := by
    rw [List.all_eq_true]
    intro i _
    cases hf : s.m.fds i with
    | false => rfl
    | true =>
      rcases b3 i hf with h | h
      · have h : i = s.m.sp1 := h
        simp [h]
      · have h : (s.net i).isSome = true := h
        simp [h]
  let n := ((List.range (s.m.maxFd + 1).toNat).filter fun i => s.m.fds i && s.ready i).length
  let r : Nat → Bool := fun i => if i < 64 * (((s.m.maxFd + 1).toNat + 63) / 64) then
    decide (i < (s.m.maxFd + 1).toNat) && s.m.fds i && s.ready i else s.m.fds i
  have hrsp : r s.m.sp1 = false := by
    have htop := h.core.top
    simp only [r]
    rw [if_pos (by omega)]
    have : s.ready s.m.sp1 = false := by
      simp only [Sys.ready, if_true]; exact (idle_bytes h hi).1
    rw [this, Bool.and_false]
  have hst2 : ({ s with pc := .select s.m.fds s.m.maxFd } : Sys).step .select = .ok .tau { s with pc := .go n r } := by
    have hsel : ({ s with pc := .select s.m.fds s.m.maxFd } : Sys).select s.m.fds (s.m.maxFd + 1).toNat = some (n, r) := by
      simp only [Sys.select]
      rw [if_pos hall]
      rfl
    simp only [Sys.step, hsel, Sys.afterSelect]
    rw [if_neg (by have := h.core.top; omega), hrsp]
    rfl
  have hw : ∀ i x, Live s.m i x → r x.fd = waits s.net x.fd := by
    intro i x hl
    obtain ⟨b, f, _, _, _, e4, e5⟩ := h.core.slot i x hl
    simp only [r]
    rw [if_pos (by omega), ready_waits e4, h.core.bits3 i x hl (by rw [hi]; nofun)]
    have : x.fd < (s.m.maxFd + 1).toNat := by omega
    simp [this]
  have hw' : ∀ x ∈ liveList s.m, r x.fd = waits s.net x.fd := by
    intro x hx
    obtain ⟨i, hi'⟩ := List.getElem?_of_mem hx
    exact hw i x (mem_liveList.1 hi')
  have hcount : ((liveList s.m).filter fun x => r x.fd).length ≤ n := by
    have := ready_count h hi
    rw [List.filter_congr hw']
    exact this
  by_cases hn : (n : Int) ≤ 0
  · refine ⟨[.copy, .select], [.tau, .tau], { s with pc := .go n r }, ?_, ?_, ?_, ?_⟩
    · intro a ha
      simp only [List.mem_cons, List.not_mem_nil, or_false] at ha
      rcases ha with rfl | rfl
      · exact .inl rfl
      · exact .inr (.inl rfl)
    · simp only [Sys.run, hst1, hst2]
    · simp only [Pc.go, if_pos hn]
    · rw [filterMap_nil]
      · rfl
      · intro x hx
        apply head_none
        rw [← hw' x hx]
        have : (liveList s.m).filter (fun x => r x.fd) = [] := by
          apply List.eq_nil_of_length_eq_zero; omega
        rw [List.filter_eq_nil_iff] at this
        simpa using this x hx
  · have hst3 : ({ s with pc := .go n r } : Sys).step .relock = .ok .tau { s with pc := .loop n r 0 } := by
      have : ({ s with pc := .relock n r } : Sys).canRead = true := by simp [Sys.canRead, hi]
      simp only [Pc.go, if_neg hn, Sys.step, this, if_true, hh]
    have hI3 : Inv { s with pc := .loop n r 0 } := inv_pc h hi _ (by intro fds mf e; cases e) (fun _ _ _ _ => hh)
    obtain ⟨as, es, s', c1, c2, c3, c4⟩ := loop_run _ { s with pc := .loop n r 0 } S 0 n r rfl hI3 (rel_pc hr _) rfl
      (by simpa using hw') (by simpa using Int.ofNat_le.2 hcount)
    refine ⟨.copy :: .select :: .relock :: as, .tau :: .tau :: .tau :: es, s', ?_, ?_, c3, ?_⟩
    · intro a ha
      simp only [List.mem_cons] at ha
      rcases ha with rfl | rfl | rfl | ha
      · exact .inl rfl
      · exact .inr (.inl rfl)
      · exact .inr (.inr (.inl rfl))
      · exact .inr (.inr (.inr (c1 a ha)))
    · simp only [Sys.run, hst1, hst2, hst3, c2]
    · have e : handed (.tau :: .tau :: .tau :: es) = handed es := rfl
      rw [e, c4]
      simp

/-- What is handed over in a round, in terms of the specification. -/
theorem heads_spec (h : Inv s) (hr : Rel s S) :
    ((liveList s.m).filterMap (head s.net)).Pairwise (fun a b => a.1 < b.1) ∧
    ∀ p d, (p, d) ∈ (liveList s.m).filterMap (head s.net) ↔
      ∃ q f rest, S.port p = some q ∧ S.net q.fd = some f ∧ f.pend = ⟨d, false⟩ :: rest := by
  have hport : ∀ x a, head s.net x = some a → a.1 = x.port := by
    intro x a ha
    simp only [head] at ha
    split at ha
    · cases ha
    · split at ha
      · cases ha
      · split at ha
        · cases ha
        · cases ha; rfl
  constructor
  · rw [List.pairwise_filterMap]
    rw [List.pairwise_iff_getElem]
    intro i j hi hj hij a ha b hb
    rw [hport _ _ ha, hport _ _ hb]
    have h1 := mem_liveList.1 (List.getElem?_eq_getElem hi)
    have h2 := mem_liveList.1 (List.getElem?_eq_getElem hj)
    exact h.core.tab.sorted i j _ _ hij h2.1 h1.2 h2.2
  · intro p d
    rw [List.mem_filterMap]
    constructor
    · rintro ⟨x, hx, hd⟩
      have hp := hport _ _ hd
      obtain ⟨i, hi⟩ := List.getElem?_of_mem hx
      obtain ⟨q, q1, q2, _⟩ := hr.ports.to i x (mem_liveList.1 hi)
      simp only [head] at hd
      cases hn : s.net x.fd with
      | none => rw [hn] at hd; cases hd
      | some f =>
        rw [hn] at hd
        simp only [] at hd
        cases hf : f.pend with
        | nil => rw [hf] at hd; cases hd
        | cons k rest =>
          rw [hf] at hd
          simp only [] at hd
          obtain ⟨kd, kc⟩ := k
          cases kc
          · cases hd
            exact ⟨q, f, rest, q1, by rw [hr.net, q2]; exact hn, hf⟩
          · cases hd
    · rintro ⟨q, f, rest, h1, h2, h3⟩
      obtain ⟨i, x, hx, rfl⟩ := hr.ports.from' p q h1
      obtain ⟨q', q1, q2, _⟩ := hr.ports.to i x hx
      rw [h1] at q1
      cases q1
      refine ⟨x, List.mem_of_getElem? (mem_liveList.2 hx), ?_⟩
      rw [hr.net, q2] at h2
      simp only [head, h2, h3]
      rfl

end Bm.Bmi
