import Verif.Lemmas.Pre

/-!
# Every call on the replication engine preserves the representation
-/

namespace Bm.Pre

open Spec.Mc

/-- The limits configured in the state. -/
def Lim (s : State) (lim : Limits) : Prop :=
  s.mgidTableSize = lim.groups ∧ min s.l1MaxEntries s.l2MaxEntries = lim.nodes

/-- The results the code produces: like `Allowed`, but a node stays tied to the last group it was
associated with even when that group has been destroyed. -/
def Result (lim : Limits) (c : Conf) : Op (Finset Nat) → Ret → Prop
  | .associate g n, r => r =
    if n ∉ c.nodes then .err .badNode
    else if g ∉ c.groups then .err .badGroup
    else if (c.node n).held ≠ none then .err .conflict
    else .ok
  | .dissociate g n, r => r =
    if n ∉ c.nodes then .err .badNode
    else if g ∉ c.groups then .err .badGroup
    else if (c.node n).held ≠ some g then .err .conflict
    else .ok
  | op, r => Allowed lim c op r

/-- The calls on which an exception leaves the engine. -/
def Throws (c : Conf) : Op (Finset Nat) → Prop
  | .nodeDestroy n => n ∈ c.nodes ∧ ∃ g, (c.node n).held = some g ∧ g ∉ c.groups
  | _ => False

/-- What one call does. -/
def StepOk (lim : Limits) (s : State) (c : Conf) (op : Op PortSet) : Prop :=
  ∃ r s', exec s op = some (r, s') ∧ Rep s' (effect c (op.map den) r) ∧ Lim s' lim ∧
    Result lim c (op.map den) r

variable {s : State} {c : Conf} {lim : Limits}

theorem Rep.memGroups (h : Rep s c) (g : Nat) : g ∈ c.groups ↔ ∃ m, s.mgids.find? g = some m := by
  rw [← h.groups, UMap.mem_keys]

theorem Rep.find (h : Rep s c) {n : Nat} {e : L1Entry} (he : s.l1s.find? n = some e) :
    n ∈ c.nodes ∧ ∃ e2, NodeRep s n (c.node n) e e2 := by
  have hn : n ∈ c.nodes := by rw [← h.nodes, UMap.mem_keys]; exact ⟨e, he⟩
  obtain ⟨e', e2, r⟩ := h.node n hn
  have : e' = e := by have := r.l1; rw [he] at this; exact (Option.some.inj this).symm
  subst this
  exact ⟨hn, e2, r⟩

theorem step_groupCreate (h : Rep s c) (hl : Lim s lim) (g : Nat) :
    StepOk lim s c (.groupCreate g) := by
  refine ⟨_, _, rfl, ?_, ?_, ?_⟩
  · unfold mgrpCreate
    by_cases hf : s.mgids.size ≥ s.mgidTableSize
    · simp only [hf, if_true]; exact h
    · simp only [hf, if_false]
      refine ⟨?_, h.h1, h.h2, h.nodes, h.card, ?_, h.inj, ?_, ?_, h.lag⟩
      · rw [UMap.keys_insert, h.groups]; rfl
      · intro n hn
        obtain ⟨e, e2, r⟩ := h.node n hn
        exact ⟨e, e2, ⟨r.l1, r.l2, r.rid, r.assoc, r.grp, r.ports, r.lags⟩⟩
      · intro g' m hm
        cases hg : s.mgids.find? g with
        | some w =>
          simp only [UMap.insert_present _ _ _ _ hg] at hm
          exact h.list g' m hm
        | none =>
          simp only [UMap.find_insert _ _ _ hg] at hm
          by_cases hgg : g' = g
          · subst hgg
            simp only [if_true, Option.some.injEq] at hm
            subst hm
            refine ⟨List.nodup_nil, fun n => ?_⟩
            have hng : g' ∉ c.groups := by rw [← h.groups]; exact (UMap.find_none _ _).1 hg
            have := h.noGroup hng
            rw [show members (effect c ((Op.groupCreate g').map den) (Code.success.ret)) g'
              = members c g' from rfl, this]
            simp
          · simp only [hgg, if_false] at hm
            exact h.list g' m hm
      · intro n hn g' hg'
        have := h.held n hn g' hg'
        exact ⟨this.1, Finset.mem_insert_of_mem this.2⟩
  · unfold mgrpCreate
    split <;> exact hl
  · unfold mgrpCreate
    simp only [Result, Allowed, Op.map]
    rw [UMap.size_eq, h.groups, hl.1]
    by_cases hf : c.groups.card ≥ lim.groups
    · simp [hf, Code.ret]
    · simp [hf, Code.ret]

theorem step_groupDestroy (h : Rep s c) (hl : Lim s lim) (g : Nat) :
    StepOk lim s c (.groupDestroy g) := by
  refine ⟨.ok, _, rfl, ?_, hl, rfl⟩
  have hkeep : ∀ n g', g' ≠ g →
      ((if (c.node n).grp = some g then { (c.node n) with grp := none } else c.node n).grp = some g'
        ↔ (c.node n).grp = some g') := by
    intro n g' hne
    split
    · rename_i he; rw [he]; simp [Ne.symm hne]
    · rfl
  refine ⟨?_, h.h1, h.h2, h.nodes, h.card, ?_, h.inj, ?_, ?_, h.lag⟩
  · simp only [mgrpDestroy, UMap.keys_erase, h.groups]; rfl
  · intro n hn
    obtain ⟨e, e2, r⟩ := h.node n hn
    refine ⟨e, e2, ?_⟩
    simp only [effect, Op.map]
    split
    · exact ⟨r.l1, r.l2, r.rid, r.assoc, r.grp, r.ports, r.lags⟩
    · exact ⟨r.l1, r.l2, r.rid, r.assoc, r.grp, r.ports, r.lags⟩
  · intro g' m hm
    simp only [mgrpDestroy, UMap.find_erase] at hm
    by_cases hgg : g' = g
    · simp [hgg] at hm
    · simp only [hgg, if_false] at hm
      obtain ⟨hnd, hmem⟩ := h.list g' m hm
      refine ⟨hnd, fun n => ?_⟩
      rw [hmem, mem_members, mem_members]
      simp only [effect, Op.map]
      rw [hkeep n g' hgg]
  · intro n hn g' hg'
    simp only [effect, Op.map] at hg' hn ⊢
    by_cases he : (c.node n).grp = some g
    · simp [he] at hg'
    · simp only [he, if_false] at hg' ⊢
      have := h.held n hn g' hg'
      refine ⟨this.1, Finset.mem_erase.2 ⟨?_, this.2⟩⟩
      rintro rfl
      exact he hg'

theorem step_nodeCreate (h : Rep s c) (hl : Lim s lim) (rid : Nat) (ports : PortSet)
    (lags : Option PortSet) : StepOk lim s c (.nodeCreate rid ports lags) := by
  obtain ⟨mk, hmk, hx⟩ : ∃ mk : Nat → L2Entry, (∀ i, mk i = { l1Hdl := i, portMap := ports, lagMap := lags.getD 0 }) ∧
      exec s (.nodeCreate rid ports lags) =
        (nodeCreateWith s rid mk).map fun r => (createRet r.1 r.2.1, r.2.2) := by
    cases lags with
    | none => exact ⟨_, fun i => rfl, rfl⟩
    | some l => exact ⟨_, fun i => rfl, rfl⟩
  have hden : (lags.map den).getD ∅ = den (lags.getD 0) := by
    cases lags with
    | none =>
      simp only [Option.map_none, Option.getD_none]
      ext p; simp [mem_den]
    | some l => rfl
  unfold StepOk
  rw [hx]
  unfold nodeCreateWith
  have hs1 : s.l1s.size = c.nodes.card := by rw [UMap.size_eq, h.nodes]
  have hs2 : s.l2s.size = c.nodes.card := by rw [UMap.size_eq, h.card]
  rw [hs1, hs2]
  have hlim : lim.nodes ≤ c.nodes.card ↔ (c.nodes.card ≥ s.l1MaxEntries ∨ c.nodes.card ≥ s.l2MaxEntries) := by
    rw [← hl.2]; omega
  by_cases hf1 : c.nodes.card ≥ s.l1MaxEntries
  · refine ⟨.err .full, s, by simp only [hf1, if_true]; rfl, h, hl, ?_⟩
    simp [Result, Allowed, Op.map, hlim, hf1]
  by_cases hf2 : c.nodes.card ≥ s.l2MaxEntries
  · refine ⟨.err .full, s, by simp only [hf1, hf2, if_true, if_false]; rfl, h, hl, ?_⟩
    simp [Result, Allowed, Op.map, hlim, hf2]
  obtain ⟨m1, e1, r1⟩ := h.h1.getHandle
  obtain ⟨m2, e2, r2⟩ := h.h2.getHandle
  generalize hn1 : s.l1Handles.firstUnset = n1 at e1 r1
  generalize hn2 : s.l2Handles.firstUnset = n2 at e2 r2
  have hf : n1 ∉ c.nodes := hn1 ▸ h.h1.free
  have hfree2 : n2 ∉ s.l2s.keys := hn2 ▸ h.h2.free
  simp only [hf1, hf2, if_false, e1, e2, Option.bind_eq_bind, Option.bind_some, Option.pure_def,
    Option.map_some, Option.some.injEq, Prod.mk.injEq, exists_eq_left', exists_and_left,
    createRet, if_true]
  refine ⟨_, _, ⟨rfl, rfl⟩, ?_, hl, ?_⟩
  · have hfind1 : s.l1s.find? n1 = none := by rw [UMap.find_none, h.nodes]; exact hf
    have hfind2 : s.l2s.find? n2 = none := by rw [UMap.find_none]; exact hfree2
    have hF1 : ∀ j, ((s.l1s.insert n1 { rid := rid }).modify n1 fun e => { e with l2Hdl := n2 }).find? j
        = if j = n1 then some { rid := rid, l2Hdl := n2 } else s.l1s.find? j := by
      intro j
      rw [UMap.find_modify, UMap.find_insert _ _ _ hfind1]
      by_cases hj : j = n1 <;> simp [hj]
    have hF2 : ∀ j, (s.l2s.insert n2 (mk n1)).find? j = if j = n2 then some (mk n1) else s.l2s.find? j :=
      fun j => UMap.find_insert _ _ _ hfind2 j
    refine ⟨h.groups, r1, ?_, ?_, ?_, ?_, ?_, ?_, ?_, h.lag⟩
    · simp only [UMap.keys_insert]; exact r2
    · simp only [UMap.keys_modify, UMap.keys_insert, h.nodes]; rfl
    · simp only [UMap.keys_insert]
      rw [Finset.card_insert_of_notMem hfree2, h.card]
      exact (Finset.card_insert_of_notMem hf).symm
    · intro n hn
      simp only [effect, Op.map, upd] at hn ⊢
      by_cases hnn : n = n1
      · subst hnn
        simp only [if_true]
        refine ⟨{ rid := rid, l2Hdl := n2 }, mk n, ?_⟩
        constructor
        · simp only [hF1]; simp
        · simp only [hF2]; simp
        · rfl
        · simp
        · simp
        · rw [hmk]
        · rw [hmk, hden]
      · simp only [hnn, if_false]
        obtain ⟨e, e2, r⟩ := h.node n (by simpa [hnn] using hn)
        refine ⟨e, e2, ?_, ?_, r.rid, r.assoc, r.grp, r.ports, r.lags⟩
        · simp only [hF1]; simp [hnn, r.l1]
        · simp only [hF2]
          rw [if_neg]
          · exact r.l2
          · rintro hh
            rw [← hh] at hfind2
            rw [r.l2] at hfind2; cases hfind2
    · intro n e n' e' he he' hee
      simp only [hF1] at he he'
      have key : ∀ m f, s.l1s.find? m = some f → f.l2Hdl ≠ n2 := by
        intro m f hm hh
        obtain ⟨_, _, r⟩ := h.find hm
        have := r.l2
        rw [hh, hfind2] at this; cases this
      by_cases hn : n = n1 <;> by_cases hn' : n' = n1
      · rw [hn, hn']
      · simp only [hn, if_true, Option.some.injEq] at he
        simp only [hn', if_false] at he'
        subst he
        exact absurd hee.symm (key _ _ he')
      · simp only [hn', if_true, Option.some.injEq] at he'
        simp only [hn, if_false] at he
        subst he'
        exact absurd hee (key _ _ he)
      · simp only [hn, hn', if_false] at he he'
        exact h.inj n e n' e' he he' hee
    · intro g m hm
      obtain ⟨hnd, hmem⟩ := h.list g m hm
      refine ⟨hnd, fun n => ?_⟩
      rw [hmem, mem_members, mem_members]
      simp only [effect, Op.map, upd, Finset.mem_insert]
      by_cases hnn : n = n1
      · subst hnn
        simp [hf]
      · simp [hnn]
    · intro n hn g hg
      simp only [effect, Op.map, upd] at hn hg ⊢
      by_cases hnn : n = n1
      · simp [hnn] at hg
      · simp only [hnn, if_false] at hg ⊢
        exact h.held n (by simpa [hnn] using hn) g hg
  · simp only [Result, Allowed, Op.map]
    rw [if_neg (by rw [hlim]; tauto)]
    exact ⟨_, rfl, hf⟩

theorem step_associate (h : Rep s c) (hl : Lim s lim) (g n : Nat) :
    StepOk lim s c (.associate g n) := by
  unfold StepOk
  simp only [exec, nodeAssociate, h.h1.validHandle, Option.bind_eq_bind, Option.bind_some]
  by_cases hn : n ∈ c.nodes
  swap
  · refine ⟨.err .badNode, s, by simp [hn, Code.ret], h, hl, ?_⟩
    simp [Result, Op.map, hn]
  simp only [hn, decide_true, Bool.not_true, Bool.false_eq_true, if_false]
  cases hg : s.mgids.find? g with
  | none =>
    have hng : g ∉ c.groups := by rw [← h.groups]; exact (UMap.find_none _ _).1 hg
    refine ⟨.err .badGroup, s, by simp [Code.ret], h, hl, ?_⟩
    simp [Result, Op.map, hn, hng]
  | some m =>
    have hgg : g ∈ c.groups := (h.memGroups g).2 ⟨m, hg⟩
    obtain ⟨e, e2, r⟩ := h.node n hn
    simp only [r.l1, Option.bind_some]
    by_cases ha : e.isAssociated = true
    · refine ⟨.err .conflict, s, by simp [ha, Code.ret], h, hl, ?_⟩
      obtain ⟨g', hg'⟩ := r.assoc.1 ha
      simp [Result, Op.map, hn, hgg, hg']
    · have hheld : (c.node n).held = none := by
        cases hh : (c.node n).held with
        | none => rfl
        | some g' => exact absurd (r.assoc.2 ⟨g', hh⟩) ha
      have hgrp : (c.node n).grp = none := by
        cases hh : (c.node n).grp with
        | none => rfl
        | some g' => have := (h.held n hn g' hh).1; rw [hheld] at this; cases this
      refine ⟨.ok, _, by simp only [ha, Bool.false_eq_true, if_false]; rfl, ?_⟩
      refine ⟨?_, hl, by simp [Result, Op.map, hn, hgg, hheld]⟩
      refine ⟨?_, h.h1, h.h2, ?_, h.card, ?_, ?_, ?_, ?_, h.lag⟩
      · simp only [UMap.keys_modify, h.groups]; rfl
      · simp only [UMap.keys_modify, h.nodes]; rfl
      · intro k hk
        simp only [effect, Op.map, upd]
        obtain ⟨f, f2, q⟩ := h.node k hk
        by_cases hkn : k = n
        · subst hkn
          have hfe : f = e := by have := q.l1; rw [r.l1] at this; exact (Option.some.inj this).symm
          subst hfe
          refine ⟨{ f with mgrpHdl := g, isAssociated := true }, f2, ?_⟩
          simp only [if_true]
          refine ⟨?_, q.l2, q.rid, by simp, by simp, q.ports, q.lags⟩
          rw [UMap.find_modify]; simp [r.l1]
        · simp only [hkn, if_false]
          refine ⟨f, f2, ?_, q.l2, q.rid, q.assoc, q.grp, q.ports, q.lags⟩
          rw [UMap.find_modify]; simp [hkn, q.l1]
      · intro k f k' f' hf hf' hff
        simp only [UMap.find_modify] at hf hf'
        have aux : ∀ k f, (if k = n then (s.l1s.find? k).map
            (fun e => { e with mgrpHdl := g, isAssociated := true }) else s.l1s.find? k) = some f →
            ∃ f0, s.l1s.find? k = some f0 ∧ f0.l2Hdl = f.l2Hdl := by
          intro k f hk
          split at hk
          · obtain ⟨f0, h0, rfl⟩ := Option.map_eq_some_iff.1 hk
            exact ⟨f0, h0, rfl⟩
          · exact ⟨f, hk, rfl⟩
        obtain ⟨a, ha1, ha2⟩ := aux k f hf
        obtain ⟨b, hb1, hb2⟩ := aux k' f' hf'
        exact h.inj k a k' b ha1 hb1 (by rw [ha2, hb2, hff])
      · intro g' m' hm'
        simp only [UMap.find_modify] at hm'
        have hmm : ∀ k, k ∈ members (effect c ((Op.associate g n).map den) Ret.ok) g' ↔
            (k ∈ members c g' ∨ (k = n ∧ g' = g)) := by
          intro k
          rw [mem_members, mem_members]
          simp only [effect, Op.map, upd]
          by_cases hkn : k = n
          · subst hkn; simp [hn, hgrp, eq_comm]
          · simp [hkn]
        by_cases hge : g' = g
        · subst hge
          simp only [if_true, hg, Option.map_some, Option.some.injEq] at hm'
          subst hm'
          obtain ⟨hnd, hmem⟩ := h.list g' m hg
          have hnot : n ∉ m.l1List := by
            rw [hmem, mem_members, hgrp]; simp
          refine ⟨?_, fun k => ?_⟩
          · simp only
            rw [List.nodup_append]
            refine ⟨hnd, by simp, ?_⟩
            intro a ha b hb hab
            simp only [List.mem_singleton] at hb
            subst hab hb
            exact hnot ha
          · rw [hmm]
            simp [hmem]
        · simp only [hge, if_false] at hm'
          obtain ⟨hnd, hmem⟩ := h.list g' m' hm'
          refine ⟨hnd, fun k => ?_⟩
          rw [hmm, hmem]
          simp [hge]
      · intro k hk g' hg'
        simp only [effect, Op.map, upd] at hg' ⊢
        by_cases hkn : k = n
        · subst hkn
          simp only [if_true, Option.some.injEq] at hg' ⊢
          exact ⟨hg', hg' ▸ hgg⟩
        · simp only [hkn, if_false] at hg' ⊢
          exact h.held k hk g' hg'

/-- Removing a node from the list of the group it is tied to removes it from every list. -/
theorem list_remove (h : Rep s c) {n g : Nat} (hn : n ∈ c.nodes)
    (hh : (c.node n).held = some g) {g' : Nat} {m' : MgidEntry}
    (hm' : (s.mgids.modify g fun m => dissociateFrom m n).find? g' = some m') :
    m'.l1List.Nodup ∧ ∀ k, k ∈ m'.l1List ↔ (k ∈ members c g' ∧ k ≠ n) := by
  rw [UMap.find_modify] at hm'
  by_cases hge : g' = g
  · subst hge
    simp only [if_true] at hm'
    obtain ⟨m, hm, rfl⟩ := Option.map_eq_some_iff.1 hm'
    obtain ⟨hnd, hmem⟩ := h.list g' m hm
    refine ⟨hnd.filter _, fun k => ?_⟩
    simp [dissociateFrom, hmem]
  · simp only [hge, if_false] at hm'
    obtain ⟨hnd, hmem⟩ := h.list g' m' hm'
    refine ⟨hnd, fun k => ?_⟩
    rw [hmem]
    constructor
    · intro hk
      refine ⟨hk, ?_⟩
      rintro rfl
      have := (h.held k hn g' ((mem_members _ _ _).1 hk).2).1
      rw [hh] at this
      exact hge (Option.some.inj this).symm
    · exact fun hk => hk.1

theorem step_dissociate (h : Rep s c) (hl : Lim s lim) (g n : Nat) :
    StepOk lim s c (.dissociate g n) := by
  unfold StepOk
  simp only [exec, nodeDissociate, h.h1.validHandle, Option.bind_eq_bind, Option.bind_some]
  by_cases hn : n ∈ c.nodes
  swap
  · refine ⟨.err .badNode, s, by simp [hn, Code.ret], h, hl, ?_⟩
    simp [Result, Op.map, hn]
  simp only [hn, decide_true, Bool.not_true, Bool.false_eq_true, if_false]
  cases hg : s.mgids.find? g with
  | none =>
    have hng : g ∉ c.groups := by rw [← h.groups]; exact (UMap.find_none _ _).1 hg
    refine ⟨.err .badGroup, s, by simp [Code.ret], h, hl, ?_⟩
    simp [Result, Op.map, hn, hng]
  | some m =>
    have hgg : g ∈ c.groups := (h.memGroups g).2 ⟨m, hg⟩
    obtain ⟨e, e2, r⟩ := h.node n hn
    simp only [r.l1, Option.bind_some]
    by_cases hheld : (c.node n).held = some g
    swap
    · have hc : (!e.isAssociated || decide (e.mgrpHdl ≠ g)) = true := by
        by_cases ha : e.isAssociated = true
        · obtain ⟨g', hg'⟩ := r.assoc.1 ha
          have := r.grp g' hg'
          simp only [ha, Bool.not_true, Bool.false_or, decide_eq_true_eq]
          rintro rfl
          exact hheld (this ▸ hg')
        · simp [ha]
      refine ⟨.err .conflict, s, by simp only [hc, if_true]; rfl, h, hl, ?_⟩
      simp [Result, Op.map, hn, hgg, hheld]
    · have hc : (!e.isAssociated || decide (e.mgrpHdl ≠ g)) = false := by
        simp [r.assoc.2 ⟨g, hheld⟩, r.grp g hheld]
      refine ⟨.ok, _, by simp only [hc, Bool.false_eq_true, if_false]; rfl, ?_⟩
      refine ⟨?_, hl, by simp [Result, Op.map, hn, hgg, hheld]⟩
      refine ⟨?_, h.h1, h.h2, ?_, h.card, ?_, ?_, ?_, ?_, h.lag⟩
      · simp only [UMap.keys_modify, h.groups]; rfl
      · simp only [UMap.keys_modify, h.nodes]; rfl
      · intro k hk
        simp only [effect, Op.map, upd]
        obtain ⟨f, f2, q⟩ := h.node k hk
        by_cases hkn : k = n
        · subst hkn
          have hfe : f = e := by have := q.l1; rw [r.l1] at this; exact (Option.some.inj this).symm
          subst hfe
          refine ⟨{ f with isAssociated := false }, f2, ?_⟩
          simp only [if_true]
          refine ⟨?_, q.l2, q.rid, by simp, by simp, q.ports, q.lags⟩
          rw [UMap.find_modify]; simp [r.l1]
        · simp only [hkn, if_false]
          refine ⟨f, f2, ?_, q.l2, q.rid, q.assoc, q.grp, q.ports, q.lags⟩
          rw [UMap.find_modify]; simp [hkn, q.l1]
      · intro k f k' f' hf hf' hff
        simp only [UMap.find_modify] at hf hf'
        have aux : ∀ k f, (if k = n then (s.l1s.find? k).map
            (fun e => { e with isAssociated := false }) else s.l1s.find? k) = some f →
            ∃ f0, s.l1s.find? k = some f0 ∧ f0.l2Hdl = f.l2Hdl := by
          intro k f hk
          split at hk
          · obtain ⟨f0, h0, rfl⟩ := Option.map_eq_some_iff.1 hk
            exact ⟨f0, h0, rfl⟩
          · exact ⟨f, hk, rfl⟩
        obtain ⟨a, ha1, ha2⟩ := aux k f hf
        obtain ⟨b, hb1, hb2⟩ := aux k' f' hf'
        exact h.inj k a k' b ha1 hb1 (by rw [ha2, hb2, hff])
      · intro g' m' hm'
        obtain ⟨hnd, hmem⟩ := list_remove h hn hheld hm'
        refine ⟨hnd, fun k => ?_⟩
        rw [hmem, mem_members, mem_members]
        simp only [effect, Op.map, upd]
        by_cases hkn : k = n
        · subst hkn; simp
        · simp [hkn]
      · intro k hk g' hg'
        simp only [effect, Op.map, upd] at hg' ⊢
        by_cases hkn : k = n
        · simp [hkn] at hg'
        · simp only [hkn, if_false] at hg' ⊢
          exact h.held k hk g' hg'

theorem step_nodeDestroy (h : Rep s c) (hl : Lim s lim) (n : Nat) :
    (Throws c (.nodeDestroy n) → exec s (.nodeDestroy n) = none) ∧
    (¬ Throws c (.nodeDestroy n) → StepOk lim s c (.nodeDestroy n)) := by
  unfold StepOk
  simp only [exec, nodeDestroy, h.h1.validHandle, Option.bind_eq_bind, Option.bind_some]
  by_cases hn : n ∈ c.nodes
  swap
  · refine ⟨fun ht => absurd ht.1 hn, fun _ => ⟨.err .badNode, s, by simp [hn, Code.ret], h, hl, ?_⟩⟩
    simp [Result, Allowed, Op.map, hn]
  obtain ⟨e, e2, r⟩ := h.node n hn
  simp only [hn, decide_true, Bool.not_true, Bool.false_eq_true, if_false, r.l1, Option.bind_some]
  constructor
  · rintro ⟨_, g, hg, hng⟩
    have : destroyAssoc s e n = none := by
      have hf : s.mgids.find? g = none := by rw [UMap.find_none, h.groups]; exact hng
      simp only [destroyAssoc, r.assoc.2 ⟨g, hg⟩, if_true, r.grp g hg, hf]
    rw [this]; rfl
  · intro hnt
    have hmg : ∃ mg, destroyAssoc s e n = some mg ∧ mg.keys = c.groups ∧
        ∀ g' m', mg.find? g' = some m' →
          m'.l1List.Nodup ∧ ∀ k, k ∈ m'.l1List ↔ (k ∈ members c g' ∧ k ≠ n) := by
      unfold destroyAssoc
      by_cases ha : e.isAssociated = true
      · obtain ⟨g, hg⟩ := r.assoc.1 ha
        have hgg : g ∈ c.groups := by
          by_contra hng
          exact hnt ⟨hn, g, hg, hng⟩
        obtain ⟨m, hm⟩ := (h.memGroups g).1 hgg
        simp only [ha, if_true, r.grp g hg, hm]
        exact ⟨_, rfl, by rw [UMap.keys_modify, h.groups], fun g' m' hm' => list_remove h hn hg hm'⟩
      · simp only [ha, Bool.false_eq_true, if_false]
        refine ⟨_, rfl, h.groups, fun g' m' hm' => ?_⟩
        obtain ⟨hnd, hmem⟩ := h.list g' m' hm'
        refine ⟨hnd, fun k => ?_⟩
        rw [hmem]
        constructor
        · intro hk
          refine ⟨hk, ?_⟩
          rintro rfl
          exact ha (r.assoc.2 ⟨g', (h.held k hn g' ((mem_members _ _ _).1 hk).2).1⟩)
        · exact fun hk => hk.1
    obtain ⟨mg, hmg1, hmg2, hmg3⟩ := hmg
    have hk2 : e.l2Hdl ∈ s.l2s.keys := (UMap.mem_keys _ _).2 ⟨e2, r.l2⟩
    obtain ⟨m2, hr2, hrep2⟩ := h.h2.releaseHandle e.l2Hdl
    obtain ⟨m1, hr1, hrep1⟩ := h.h1.releaseHandle n
    refine ⟨.ok, _, by simp only [hmg1, hr2, hr1, hk2, hn, decide_true, Option.bind_some,
      Bool.not_true, Bool.false_eq_true, if_false]; rfl, ?_⟩
    refine ⟨?_, hl, by simp [Result, Allowed, Op.map, hn]⟩
    refine ⟨hmg2, hrep1, ?_, ?_, ?_, ?_, ?_, ?_, ?_, h.lag⟩
    · simp only [UMap.keys_erase]; exact hrep2
    · simp only [UMap.keys_erase, h.nodes]; rfl
    · simp only [UMap.keys_erase]
      rw [Finset.card_erase_of_mem hk2, h.card]
      exact (Finset.card_erase_of_mem hn).symm
    · intro k hk
      simp only [effect, Op.map, upd, Finset.mem_erase] at hk ⊢
      obtain ⟨hkn, hk⟩ := hk
      simp only [hkn, if_false]
      obtain ⟨f, f2, q⟩ := h.node k hk
      refine ⟨f, f2, ?_, ?_, q.rid, q.assoc, q.grp, q.ports, q.lags⟩
      · simp only [UMap.find_erase, hkn, if_false, q.l1]
      · simp only [UMap.find_erase]
        rw [if_neg]
        · exact q.l2
        · intro hh
          exact hkn (h.inj k f n e q.l1 r.l1 hh)
    · intro k f k' f' hf hf' hff
      simp only [UMap.find_erase] at hf hf'
      split at hf
      · cases hf
      split at hf'
      · cases hf'
      exact h.inj k f k' f' hf hf' hff
    · intro g' m' hm'
      obtain ⟨hnd, hmem⟩ := hmg3 g' m' hm'
      refine ⟨hnd, fun k => ?_⟩
      rw [hmem, mem_members, mem_members]
      simp only [effect, Op.map, upd, Finset.mem_erase]
      by_cases hkn : k = n
      · subst hkn; simp
      · simp [hkn]
    · intro k hk g' hg'
      simp only [effect, Op.map, upd, Finset.mem_erase] at hk hg' ⊢
      obtain ⟨hkn, hk⟩ := hk
      simp only [hkn, if_false] at hg' ⊢
      exact h.held k hk g' hg'

theorem step_nodeUpdate (h : Rep s c) (hl : Lim s lim) (n : Nat) (ports : PortSet)
    (lags : Option PortSet) : StepOk lim s c (.nodeUpdate n ports lags) := by
  obtain ⟨f, hf, hx⟩ : ∃ f : L2Entry → L2Entry,
      (∀ e, f e = { e with portMap := ports, lagMap := lags.getD e.lagMap }) ∧
      exec s (.nodeUpdate n ports lags) = (nodeUpdateWith s n f).map fun r => (r.1.ret, r.2) := by
    cases lags with
    | none => exact ⟨_, fun i => rfl, rfl⟩
    | some l => exact ⟨_, fun i => rfl, rfl⟩
  have hden : ∀ l : PortSet, den (lags.getD l) = (lags.map den).getD (den l) := by
    intro l; cases lags <;> rfl
  unfold StepOk
  rw [hx]
  simp only [nodeUpdateWith, h.h1.validHandle, Option.bind_eq_bind, Option.bind_some]
  by_cases hn : n ∈ c.nodes
  swap
  · refine ⟨.err .badNode, s, by simp [hn, Code.ret], h, hl, ?_⟩
    simp [Result, Allowed, Op.map, hn]
  obtain ⟨e, e2, r⟩ := h.node n hn
  refine ⟨.ok, _, by simp only [hn, decide_true, Bool.not_true, Bool.false_eq_true, if_false, r.l1,
    r.l2, Option.bind_some]; rfl, ?_⟩
  refine ⟨?_, hl, by simp [Result, Allowed, Op.map, hn]⟩
  refine ⟨h.groups, h.h1, ?_, h.nodes, ?_, ?_, h.inj, ?_, ?_, h.lag⟩
  · simp only [UMap.keys_modify]; exact h.h2
  · simp only [UMap.keys_modify]; exact h.card
  · intro k hk
    simp only [effect, Op.map, upd]
    obtain ⟨q1, q2, q⟩ := h.node k hk
    by_cases hkn : k = n
    · subst hkn
      simp only [if_true]
      refine ⟨q1, f q2, q.l1, ?_, q.rid, q.assoc, q.grp, ?_, ?_⟩
      · have : q1 = e := by have := q.l1; rw [r.l1] at this; exact (Option.some.inj this).symm
        subst this
        rw [UMap.find_modify, if_pos rfl, q.l2]; rfl
      · rw [hf]
      · rw [hf]; simp only; rw [hden, q.lags]
    · simp only [hkn, if_false]
      refine ⟨q1, q2, q.l1, ?_, q.rid, q.assoc, q.grp, q.ports, q.lags⟩
      simp only [UMap.find_modify]
      rw [if_neg]
      · exact q.l2
      · intro hh
        exact hkn (h.inj k q1 n e q.l1 r.l1 hh)
  · intro g m hm
    obtain ⟨hnd, hmem⟩ := h.list g m hm
    refine ⟨hnd, fun k => ?_⟩
    rw [hmem, mem_members, mem_members]
    simp only [effect, Op.map, upd]
    by_cases hkn : k = n
    · subst hkn; simp
    · simp [hkn]
  · intro k hk g hg
    simp only [effect, Op.map, upd] at hg ⊢
    by_cases hkn : k = n
    · subst hkn
      simp only [if_true] at hg ⊢
      exact h.held k hk g hg
    · simp only [hkn, if_false] at hg ⊢
      exact h.held k hk g hg

theorem step_setLag (h : Rep s c) (hl : Lim s lim) (i : Nat) (ports : PortSet) :
    StepOk lim s c (.setLag i ports) := by
  unfold StepOk
  simp only [exec, setLagMembership]
  by_cases hi : i > lagMaxEntries
  · refine ⟨.err .badLag, s, by simp [hi, Code.retLag], h, hl, ?_⟩
    have : i > 256 := hi
    simp [Result, Allowed, Op.map, this]
  · refine ⟨.ok, _, by simp only [hi, if_false]; rfl, ?_⟩
    refine ⟨?_, hl, ?_⟩
    · refine ⟨h.groups, h.h1, h.h2, h.nodes, h.card, ?_, h.inj, h.list, h.held, ?_⟩
      · intro k hk
        obtain ⟨q1, q2, q⟩ := h.node k hk
        exact ⟨q1, q2, q.l1, q.l2, q.rid, q.assoc, q.grp, q.ports, q.lags⟩
      · intro j
        simp only [UMap.find_assign, effect, Op.map]
        by_cases hj : j = i
        · simp [hj, LagRep]
        · simp only [hj, if_false]; exact h.lag j
    · have : ¬ i > 256 := hi
      simp [Result, Allowed, Op.map, this]

theorem step_reset (h : Rep s c) (hl : Lim s lim) (b : Bool) : StepOk lim s c (.reset b) := by
  cases b with
  | false =>
    refine ⟨.ok, resetState s, rfl, ?_, hl, rfl⟩
    exact ⟨rfl, HandleMgr.Rep.empty, HandleMgr.Rep.empty, rfl, rfl, by simp [effect, Op.map],
      by simp [resetState], by simp [resetState], by simp [effect, Op.map], h.lag⟩
  | true =>
    refine ⟨.ok, resetStateLag s, rfl, ?_, hl, rfl⟩
    exact ⟨rfl, HandleMgr.Rep.empty, HandleMgr.Rep.empty, rfl, rfl, by simp [effect, Op.map],
      by simp [resetState, resetStateLag], by simp [resetState, resetStateLag],
      by simp [effect, Op.map], by simp [resetStateLag, LagRep, effect, Op.map]⟩

theorem step (h : Rep s c) (hl : Lim s lim) (op : Op PortSet) :
    (Throws c (op.map den) → exec s op = none) ∧
    (¬ Throws c (op.map den) → StepOk lim s c op) := by
  cases op with
  | groupCreate g => exact ⟨False.elim, fun _ => step_groupCreate h hl g⟩
  | groupDestroy g => exact ⟨False.elim, fun _ => step_groupDestroy h hl g⟩
  | nodeCreate r p l => exact ⟨False.elim, fun _ => step_nodeCreate h hl r p l⟩
  | associate g n => exact ⟨False.elim, fun _ => step_associate h hl g n⟩
  | dissociate g n => exact ⟨False.elim, fun _ => step_dissociate h hl g n⟩
  | nodeDestroy n => exact step_nodeDestroy h hl n
  | nodeUpdate n p l => exact ⟨False.elim, fun _ => step_nodeUpdate h hl n p l⟩
  | setLag i p => exact ⟨False.elim, fun _ => step_setLag h hl i p⟩
  | reset b => exact ⟨False.elim, fun _ => step_reset h hl b⟩
  | replicate g =>
    refine ⟨False.elim, fun _ => ?_⟩
    obtain ⟨l, hl1, hl2⟩ := h.replicate g
    exact ⟨.copies l, s, by simp [exec, hl1], h, hl, l, rfl, hl2⟩
  | replicateLag g =>
    refine ⟨False.elim, fun _ => ?_⟩
    obtain ⟨l, hl1, hl2⟩ := h.replicateLag g
    exact ⟨.copies l, s, by simp [exec, hl1], h, hl, l, rfl, hl2⟩

end Bm.Pre
