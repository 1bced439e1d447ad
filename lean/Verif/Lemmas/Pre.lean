import Verif.Model.Pre
import Verif.Spec.Pre
import Verif.Lemmas.HandleMgr
import Mathlib.Data.List.Count
import Mathlib.Data.List.Range
import Mathlib.Data.List.Nodup
import Mathlib.Data.Finset.Sum

/-!
# Lemmas about the replication engine
-/

namespace Bm.Pre

open Spec.Mc

/-- The set denoted by a port map. -/
def den (pm : PortSet) : Finset Nat := (Finset.range 512).filter fun p => pm.getLsbD p = true

theorem mem_den (pm : PortSet) (p : Nat) : p ∈ den pm ↔ pm.getLsbD p = true := by
  simp only [den, Finset.mem_filter, Finset.mem_range, and_iff_right_iff_imp]
  intro h
  by_contra hge
  rw [BitVec.getLsbD_of_ge _ _ (by omega)] at h
  cases h

/-- Return code of a call, for the calls where `ERROR` means that the node's association does not
fit. -/
def Code.ret : Code → Ret
  | .success => .ok
  | .tableFull => .err .full
  | .invalidMgid => .err .badGroup
  | .invalidMgrpHandle => .err .badGroup
  | .invalidL1Handle => .err .badNode
  | .error => .err .conflict

/-- Return code of `mc_set_lag_membership`. -/
def Code.retLag : Code → Ret
  | .error => .err .badLag
  | c => c.ret

/-- Result of `mc_node_create`. -/
def createRet (c : Code) (h : Nat) : Ret := if c = .success then .node h else c.ret

/-- One call on the modelled engine. -/
def exec (s : State) : Op PortSet → Option (Ret × State)
  | .groupCreate g => let r := mgrpCreate s g; some (r.1.ret, r.2)
  | .groupDestroy g => let r := mgrpDestroy s g; some (r.1.ret, r.2)
  | .nodeCreate rid ports none => (nodeCreate s rid ports).map fun r => (createRet r.1 r.2.1, r.2.2)
  | .nodeCreate rid ports (some lags) =>
    (nodeCreateLag s rid ports lags).map fun r => (createRet r.1 r.2.1, r.2.2)
  | .associate g n => (nodeAssociate s g n).map fun r => (r.1.ret, r.2)
  | .dissociate g n => (nodeDissociate s g n).map fun r => (r.1.ret, r.2)
  | .nodeDestroy n => (nodeDestroy s n).map fun r => (r.1.ret, r.2)
  | .nodeUpdate n ports none => (nodeUpdate s n ports).map fun r => (r.1.ret, r.2)
  | .nodeUpdate n ports (some lags) => (nodeUpdateLag s n ports lags).map fun r => (r.1.ret, r.2)
  | .setLag i ports => let r := setLagMembership s i ports; some (r.1.retLag, r.2)
  | .reset false => some (.ok, resetState s)
  | .reset true => some (.ok, resetStateLag s)
  | .replicate g => (replicate s g).map fun l => (.copies l, s)
  | .replicateLag g => (replicateLag s g).map fun l => (.copies l, s)

/-- A sequence of calls, with the results. -/
def run (s : State) : List (Op PortSet) → Option (List (Op (Finset Nat) × Ret) × State)
  | [] => some ([], s)
  | op :: ops => do
    let (r, s') ← exec s op
    let (t, s'') ← run s' ops
    return ((op.map den, r) :: t, s'')

/-! ## Counting -/

theorem portLoop_eq (rid : Nat) (pm : PortSet) (ps : List Nat) (out : List Out) :
    portLoop rid pm ps out = out ++ (ps.filter fun p => pm.getLsbD p).map fun p => (rid, p) := by
  induction ps generalizing out with
  | nil => simp [portLoop]
  | cons p ps ih =>
    rw [portLoop, ih, List.filter_cons]
    split <;> simp

theorem count_ports (rid : Nat) (pm : PortSet) (o : Nat × Nat) :
    (((List.range 512).filter fun p => pm.getLsbD p).map fun p => (rid, p)).count o
      = if rid = o.1 ∧ o.2 ∈ den pm then 1 else 0 := by
  obtain ⟨r, q⟩ := o
  have hnd : (((List.range 512).filter fun p => pm.getLsbD p).map fun p => (rid, p)).Nodup :=
    (List.nodup_range.filter _).map fun a b h => (Prod.mk.inj h).2
  rw [hnd.count]
  refine if_congr ?_ rfl rfl
  simp only [List.mem_map, List.mem_filter, List.mem_range, Prod.mk.injEq]
  constructor
  · rintro ⟨p, ⟨_, hp⟩, rfl, rfl⟩
    exact ⟨rfl, (mem_den _ _).2 hp⟩
  · rintro ⟨rfl, hq⟩
    refine ⟨q, ⟨?_, (mem_den _ _).1 hq⟩, rfl, rfl⟩
    exact Finset.mem_range.1 (Finset.mem_filter.1 hq).1

theorem countMembers_eq (pm : PortSet) (n : Nat) :
    countMembers pm n = ((List.range n).filter fun p => pm.getLsbD p).length := by
  induction n with
  | zero => rfl
  | succ n ih =>
    rw [countMembers, List.range_succ, List.filter_append, List.length_append, ih]
    split <;> simp_all

theorem card_range_filter (pm : PortSet) (n : Nat) :
    ((Finset.range n).filter fun p => pm.getLsbD p = true).card
      = ((List.range n).filter fun p => pm.getLsbD p).length := by
  have : (Finset.range n).filter (fun p => pm.getLsbD p = true)
      = ((List.range n).filter fun p => pm.getLsbD p).toFinset := by
    ext j; simp
  rw [this, List.toFinset_card_of_nodup (List.nodup_range.filter _)]

theorem countMembers_card (pm : PortSet) : countMembers pm 512 = (den pm).card := by
  rw [countMembers_eq, den, card_range_filter]

/-- The port the selection loop picks among `ps`, when `t` members are still to be counted. -/
theorem pickLoop_eq (rid : Nat) (pm : PortSet) (target : Nat) (ps : List Nat) (cnt : Nat)
    (out : List Out) (h1 : cnt < target)
    (h2 : target - cnt ≤ (ps.filter fun p => pm.getLsbD p).length) :
    ∃ p, ((ps.filter fun p => pm.getLsbD p)[target - cnt - 1]? = some p) ∧
      pickLoop rid pm target ps cnt out = out ++ [(rid, p)] := by
  induction ps generalizing cnt with
  | nil => simp at h2; omega
  | cons p ps ih =>
    rw [pickLoop]
    by_cases hp : pm.getLsbD p = true
    · simp only [hp, if_true, List.filter_cons]
      by_cases ht : target = cnt + 1
      · refine ⟨p, ?_, by simp [ht]⟩
        rw [ht, show cnt + 1 - cnt - 1 = 0 by omega]; rfl
      · simp only [ht, if_false]
        obtain ⟨q, hq, he⟩ := ih (cnt + 1) (by omega) (by
          simp only [List.filter_cons, hp, if_true, List.length_cons] at h2; omega)
        refine ⟨q, ?_, he⟩
        rw [show target - cnt - 1 = (target - (cnt + 1) - 1) + 1 by omega, List.getElem?_cons_succ]
        exact hq
    · simp only [hp, List.filter_cons, Bool.false_eq_true, if_false]
      rw [if_neg (by omega)]
      refine ih cnt h1 ?_
      simp only [List.filter_cons, hp, Bool.false_eq_true, if_false] at h2
      exact h2

/-- The member of a LAG that gets the copy. -/
def lagChoice (pm : PortSet) : Nat :=
  (((List.range 512).filter fun p => pm.getLsbD p)[0xFF % countMembers pm 512]?).getD 0

theorem pick_choice (rid : Nat) (pm : PortSet) (out : List Out) (h : countMembers pm 512 ≠ 0) :
    lagChoice pm ∈ den pm ∧
    pickLoop rid pm (0xFF % countMembers pm 512 + 1) (List.range 512) 0 out
      = out ++ [(rid, lagChoice pm)] := by
  have hlt : 0xFF % countMembers pm 512 < countMembers pm 512 := Nat.mod_lt _ (by omega)
  have hc := countMembers_eq pm 512
  obtain ⟨p, hp, he⟩ := pickLoop_eq rid pm (0xFF % countMembers pm 512 + 1) (List.range 512) 0 out
    (by omega) (by omega)
  have e : lagChoice pm = p := by
    unfold lagChoice
    rw [show 0xFF % countMembers pm 512 + 1 - 0 - 1 = 0xFF % countMembers pm 512 by omega] at hp
    rw [hp]; rfl
  refine ⟨?_, by rw [he, e]⟩
  rw [e, mem_den]
  exact (List.mem_filter.1 (List.mem_of_getElem? hp)).2

/-! ## Representation invariant -/

/-- The entry of a node, as seen through the two tables. -/
structure NodeRep (s : State) (n : Nat) (d : Node) (e : L1Entry) (e2 : L2Entry) : Prop where
  l1 : s.l1s.find? n = some e
  l2 : s.l2s.find? e.l2Hdl = some e2
  rid : e.rid = d.rid
  assoc : e.isAssociated = true ↔ ∃ g, d.held = some g
  grp : ∀ g, d.held = some g → e.mgrpHdl = g
  ports : den e2.portMap = d.ports
  lags : den e2.lagMap = d.lags

/-- A LAG entry. -/
def LagRep (o : Option LagEntry) (S : Finset Nat) : Prop :=
  match o with
  | none => S = ∅
  | some e => den e.portMap = S ∧ e.memberCount = countMembers e.portMap 512

/-- The state represents the configuration. -/
structure Rep (s : State) (c : Conf) : Prop where
  groups : s.mgids.keys = c.groups
  h1 : s.l1Handles.Rep c.nodes
  h2 : s.l2Handles.Rep s.l2s.keys
  nodes : s.l1s.keys = c.nodes
  card : s.l2s.keys.card = c.nodes.card
  node : ∀ n ∈ c.nodes, ∃ e e2, NodeRep s n (c.node n) e e2
  inj : ∀ n e n' e', s.l1s.find? n = some e → s.l1s.find? n' = some e' → e.l2Hdl = e'.l2Hdl → n = n'
  list : ∀ g m, s.mgids.find? g = some m → m.l1List.Nodup ∧
    ∀ n, n ∈ m.l1List ↔ n ∈ members c g
  held : ∀ n ∈ c.nodes, ∀ g, (c.node n).grp = some g → (c.node n).held = some g ∧ g ∈ c.groups
  lag : ∀ i, LagRep (s.lags.find? i) (c.lag i)

theorem mem_members (c : Conf) (g n : Nat) :
    n ∈ members c g ↔ n ∈ c.nodes ∧ (c.node n).grp = some g := by simp [members]

theorem rep_init (a b d : Nat) : Rep { mgidTableSize := a, l1MaxEntries := b, l2MaxEntries := d } {} where
  groups := rfl
  h1 := HandleMgr.Rep.empty
  h2 := HandleMgr.Rep.empty
  nodes := rfl
  card := rfl
  node := by simp
  inj := by simp
  list := by simp
  held := by simp
  lag := by simp [LagRep]

theorem Rep.noGroup {s c} (h : Rep s c) {g : Nat} (hg : g ∉ c.groups) : members c g = ∅ := by
  ext n
  simp only [mem_members, Finset.notMem_empty, iff_false]
  rintro ⟨h1, h2⟩
  exact hg (h.held n h1 g h2).2

/-! ## Replication -/

theorem nodeLoop_count {s c} (h : Rep s c) (ls : List Nat) (hls : ∀ n ∈ ls, n ∈ c.nodes)
    (out : List Out) :
    ∃ l, nodeLoop s ls out = some l ∧ ∀ o, l.count o = out.count o +
      (ls.filter fun n => (c.node n).rid = o.1 ∧ o.2 ∈ (c.node n).ports).length := by
  induction ls generalizing out with
  | nil => exact ⟨out, rfl, fun o => by simp⟩
  | cons n ls ih =>
    obtain ⟨e, e2, r⟩ := h.node n (hls n (by simp))
    obtain ⟨l, hl, hc⟩ := ih (fun m hm => hls m (by simp [hm]))
      (portLoop e.rid e2.portMap (List.range 512) out)
    refine ⟨l, by simp [nodeLoop, r.l1, r.l2, hl], fun o => ?_⟩
    rw [hc o, portLoop_eq, List.count_append, count_ports, r.rid, r.ports, List.filter_cons]
    by_cases hp : (c.node n).rid = o.1 ∧ o.2 ∈ (c.node n).ports
    · simp [hp]; omega
    · simp [hp]

theorem filter_card {c : Conf} {g : Nat} {ls : List Nat} (hnd : ls.Nodup)
    (hm : ∀ n, n ∈ ls ↔ n ∈ members c g) (p : Nat → Prop) [DecidablePred p] :
    (ls.filter fun n => p n).length = ((members c g).filter p).card := by
  rw [← List.toFinset_card_of_nodup (hnd.filter _)]
  congr 1
  ext n
  simp [hm]

theorem Rep.replicate {s c} (h : Rep s c) (g : Nat) :
    ∃ l, replicate s g = some l ∧ Copies c g l := by
  unfold Pre.replicate
  cases hm : s.mgids.find? g with
  | none =>
    refine ⟨[], rfl, fun o => ?_⟩
    have : g ∉ c.groups := by rw [← h.groups]; exact (UMap.find_none _ _).1 hm
    simp [askPort, h.noGroup this]
  | some m =>
    obtain ⟨hnd, hmem⟩ := h.list g m hm
    obtain ⟨l, hl, hc⟩ := nodeLoop_count h m.l1List
      (fun n hn => ((mem_members _ _ _).1 ((hmem n).1 hn)).1) []
    refine ⟨l, hl, fun o => ?_⟩
    rw [hc o, List.count_nil, Nat.zero_add, filter_card hnd hmem]
    rfl

/-- Port chosen for each LAG in a state. -/
def choiceOf (s : State) (i : Nat) : Nat :=
  match s.lags.find? i with
  | none => 0
  | some e => lagChoice e.portMap

theorem choiceOf_mem {s c} (h : Rep s c) (i : Nat) (hi : (c.lag i).Nonempty) :
    choiceOf s i ∈ c.lag i := by
  have := h.lag i
  unfold choiceOf
  cases hf : s.lags.find? i with
  | none =>
    rw [hf] at this
    simp only [LagRep] at this
    rw [this] at hi
    exact absurd hi (by simp)
  | some e =>
    rw [hf] at this
    simp only [LagRep] at this
    rw [← this.1]
    refine (pick_choice 0 e.portMap [] ?_).1
    rw [countMembers_card, this.1]
    exact (Finset.card_pos.2 hi).ne'

theorem lagLoop_count {s c} (h : Rep s c) (rid : Nat) (lm : PortSet) (is : List Nat)
    (out : List Out) (o : Out) :
    (lagLoop s rid lm is out).count o = out.count o +
      (is.filter fun i => i ∈ den lm ∧ (c.lag i).Nonempty ∧ rid = o.1 ∧ choiceOf s i = o.2).length := by
  induction is generalizing out with
  | nil => simp [lagLoop]
  | cons i is ih =>
    rw [lagLoop, ih, List.filter_cons]
    by_cases hb : lm.getLsbD i = true
    · have hd : i ∈ den lm := (mem_den _ _).2 hb
      have hr := h.lag i
      simp only [hb, if_true]
      cases hf : s.lags.find? i with
      | none =>
        rw [hf] at hr
        simp only [LagRep] at hr
        simp [hr]
      | some e =>
        rw [hf] at hr
        simp only [LagRep] at hr
        by_cases h0 : e.memberCount = 0
        · have : c.lag i = ∅ := by
            rw [← hr.1, ← Finset.card_eq_zero, ← countMembers_card, ← hr.2, h0]
          simp [h0, this]
        · have hne : (c.lag i).Nonempty := by
            rw [← hr.1, ← Finset.card_pos, ← countMembers_card, ← hr.2]; omega
          have hp := (pick_choice rid e.portMap out (by rw [← hr.2]; exact h0)).2
          have hch : choiceOf s i = lagChoice e.portMap := by simp [choiceOf, hf]
          simp only [h0, if_false]
          rw [hr.2, hp, List.count_append, List.count_singleton]
          clear hp
          revert hch
          generalize lagChoice e.portMap = k
          intro hch
          by_cases ho : rid = o.1 ∧ k = o.2
          · obtain ⟨ho1, ho2⟩ := ho
            have : ((rid, k) == o) = true := by
              simp [ho1, ho2]
            rw [if_pos this, if_pos (by simp [hd, hne, ho1, hch, ho2])]
            simp only [List.length_cons]
            omega
          · have : ((rid, k) == o) = false := by
              rw [beq_eq_false_iff_ne]
              intro hh; apply ho; subst hh; exact ⟨rfl, rfl⟩
            rw [if_neg (by simp [this]), if_neg (by
              simp only [hd, hne, hch, true_and, decide_eq_true_eq]; exact ho)]
            omega
    · have hd : i ∉ den lm := fun hh => hb ((mem_den _ _).1 hh)
      simp [hb, hd]

theorem range_filter_card (n : Nat) (p : Nat → Prop) [DecidablePred p] :
    ((List.range n).filter fun i => p i).length = ((Finset.range n).filter p).card := by
  rw [← List.toFinset_card_of_nodup (List.nodup_range.filter _)]
  congr 1
  ext n
  simp

theorem nodeLoopLag_count {s c} (h : Rep s c) (ls : List Nat) (hls : ∀ n ∈ ls, n ∈ c.nodes)
    (out : List Out) :
    ∃ l, nodeLoopLag s ls out = some l ∧ ∀ o, l.count o = out.count o +
      (ls.filter fun n => (c.node n).rid = o.1 ∧ o.2 ∈ (c.node n).ports).length +
      (ls.map fun n => ((Finset.range 512).filter fun i => i ∈ (c.node n).lags ∧
        (c.lag i).Nonempty ∧ (c.node n).rid = o.1 ∧ choiceOf s i = o.2).card).sum := by
  induction ls generalizing out with
  | nil => exact ⟨out, rfl, fun o => by simp⟩
  | cons n ls ih =>
    obtain ⟨e, e2, r⟩ := h.node n (hls n (by simp))
    obtain ⟨l, hl, hc⟩ := ih (fun m hm => hls m (by simp [hm]))
      (lagLoop s e.rid e2.lagMap (List.range 512)
        (portLoop e.rid e2.portMap (List.range 512) out))
    refine ⟨l, by simp [nodeLoopLag, r.l1, r.l2, hl], fun o => ?_⟩
    rw [hc o, lagLoop_count h, portLoop_eq, List.count_append, count_ports, r.rid, r.ports, r.lags,
      List.filter_cons, List.map_cons, List.sum_cons, range_filter_card]
    by_cases hp : (c.node n).rid = o.1 ∧ o.2 ∈ (c.node n).ports
    · simp only [hp, and_self, decide_true, if_true, List.length_cons]; omega
    · simp only [hp, decide_false, Bool.false_eq_true, if_false]; omega

theorem sum_card {k : Nat} {S : Finset Nat} {ls : List Nat} (hnd : ls.Nodup)
    (hm : ∀ n, n ∈ ls ↔ n ∈ S) (q : Nat → Nat → Prop) [∀ a b, Decidable (q a b)] :
    (ls.map fun n => ((Finset.range k).filter fun i => q n i).card).sum
      = ((S ×ˢ Finset.range k).filter fun x => q x.1 x.2).card := by
  induction ls generalizing S with
  | nil =>
    have : S = ∅ := by ext n; simp [← hm]
    simp [this]
  | cons a ls ih =>
    have ha : a ∈ S := (hm a).1 (by simp)
    rw [List.nodup_cons] at hnd
    have := ih (S := S.erase a) hnd.2 (by
      intro n
      rw [Finset.mem_erase, ← hm, List.mem_cons]
      constructor
      · intro hn
        exact ⟨fun hh => hnd.1 (hh ▸ hn), Or.inr hn⟩
      · rintro ⟨h1, h2 | h2⟩
        · exact absurd h2 h1
        · exact h2)
    rw [List.map_cons, List.sum_cons, this]
    have hsplit : ((S ×ˢ Finset.range k).filter fun x => q x.1 x.2)
        = (((Finset.range k).filter fun i => q a i).map ⟨fun i => (a, i), fun x y hxy => (Prod.mk.inj hxy).2⟩)
          ∪ ((S.erase a ×ˢ Finset.range k).filter fun x => q x.1 x.2) := by
      ext ⟨x, i⟩
      rw [Finset.mem_union, Finset.mem_map]
      simp only [Finset.mem_filter, Finset.mem_product, Finset.mem_erase]
      constructor
      · rintro ⟨⟨h1, h2⟩, h3⟩
        by_cases hx : x = a
        · subst hx; exact Or.inl ⟨i, ⟨h2, h3⟩, rfl⟩
        · exact Or.inr ⟨⟨⟨hx, h1⟩, h2⟩, h3⟩
      · rintro (⟨j, ⟨h2, h3⟩, he⟩ | ⟨⟨⟨h0, h1⟩, h2⟩, h3⟩)
        · obtain ⟨rfl, rfl⟩ := Prod.mk.inj he
          exact ⟨⟨ha, h2⟩, h3⟩
        · exact ⟨⟨h1, h2⟩, h3⟩
    rw [hsplit, Finset.card_union_of_disjoint, Finset.card_map]
    rw [Finset.disjoint_left]
    rintro ⟨x, i⟩ h1 h2
    obtain ⟨j, _, he⟩ := Finset.mem_map.1 h1
    obtain ⟨rfl, rfl⟩ := Prod.mk.inj he
    simp at h2

theorem Rep.replicateLag {s c} (h : Rep s c) (g : Nat) :
    ∃ l, replicateLag s g = some l ∧ CopiesLag c g l := by
  unfold Pre.replicateLag
  cases hm : s.mgids.find? g with
  | none =>
    refine ⟨[], rfl, choiceOf s, choiceOf_mem h, fun o => ?_⟩
    have : g ∉ c.groups := by rw [← h.groups]; exact (UMap.find_none _ _).1 hm
    simp [askPort, askLag, h.noGroup this]
  | some m =>
    obtain ⟨hnd, hmem⟩ := h.list g m hm
    obtain ⟨l, hl, hc⟩ := nodeLoopLag_count h m.l1List
      (fun n hn => ((mem_members _ _ _).1 ((hmem n).1 hn)).1) []
    refine ⟨l, hl, choiceOf s, choiceOf_mem h, fun o => ?_⟩
    rw [hc o, List.count_nil, Nat.zero_add, filter_card hnd hmem, sum_card hnd hmem
      (fun n i => i ∈ (c.node n).lags ∧
        (c.lag i).Nonempty ∧ (c.node n).rid = o.1 ∧ choiceOf s i = o.2)]
    rfl

end Bm.Pre
