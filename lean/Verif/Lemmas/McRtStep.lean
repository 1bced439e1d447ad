import Verif.Lemmas.McRt

/-!
# Every request does what it stands for
-/

namespace Bm.McRt

open Bm.Pre Bm.Spec.Mc Bm.Spec.McRt

theorem first_le {m : HandleMgr} {S : Finset Nat} (h : m.Rep S) : m.firstUnset ≤ S.card := by
  have : Finset.range m.firstUnset ⊆ S := fun j hj => h.least j (Finset.mem_range.1 hj)
  simpa using Finset.card_le_card this

/-- Invariant of a context. -/
structure Inv (lim : Limits) (p : State) (c : Conf) : Prop where
  rep : Rep p c
  bound : Lim p lim
  held : HeldOk c
  small : ∀ n ∈ c.nodes, n < lim.nodes
  l2 : ∀ n ∈ p.l2s.keys, n < lim.nodes

theorem createWith_small {lim : Limits} {p c} (h : Rep p c) (hl : Lim p lim) {rid mk cd n p'}
    (hs : ∀ n ∈ p.l2s.keys, n < lim.nodes)
    (e : nodeCreateWith p rid mk = some (cd, n, p')) :
    (cd = .success → n < lim.nodes) ∧ ∀ n ∈ p'.l2s.keys, n < lim.nodes := by
  unfold nodeCreateWith at e
  have hs1 : p.l1s.size = c.nodes.card := by rw [UMap.size_eq, h.nodes]
  have hs2 : p.l2s.size = c.nodes.card := by rw [UMap.size_eq, h.card]
  rw [hs1, hs2] at e
  obtain ⟨m1, e1, r1⟩ := h.h1.getHandle
  obtain ⟨m2, e2, r2⟩ := h.h2.getHandle
  have b1 := first_le h.h1
  have b2 := first_le h.h2
  rw [h.card] at b2
  have hlim := hl.2
  simp only [Option.bind_eq_bind, Option.pure_def, e1, e2, Option.bind_some] at e
  split at e
  · simp only [Option.some.injEq, Prod.mk.injEq] at e
    obtain ⟨rfl, rfl, rfl⟩ := e
    exact ⟨fun h => (nomatch h), hs⟩
  · split at e
    · simp only [Option.some.injEq, Prod.mk.injEq] at e
      obtain ⟨rfl, rfl, rfl⟩ := e
      exact ⟨fun h => (nomatch h), hs⟩
    · simp only [Option.some.injEq, Prod.mk.injEq] at e
      obtain ⟨rfl, rfl, rfl⟩ := e
      refine ⟨fun _ => by omega, fun n hn => ?_⟩
      simp only [UMap.keys_insert, Finset.mem_insert] at hn
      rcases hn with rfl | hn
      · omega
      · exact hs n hn

theorem exec_small {lim : Limits} {p c} (h : Rep p c) (hl : Lim p lim)
    (hs : ∀ n ∈ p.l2s.keys, n < lim.nodes) {op r p'} (e : exec p op = some (r, p')) :
    (∀ n, r = .node n → n < lim.nodes) ∧ ∀ n ∈ p'.l2s.keys, n < lim.nodes := by
  cases op with
  | groupCreate g =>
    simp only [exec, mgrpCreate, Option.some.injEq, Prod.mk.injEq] at e
    obtain ⟨rfl, rfl⟩ := e
    constructor
    · intro n; split <;> simp [Code.ret]
    · split <;> exact hs
  | groupDestroy g =>
    simp only [exec, mgrpDestroy, Option.some.injEq, Prod.mk.injEq] at e
    obtain ⟨rfl, rfl⟩ := e
    exact ⟨by simp [Code.ret], hs⟩
  | nodeCreate rid ports lags =>
    have key : ∀ mk, (nodeCreateWith p rid mk).map (fun r => (createRet r.1 r.2.1, r.2.2))
        = some (r, p') → (∀ n, r = .node n → n < lim.nodes) ∧ ∀ n ∈ p'.l2s.keys, n < lim.nodes := by
      intro mk e
      rw [Option.map_eq_some_iff] at e
      obtain ⟨⟨cd, n, p1⟩, e1, e2⟩ := e
      simp only [Prod.mk.injEq] at e2
      obtain ⟨rfl, rfl⟩ := e2
      obtain ⟨h1, h2⟩ := createWith_small h hl hs e1
      refine ⟨fun m hm => ?_, h2⟩
      rcases createWith_code e1 with rfl | rfl
      · simp only [createRet, if_true, Ret.node.injEq] at hm
        subst hm; exact h1 rfl
      · simp [createRet, Code.ret] at hm
    cases lags with
    | none => exact key _ e
    | some l => exact key _ e
  | associate g n =>
    simp only [exec, Option.map_eq_some_iff] at e
    obtain ⟨⟨cd, p1⟩, e1, e2⟩ := e
    simp only [Prod.mk.injEq] at e2
    obtain ⟨rfl, rfl⟩ := e2
    refine ⟨fun m hm => by cases cd <;> simp [Code.ret] at hm, ?_⟩
    unfold nodeAssociate at e1
    simp only [Option.bind_eq_bind, Option.pure_def, Option.bind_eq_some_iff] at e1
    obtain ⟨b, _, e1⟩ := e1
    split at e1
    · simp at e1; obtain ⟨_, rfl⟩ := e1; exact hs
    · split at e1
      · simp at e1; obtain ⟨_, rfl⟩ := e1; exact hs
      · simp only [Option.bind_eq_some_iff] at e1
        obtain ⟨_, _, e1⟩ := e1
        split at e1 <;> simp at e1 <;> obtain ⟨_, rfl⟩ := e1 <;> exact hs
  | dissociate g n =>
    simp only [exec, Option.map_eq_some_iff] at e
    obtain ⟨⟨cd, p1⟩, e1, e2⟩ := e
    simp only [Prod.mk.injEq] at e2
    obtain ⟨rfl, rfl⟩ := e2
    refine ⟨fun m hm => by cases cd <;> simp [Code.ret] at hm, ?_⟩
    unfold nodeDissociate at e1
    simp only [Option.bind_eq_bind, Option.pure_def, Option.bind_eq_some_iff] at e1
    obtain ⟨b, _, e1⟩ := e1
    split at e1
    · simp at e1; obtain ⟨_, rfl⟩ := e1; exact hs
    · split at e1
      · simp at e1; obtain ⟨_, rfl⟩ := e1; exact hs
      · simp only [Option.bind_eq_some_iff] at e1
        obtain ⟨_, _, e1⟩ := e1
        split at e1 <;> simp at e1 <;> obtain ⟨_, rfl⟩ := e1 <;> exact hs
  | nodeDestroy n =>
    simp only [exec, Option.map_eq_some_iff] at e
    obtain ⟨⟨cd, p1⟩, e1, e2⟩ := e
    simp only [Prod.mk.injEq] at e2
    obtain ⟨rfl, rfl⟩ := e2
    refine ⟨fun m hm => by cases cd <;> simp [Code.ret] at hm, ?_⟩
    unfold nodeDestroy at e1
    simp only [Option.bind_eq_bind, Option.pure_def, Option.bind_eq_some_iff] at e1
    obtain ⟨b, _, e1⟩ := e1
    split at e1
    · simp at e1; obtain ⟨_, rfl⟩ := e1; exact hs
    · simp only [Option.bind_eq_some_iff] at e1
      obtain ⟨_, _, _, _, _, _, e1⟩ := e1
      split at e1
      · simp at e1
      · simp only [Option.bind_eq_some_iff] at e1
        obtain ⟨_, _, e1⟩ := e1
        split at e1
        · simp at e1
        · simp only [Option.bind_some, Option.some.injEq, Prod.mk.injEq] at e1
          obtain ⟨_, rfl⟩ := e1
          intro m hm
          simp only [UMap.keys_erase, Finset.mem_erase] at hm
          exact hs m hm.2
  | nodeUpdate n ports lags =>
    have key : ∀ f, (nodeUpdateWith p n f).map (fun r => (r.1.ret, r.2))
        = some (r, p') → (∀ n, r = .node n → n < lim.nodes) ∧ ∀ n ∈ p'.l2s.keys, n < lim.nodes := by
      intro f e
      rw [Option.map_eq_some_iff] at e
      obtain ⟨⟨cd, p1⟩, e1, e2⟩ := e
      simp only [Prod.mk.injEq] at e2
      obtain ⟨rfl, rfl⟩ := e2
      refine ⟨fun m hm => by cases cd <;> simp [Code.ret] at hm, ?_⟩
      unfold nodeUpdateWith at e1
      simp only [Option.bind_eq_bind, Option.pure_def, Option.bind_eq_some_iff] at e1
      obtain ⟨b, _, e1⟩ := e1
      split at e1
      · simp at e1; obtain ⟨_, rfl⟩ := e1; exact hs
      · simp only [Option.bind_eq_some_iff] at e1
        obtain ⟨_, _, _, _, e1⟩ := e1
        simp only [Option.some.injEq, Prod.mk.injEq] at e1
        obtain ⟨_, rfl⟩ := e1
        simpa only [UMap.keys_modify] using hs
    cases lags with
    | none => exact key _ e
    | some l => exact key _ e
  | setLag i ports =>
    simp only [exec, setLagMembership, Option.some.injEq, Prod.mk.injEq] at e
    obtain ⟨rfl, rfl⟩ := e
    constructor
    · intro n; split <;> simp [Code.ret, Code.retLag]
    · split <;> exact hs
  | reset b =>
    cases b <;>
    · simp only [exec, Option.some.injEq, Prod.mk.injEq] at e
      obtain ⟨rfl, rfl⟩ := e
      exact ⟨by simp, by simp [resetState, resetStateLag]⟩
  | replicate g =>
    simp only [exec, Option.map_eq_some_iff, Prod.mk.injEq] at e
    obtain ⟨_, _, rfl, rfl⟩ := e
    exact ⟨by simp, hs⟩
  | replicateLag g =>
    simp only [exec, Option.map_eq_some_iff, Prod.mk.injEq] at e
    obtain ⟨_, _, rfl, rfl⟩ := e
    exact ⟨by simp, hs⟩

theorem effect_small {lim : Limits} {c : Conf} (hs : ∀ n ∈ c.nodes, n < lim.nodes)
    (op : Op (Finset Nat)) (r : Ret) (hr : ∀ n, r = .node n → n < lim.nodes) :
    ∀ n ∈ (effect c op r).nodes, n < lim.nodes := by
  intro n hn
  cases op with
  | nodeCreate rid p l =>
    cases r <;> try exact hs n hn
    simp only [effect, Finset.mem_insert] at hn
    rcases hn with rfl | hn
    · exact hr _ rfl
    · exact hs n hn
  | nodeDestroy k =>
    cases r <;> try exact hs n hn
    simp only [effect, Finset.mem_erase] at hn
    exact hs n hn.2
  | reset b => cases b <;> cases r <;> first | exact hs n hn | simp [effect] at hn
  | _ => cases r <;> exact hs n hn

/-- Without dangling associations the results are the allowed ones, and nothing is thrown. -/
theorem exec_ok {lim : Limits} {p c} (i : Inv lim p c) (op : Op PortSet)
    (hd : ¬ DestroysUsed c (op.map den)) :
    ∃ r p', exec p op = some (r, p') ∧ Inv lim p' (effect c (op.map den) r) ∧
      Allowed lim c (op.map den) r ∧ ∀ n, r = .node n → n < lim.nodes := by
  have hno : ¬ Throws c (op.map den) := by
    intro ht
    cases op <;> simp only [Throws, Op.map] at ht
    obtain ⟨h1, g, h2, h3⟩ := ht
    rw [i.held _ h1] at h2
    exact h3 (i.rep.held _ h1 g h2).2
  obtain ⟨r, p', he, hrep, hl, hres⟩ := (step i.rep i.bound op).2 hno
  obtain ⟨s1, s2⟩ := exec_small i.rep i.bound i.l2 he
  refine ⟨r, p', he, ⟨hrep, hl, heldOk_effect r i.held hd, effect_small i.small _ r s1, s2⟩, ?_, s1⟩
  cases op <;> try exact hres
  · simp only [Result, Allowed, Op.map] at hres ⊢
    rw [hres]
    rename_i g n
    by_cases hn : n ∈ c.nodes
    · simp [i.held n hn]
    · simp [hn]
  · simp only [Result, Allowed, Op.map] at hres ⊢
    rw [hres]
    rename_i g n
    by_cases hn : n ∈ c.nodes
    · simp [i.held n hn]
    · simp [hn]

/-- A request that stands for a call is carried out as that call. -/
def Served (lim : Limits) (p : State) (c : Conf) (req : Req) (op : Op (Finset Nat)) : Prop :=
  ∃ ret p', serve p req = some (wire req ret, p') ∧ reads op (wire req ret) = some ret ∧
    Allowed lim c op ret ∧ Inv lim p' (effect c op ret)

theorem served_of {lim : Limits} {p c} (i : Inv lim p c) (hn : lim.nodes ≤ 2 ^ 31) {req : Req}
    {op : Op PortSet} (ho : opOf req = some op) (hm : meaning req = some (op.map den))
    (hd : ¬ DestroysUsed c (op.map den)) : Served lim p c req (op.map den) := by
  obtain ⟨r, p', he, hi, ha, hs⟩ := exec_ok i op hd
  refine ⟨r, p', by rw [serve_eq, ho]; simp [he], ?_, ha, hi⟩
  cases req with
  | mgrpCreate g =>
    simp only [opOf, Option.some.injEq] at ho; subst ho
    simp only [Op.map, Allowed] at ha ⊢
    split at ha <;> subst ha <;> simp [wire, reads, toU32_ident]
  | mgrpDestroy g =>
    simp only [opOf, Option.some.injEq] at ho; subst ho
    simp only [Op.map, Allowed] at ha ⊢
    subst ha; rfl
  | nodeCreate rid ports lags =>
    have : ∃ a b d, op.map den = .nodeCreate a b d := by
      cases lags <;> simp only [meaning] at hm
      · rw [Option.map_eq_some_iff] at hm
        obtain ⟨_, _, h⟩ := hm
        exact ⟨_, _, _, h.symm⟩
      · split at hm
        · simp only [Option.some.injEq] at hm
          exact ⟨_, _, _, hm.symm⟩
        · cases hm
    obtain ⟨a, b, d, e⟩ := this
    rw [e] at ha ⊢
    simp only [Allowed] at ha
    split at ha
    · subst ha; rfl
    · obtain ⟨n, rfl, _⟩ := ha
      obtain ⟨h1, h2⟩ := ident_ofU64 n (by have := hs n rfl; omega)
      simp [wire, reads, h1, h2]
  | associate g n =>
    simp only [opOf, Option.some.injEq] at ho; subst ho
    simp only [Op.map, Allowed] at ha ⊢
    split at ha
    · subst ha; rfl
    · split at ha
      · subst ha; rfl
      · split at ha <;> subst ha <;> rfl
  | dissociate g n =>
    simp only [opOf, Option.some.injEq] at ho; subst ho
    simp only [Op.map, Allowed] at ha ⊢
    split at ha
    · subst ha; rfl
    · split at ha
      · subst ha; rfl
      · split at ha <;> subst ha <;> rfl
  | nodeDestroy n =>
    simp only [opOf, Option.some.injEq] at ho; subst ho
    simp only [Op.map, Allowed] at ha ⊢
    split at ha <;> subst ha <;> rfl
  | nodeUpdate n ports lags =>
    have : ∃ a b d, op.map den = .nodeUpdate a b d := by
      cases lags <;> simp only [meaning] at hm
      · rw [Option.map_eq_some_iff] at hm
        obtain ⟨_, _, h⟩ := hm
        exact ⟨_, _, _, h.symm⟩
      · split at hm
        · simp only [Option.some.injEq] at hm
          exact ⟨_, _, _, hm.symm⟩
        · cases hm
    obtain ⟨a, b, d, e⟩ := this
    rw [e] at ha ⊢
    simp only [Allowed] at ha
    split at ha <;> subst ha <;> rfl
  | setLag j ports =>
    have : ∃ a b, op.map den = .setLag a b := by
      simp only [meaning] at hm
      rw [Option.map_eq_some_iff] at hm
      obtain ⟨_, _, h⟩ := hm
      exact ⟨_, _, h.symm⟩
    obtain ⟨a, b, e⟩ := this
    rw [e] at ha ⊢
    simp only [Allowed] at ha
    split at ha <;> subst ha <;> rfl
  | packet g =>
    simp only [opOf, Option.some.injEq] at ho; subst ho
    simp only [Op.map, Allowed] at ha ⊢
    obtain ⟨l, rfl, _⟩ := ha
    rfl

/-- A request about a node with a negative number is refused. -/
theorem served_neg {lim : Limits} {p c} (i : Inv lim p c) {req : Req} {op : Op (Finset Nat)}
    {op' : Op PortSet} (ho : opOf req = some op')
    (hd : ¬ DestroysUsed c (op'.map den))
    (hx : ∀ r, Allowed lim c (op'.map den) r → r = .err .badNode)
    (ha : Allowed lim c op (.err .badNode)) (he : effect c op (.err .badNode) = c)
    (he' : effect c (op'.map den) (.err .badNode) = c)
    (hr : reads op (.fail 4) = some (.err .badNode)) (hw : wire req (.err .badNode) = .fail 4) :
    Served lim p c req op := by
  obtain ⟨r, p', h1, h2, h3, _⟩ := exec_ok i op' hd
  obtain rfl := hx r h3
  rw [he'] at h2
  refine ⟨.err .badNode, p', by rw [serve_eq, ho]; simp [h1], by rw [hw]; exact hr, ha, ?_⟩
  rw [he]; exact h2

theorem serve_ok {lim : Limits} {p c} (i : Inv lim p c) (hn : lim.nodes ≤ 2 ^ 31) (req : Req)
    (hm : Modest req) :
    match meaning req with
    | none => serve p req = none
    | some op => ¬ DestroysUsed c op → Served lim p c req op := by
  have big : ∀ n : Int32, ¬ 0 ≤ n.toInt → toU64 n ∉ c.nodes ∧ ident n ∉ c.nodes := by
    intro n h
    have h1 := toU64_neg n h
    have h2 := ident_neg n h
    exact ⟨fun hc => by have := i.small _ hc; omega, fun hc => by have := i.small _ hc; omega⟩
  cases req with
  | mgrpCreate g =>
    intro hd
    exact served_of i hn (req := .mgrpCreate g) (op := .groupCreate (ident g)) rfl rfl hd
  | mgrpDestroy g =>
    intro hd
    exact served_of i hn (req := .mgrpDestroy g) (op := .groupDestroy (ident g))
      (by rw [← toU64_nonneg g hm]; rfl) rfl hd
  | nodeCreate rid ports lags =>
    obtain ⟨h1, h2⟩ := hm
    cases lags with
    | none =>
      simp only [meaning, portsOf_eq ports h1]
      cases hp : setOf ports with
      | none => simp [serve, hp]
      | some pm =>
        intro hd
        exact served_of i hn (op := .nodeCreate (toU32 rid) pm none) (by simp [opOf, hp])
          (by simp [meaning, portsOf_eq ports h1, hp, Op.map, toU32_ident]) hd
    | some lags =>
      have h2 := h2 lags rfl
      simp only [meaning, portsOf_eq ports h1, portsOf_eq lags h2]
      cases hp : setOf ports with
      | none => simp [serve, hp]
      | some pm =>
        cases hl : setOf lags with
        | none => simp [serve, hp, hl]
        | some lm =>
          intro hd
          exact served_of i hn (op := .nodeCreate (toU32 rid) pm (some lm)) (by simp [opOf, hp, hl])
            (by simp [meaning, portsOf_eq ports h1, portsOf_eq lags h2, hp, hl, Op.map, toU32_ident])
            hd
  | associate g n =>
    intro hd
    by_cases hneg : 0 ≤ n.toInt
    · exact served_of i hn (req := .associate g n) (op := .associate (ident g) (ident n))
        (by rw [← toU64_nonneg g hm, ← toU64_nonneg n hneg]; rfl) rfl hd
    · obtain ⟨b1, b2⟩ := big n hneg
      exact served_neg i (op' := .associate (toU64 g) (toU64 n)) rfl (by simp [DestroysUsed, Op.map])
        (by simp [Allowed, Op.map, b1]) (by simp [Allowed, b2]) rfl rfl rfl rfl
  | dissociate g n =>
    intro hd
    by_cases hneg : 0 ≤ n.toInt
    · exact served_of i hn (req := .dissociate g n) (op := .dissociate (ident g) (ident n))
        (by rw [← toU64_nonneg g hm, ← toU64_nonneg n hneg]; rfl) rfl hd
    · obtain ⟨b1, b2⟩ := big n hneg
      exact served_neg i (op' := .dissociate (toU64 g) (toU64 n)) rfl (by simp [DestroysUsed, Op.map])
        (by simp [Allowed, Op.map, b1]) (by simp [Allowed, b2]) rfl rfl rfl rfl
  | nodeDestroy n =>
    intro hd
    by_cases hneg : 0 ≤ n.toInt
    · exact served_of i hn (req := .nodeDestroy n) (op := .nodeDestroy (ident n))
        (by rw [← toU64_nonneg n hneg]; rfl) rfl hd
    · obtain ⟨b1, b2⟩ := big n hneg
      exact served_neg i (op' := .nodeDestroy (toU64 n)) rfl (by simp [DestroysUsed, Op.map])
        (by simp [Allowed, Op.map, b1]) (by simp [Allowed, b2]) rfl rfl rfl rfl
  | nodeUpdate n ports lags =>
    obtain ⟨h1, h2⟩ := hm
    cases lags with
    | none =>
      simp only [meaning, portsOf_eq ports h1]
      cases hp : setOf ports with
      | none => simp [serve, hp]
      | some pm =>
        intro hd
        by_cases hneg : 0 ≤ n.toInt
        · have := served_of i hn (req := .nodeUpdate n ports none) (op := .nodeUpdate (ident n) pm none)
            (by rw [← toU64_nonneg n hneg]; simp [opOf, hp])
            (by simp [meaning, portsOf_eq ports h1, hp, Op.map]) hd
          exact this
        · obtain ⟨b1, b2⟩ := big n hneg
          exact served_neg i (op' := .nodeUpdate (toU64 n) pm none) (by simp [opOf, hp])
            (by simp [DestroysUsed, Op.map])
            (by simp [Allowed, Op.map, b1]) (by simp [Allowed, b2]) rfl rfl rfl rfl
    | some lags =>
      have h2 := h2 lags rfl
      simp only [meaning, portsOf_eq ports h1, portsOf_eq lags h2]
      cases hp : setOf ports with
      | none => simp [serve, hp]
      | some pm =>
        cases hl : setOf lags with
        | none => simp [serve, hp, hl]
        | some lm =>
          intro hd
          by_cases hneg : 0 ≤ n.toInt
          · exact served_of i hn (op := .nodeUpdate (ident n) pm (some lm))
              (by rw [← toU64_nonneg n hneg]; simp [opOf, hp, hl])
              (by simp [meaning, portsOf_eq ports h1, portsOf_eq lags h2, hp, hl, Op.map]) hd
          · obtain ⟨b1, b2⟩ := big n hneg
            exact served_neg i (op' := .nodeUpdate (toU64 n) pm (some lm)) (by simp [opOf, hp, hl])
              (by simp [DestroysUsed, Op.map])
              (by simp [Allowed, Op.map, b1]) (by simp [Allowed, b2]) rfl rfl rfl rfl
  | setLag j ports =>
    simp only [meaning, portsOf_eq ports hm]
    cases hp : setOf ports with
    | none => simp [serve, hp]
    | some pm =>
      intro hd
      exact served_of i hn (op := .setLag (toU16 j) pm) (by simp [opOf, hp])
        (by simp only [meaning, portsOf_eq ports hm, hp, Option.map_some, Op.map]; rfl) hd
  | packet g =>
    intro hd
    exact served_of i hn (req := .packet g) (op := .replicateLag g.toNat) rfl rfl hd

/-! ## Contexts -/

/-- Invariant of the server. -/
def Good (lim : Limits) (s : List State) (cs : List Conf) : Prop :=
  s.length = cs.length ∧ ∀ (k : Nat) p c, s[k]? = some p → cs[k]? = some c → Inv lim p c

theorem context_none {s : List State} {cs : List Conf} (hl : s.length = cs.length)
    (hk : s.length ≤ 2 ^ 31) {x : Int32} (h : context cs x = none) : s[toU64 x]? = none := by
  unfold context at h
  by_cases hx : 0 ≤ x.toInt
  · rw [if_pos hx, (toNat_nonneg x hx).2] at h
    rw [toU64_nonneg x hx, List.getElem?_eq_none_iff, hl]
    exact List.getElem?_eq_none_iff.1 h
  · rw [List.getElem?_eq_none_iff]
    have := toU64_neg x hx
    omega

theorem context_some {s : List State} {cs : List Conf} (hl : s.length = cs.length)
    {x : Int32} {c : Conf} (h : context cs x = some c) :
    toU64 x = x.toInt.toNat ∧ cs[x.toInt.toNat]? = some c ∧ ∃ p, s[toU64 x]? = some p := by
  unfold context at h
  by_cases hx : 0 ≤ x.toInt
  · rw [if_pos hx] at h
    have e : toU64 x = x.toInt.toNat := by rw [toU64_nonneg x hx, (toNat_nonneg x hx).2]; rfl
    refine ⟨e, h, ?_⟩
    rw [e]
    have := (List.getElem?_eq_some_iff.1 h).1
    exact ⟨s[x.toInt.toNat], List.getElem?_eq_getElem (by omega)⟩
  · rw [if_neg hx] at h; cases h

theorem call_ok {lim : Limits} {s cs} (hg : Good lim s cs) (hn : lim.nodes ≤ 2 ^ 31)
    (hk : s.length ≤ 2 ^ 31) (c : Call) (hm : Modest c.req) (hc : Careful cs c) :
    Right lim cs c (call s c).1 ∧ Good lim (call s c).2 (next cs c (call s c).1) := by
  unfold Right next Careful at *
  cases hx : context cs c.cxt with
  | none =>
    have := context_none hg.1 hk hx
    simp only [call, this]
    exact ⟨trivial, hg⟩
  | some conf =>
    obtain ⟨e1, e2, p, e3⟩ := context_some hg.1 hx
    have hi := hg.2 _ p conf e3 (by rw [e1]; exact e2)
    have hs := serve_ok hi hn c.req hm
    simp only [hx] at hc
    cases hmean : meaning c.req with
    | none =>
      rw [hmean] at hs
      simp only [call, e3, hs]
      exact ⟨trivial, hg⟩
    | some op =>
      rw [hmean] at hs hc
      obtain ⟨ret, p', h1, h2, h3, h4⟩ := hs hc
      simp only [call, e3, h1, h2]
      refine ⟨⟨ret, rfl, h3⟩, by simp [hg.1], ?_⟩
      intro k q d hq hd
      rw [e1] at hq
      rw [List.getElem?_set] at hq hd
      by_cases hke : c.cxt.toInt.toNat = k
      · simp only [hke, if_true] at hq hd
        split at hq <;> split at hd <;> simp at hq hd
        subst hq hd
        exact h4
      · simp only [hke, if_false] at hq hd
        exact hg.2 k q d hq hd

theorem call_length (s : List State) (c : Call) : (call s c).2.length = s.length := by
  unfold call
  split
  · rfl
  · split
    · rfl
    · simp

/-- The configurations after a history. -/
def afterAll (cs : List Conf) : List (Call × Reply) → List Conf
  | [] => cs
  | (c, r) :: t => afterAll (next cs c r) t

theorem run_ok {lim : Limits} (hn : lim.nodes ≤ 2 ^ 31) (calls : List Call) (s cs)
    (hg : Good lim s cs) (hk : s.length ≤ 2 ^ 31) (hf : Fits cs (run s calls).1) :
    Obeys lim cs (run s calls).1 ∧ Good lim (run s calls).2 (afterAll cs (run s calls).1) := by
  induction calls generalizing s cs with
  | nil => exact ⟨trivial, hg⟩
  | cons c calls ih =>
    simp only [run, Fits, Obeys, afterAll] at hf ⊢
    obtain ⟨h1, h2, h3⟩ := hf
    obtain ⟨a, b⟩ := call_ok hg hn hk c h1 h2
    obtain ⟨d, e⟩ := ih _ _ b (by rw [call_length]; exact hk) h3
    exact ⟨⟨a, d⟩, e⟩

theorem inv_init (g l1 l2 : Nat) : Inv ⟨g, min l1 l2⟩ (Pre.init g l1 l2) {} :=
  ⟨rep_init g l1 l2, ⟨rfl, rfl⟩, by intro n hn; simp at hn, by simp, by simp [Pre.init]⟩

theorem good_init (k g l1 l2 : Nat) :
    Good ⟨g, min l1 l2⟩ (List.replicate k (Pre.init g l1 l2)) (List.replicate k {}) := by
  refine ⟨by simp, fun j p c hp hc => ?_⟩
  have h1 := List.eq_of_mem_replicate (List.mem_of_getElem? hp)
  have h2 := List.eq_of_mem_replicate (List.mem_of_getElem? hc)
  subst h1 h2
  exact inv_init g l1 l2

end Bm.McRt
