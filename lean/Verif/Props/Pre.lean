import Verif.Lemmas.PreStep

/-!
# C18–C20: multicast replication
-/

namespace Bm.Pre

open Spec.Mc

/-- A fresh engine.  `/repo/include/bm/bm_sim/simple_pre.h:86-92`. -/
def init (groups l1 l2 : Nat) : State :=
  { mgidTableSize := groups, l1MaxEntries := l1, l2MaxEntries := l2 }

/-- The configuration after a history. -/
def after (c : Conf) : List (Op (Finset Nat) × Ret) → Conf
  | [] => c
  | (op, r) :: t => after (effect c op r) t

theorem run_rep {lim : Limits} {s c ops t s'} (h : Rep s c) (hl : Lim s lim)
    (hr : run s ops = some (t, s')) :
    Rep s' (after c t) ∧ Lim s' lim ∧ Delivers c t := by
  induction ops generalizing s c t with
  | nil =>
    simp only [run, Option.some.injEq, Prod.mk.injEq] at hr
    obtain ⟨rfl, rfl⟩ := hr
    exact ⟨h, hl, trivial⟩
  | cons op ops ih =>
    simp only [run, Option.bind_eq_bind, Option.bind_eq_some_iff, Option.pure_def,
      Option.some.injEq] at hr
    obtain ⟨⟨r, s1⟩, he, ⟨t1, s2⟩, hr1, heq⟩ := hr
    obtain ⟨rfl, rfl⟩ := Prod.mk.inj heq
    by_cases ht : Throws c (op.map den)
    · rw [(step h hl op).1 ht] at he; cases he
    · obtain ⟨r', s1', he', hrep, hl', hres⟩ := (step h hl op).2 ht
      rw [he] at he'
      obtain ⟨rfl, rfl⟩ := Prod.mk.inj (Option.some.inj he')
      obtain ⟨a, b, d⟩ := ih hrep hl' hr1
      refine ⟨a, b, ?_, d⟩
      cases op <;> trivial

/-- **C18.** Along every history of calls on a fresh engine (with or without link aggregation) each
replication delivers exactly the copies that the nodes then associated with the group ask for: for
every replication id and port, as many copies as there are such nodes with that id and that port,
nothing else, and nothing for unknown groups; and replication never fails. -/
theorem C18_replicate (groups l1 l2 : Nat) (ops : List (Op PortSet)) {t s}
    (hr : run (init groups l1 l2) ops = some (t, s)) :
    Delivers {} t ∧
    (∀ g, ∃ l, replicate s g = some l ∧ Copies (after {} t) g l ∧
      (g ∉ (after {} t).groups → l = [])) := by
  obtain ⟨h, _, d⟩ := run_rep (lim := ⟨groups, min l1 l2⟩) (rep_init groups l1 l2) ⟨rfl, rfl⟩ hr
  refine ⟨d, fun g => ?_⟩
  obtain ⟨l, h1, h2⟩ := h.replicate g
  refine ⟨l, h1, h2, fun hg => ?_⟩
  have := h.noGroup hg
  refine List.eq_nil_iff_forall_not_mem.2 fun o ho => ?_
  have hc := h2 o
  simp only [askPort, this, Finset.filter_empty, Finset.card_empty] at hc
  have := List.count_pos_iff.2 ho
  omega

/-- **C20.** With link aggregation every replication delivers, besides the copies for the ports, one
copy for each node of the group and each non-empty LAG of that node, on a port which at that time is
a member of the LAG. -/
theorem C20_lag (groups l1 l2 : Nat) (ops : List (Op PortSet)) {t s}
    (hr : run (init groups l1 l2) ops = some (t, s)) :
    Delivers {} t ∧
    (∀ g, ∃ l, replicateLag s g = some l ∧ CopiesLag (after {} t) g l) := by
  obtain ⟨h, _, d⟩ := run_rep (lim := ⟨groups, min l1 l2⟩) (rep_init groups l1 l2) ⟨rfl, rfl⟩ hr
  exact ⟨d, fun g => h.replicateLag g⟩

/-- **C19**, exact failure condition.  In any reachable state a call ends with an exception if and
only if it destroys a node that is still tied to a group which has been destroyed since. -/
theorem C19_crash_iff (groups l1 l2 : Nat) (ops : List (Op PortSet)) {t s}
    (hr : run (init groups l1 l2) ops = some (t, s)) (op : Op PortSet) :
    exec s op = none ↔ ∃ n g, op = .nodeDestroy n ∧ n ∈ (after {} t).nodes ∧
      ((after {} t).node n).held = some g ∧ g ∉ (after {} t).groups := by
  obtain ⟨h, hl, _⟩ := run_rep (lim := ⟨groups, min l1 l2⟩) (rep_init groups l1 l2) ⟨rfl, rfl⟩ hr
  have hs := step h hl op
  constructor
  · intro hn
    by_cases ht : Throws (after {} t) (op.map den)
    · cases op <;> simp only [Throws, Op.map] at ht
      obtain ⟨h1, g, h2, h3⟩ := ht
      exact ⟨_, g, rfl, h1, h2, h3⟩
    · obtain ⟨r, s', he, _⟩ := hs.2 ht
      rw [hn] at he; cases he
  · rintro ⟨n, g, rfl, h1, h2, h3⟩
    exact hs.1 ⟨h1, g, h2, h3⟩

/-- Along a tidy history a node is tied to a group exactly when it belongs to it. -/
def HeldOk (c : Conf) : Prop := ∀ n ∈ c.nodes, (c.node n).held = (c.node n).grp

theorem heldOk_effect {c : Conf} {op : Op (Finset Nat)} (r : Ret) (h : HeldOk c)
    (hd : ¬ DestroysUsed c op) : HeldOk (effect c op r) := by
  intro n hn
  cases op with
  | groupDestroy g =>
    cases r <;> try exact h n hn
    simp only [effect] at hn ⊢
    by_cases hg : (c.node n).grp = some g
    · exact absurd ⟨n, (mem_members _ _ _).2 ⟨hn, hg⟩⟩ hd
    · simp only [hg, if_false]; exact h n hn
  | nodeCreate rid p l =>
    cases r <;> try exact h n hn
    rename_i k
    simp only [effect, upd, Finset.mem_insert] at hn ⊢
    by_cases hk : n = k
    · simp [hk]
    · simp only [hk, if_false]; exact h n (by simpa [hk] using hn)
  | associate g k =>
    cases r <;> try exact h n hn
    simp only [effect, upd] at hn ⊢
    by_cases hk : n = k
    · simp [hk]
    · simp only [hk, if_false]; exact h n hn
  | dissociate g k =>
    cases r <;> try exact h n hn
    simp only [effect, upd] at hn ⊢
    by_cases hk : n = k
    · simp [hk]
    · simp only [hk, if_false]; exact h n hn
  | nodeDestroy k =>
    cases r <;> try exact h n hn
    simp only [effect, upd, Finset.mem_erase] at hn ⊢
    simp only [hn.1, if_false]; exact h n hn.2
  | nodeUpdate k p l =>
    cases r <;> try exact h n hn
    simp only [effect, upd] at hn ⊢
    by_cases hk : n = k
    · subst hk; simp only [if_true]; exact h n hn
    · simp only [hk, if_false]; exact h n hn
  | reset b =>
    cases b <;> cases r <;> first | exact h n hn | simp [effect] at hn
  | _ => cases r <;> exact h n hn

theorem heldOk_after {c t} (h : HeldOk c) (ht : Tidy c t) : HeldOk (after c t) := by
  induction t generalizing c with
  | nil => exact h
  | cons x t ih => exact ih (heldOk_effect x.2 h ht.1) ht.2

theorem tidy_conforms {lim : Limits} {s c ops t s'} (h : Rep s c) (hl : Lim s lim)
    (hh : HeldOk c) (hr : run s ops = some (t, s')) (ht : Tidy c t) : Conforms lim c t := by
  induction ops generalizing s c t with
  | nil =>
    simp only [run, Option.some.injEq, Prod.mk.injEq] at hr
    obtain ⟨rfl, rfl⟩ := hr
    trivial
  | cons op ops ih =>
    simp only [run, Option.bind_eq_bind, Option.bind_eq_some_iff, Option.pure_def,
      Option.some.injEq] at hr
    obtain ⟨⟨r, s1⟩, he, ⟨t1, s2⟩, hr1, heq⟩ := hr
    obtain ⟨rfl, rfl⟩ := Prod.mk.inj heq
    by_cases hx : Throws c (op.map den)
    · rw [(step h hl op).1 hx] at he; cases he
    · obtain ⟨r', s1', he', hrep, hl', hres⟩ := (step h hl op).2 hx
      rw [he] at he'
      obtain ⟨rfl, rfl⟩ := Prod.mk.inj (Option.some.inj he')
      refine ⟨?_, ih hrep hl' (heldOk_effect _ hh ht.1) hr1 ht.2⟩
      cases op <;> first | exact hres | skip
      all_goals
        simp only [Result, Allowed, Op.map] at hres ⊢
        rw [hres]
        split
        · rfl
        · rename_i hn
          rw [hh _ (not_not.1 hn)]

/-- **C19**, partial: as long as no group is destroyed while it still has nodes, all results so far
are the documented ones, and every further call returns with a documented result (and does not
throw).  Missing: histories that destroy a group which still has nodes, for which the claim is false
(`C19_destroy_throws`, `C19_destroyed_group_keeps_nodes`). -/
theorem C19_management_partial (groups l1 l2 : Nat) (ops : List (Op PortSet)) {t s}
    (hr : run (init groups l1 l2) ops = some (t, s)) (ht : Tidy {} t) (op : Op PortSet) :
    Conforms ⟨groups, min l1 l2⟩ {} t ∧
    ∃ r s', exec s op = some (r, s') ∧ Allowed ⟨groups, min l1 l2⟩ (after {} t) (op.map den) r := by
  have hok : HeldOk {} := fun n hn => by simp at hn
  obtain ⟨h, hl, _⟩ := run_rep (lim := ⟨groups, min l1 l2⟩) (rep_init groups l1 l2) ⟨rfl, rfl⟩ hr
  refine ⟨tidy_conforms (rep_init groups l1 l2) ⟨rfl, rfl⟩ hok hr ht, ?_⟩
  have hoka := heldOk_after hok ht
  have hnt : ¬ Throws (after {} t) (op.map den) := by
    cases op <;> simp only [Throws, Op.map, not_false_eq_true]
    rintro ⟨hn, g, hg, hng⟩
    rw [hoka _ hn] at hg
    exact hng (h.held _ hn g hg).2
  obtain ⟨r, s', he, _, _, hres⟩ := (step h hl op).2 hnt
  refine ⟨r, s', he, ?_⟩
  cases op <;> first | exact hres | skip
  all_goals
    simp only [Result, Allowed, Op.map] at hres ⊢
    rw [hres]
    split
    · rfl
    · rename_i hn
      rw [hoka _ (not_not.1 hn)]

/-- The results of a run. -/
def results (s : State) (ops : List (Op PortSet)) : Option (List Ret) :=
  (run s ops).map fun x => x.1.map Prod.snd

/-- **C19** is false: destroying a group that has a node makes the destruction of that node throw. -/
theorem C19_destroy_throws :
    results (init 4 4 4) [.groupCreate 7, .nodeCreate 1 0b110 none, .associate 7 0,
      .groupDestroy 7] = some [.ok, .node 0, .ok, .ok] ∧
    results (init 4 4 4) [.groupCreate 7, .nodeCreate 1 0b110 none, .associate 7 0,
      .groupDestroy 7, .nodeDestroy 0] = none := by decide +kernel

/-- **C19** is false: after the destruction of its group a node cannot be associated with another
group. -/
theorem C19_destroyed_group_keeps_nodes :
    results (init 4 4 4) [.groupCreate 7, .groupCreate 8, .nodeCreate 1 0b110 none, .associate 7 0,
      .groupDestroy 7, .associate 8 0, .replicate 8]
      = some [.ok, .ok, .node 0, .ok, .ok, .err .conflict, .copies []] := by decide +kernel

/-- A case for C18 and `C19_management_partial`: two nodes in one group, one updated. -/
example : results (init 4 4 4) [.groupCreate 7, .nodeCreate 1 0b110 none, .nodeCreate 2 0b100 none,
      .associate 7 0, .associate 7 1, .replicate 7, .nodeUpdate 1 0b1 none, .replicate 7,
      .nodeDestroy 0, .replicate 7, .replicate 8]
      = some [.ok, .node 0, .node 1, .ok, .ok, .copies [(1, 1), (1, 2), (2, 2)], .ok,
        .copies [(1, 1), (1, 2), (2, 0)], .ok, .copies [(2, 0)], .copies []] := by decide +kernel

/-- A case for the hypotheses of `C19_management_partial`: a group is destroyed after its node has
left it. -/
example : ∃ t s, run (init 4 4 4) [.groupCreate 7, .nodeCreate 1 0b110 none, .associate 7 0,
      .dissociate 7 0, .groupDestroy 7] = some (t, s) ∧ Tidy {} t ∧ t.length = 5 := by
  have h : (run (init 4 4 4) [.groupCreate 7, .nodeCreate 1 0b110 none, .associate 7 0,
      .dissociate 7 0, .groupDestroy 7]).map (fun x => x.1)
    = some [(.groupCreate 7, .ok), (.nodeCreate 1 (den 0b110) none, .node 0), (.associate 7 0, .ok),
      (.dissociate 7 0, .ok), (.groupDestroy 7, .ok)] := rfl
  obtain ⟨⟨t, s⟩, h1, h2⟩ := Option.map_eq_some_iff.1 h
  simp only at h2
  refine ⟨t, s, h1, ?_, by rw [h2]; rfl⟩
  rw [h2]
  simp [Tidy, DestroysUsed, effect, upd, members, Finset.not_nonempty_iff_eq_empty]

/-- A case for C20: a LAG with three members, then with none. -/
example : results (init 4 4 4) [.setLag 3 0b1011, .groupCreate 7, .nodeCreate 1 0b110 (some 0b11000),
      .associate 7 0, .replicateLag 7, .setLag 3 0, .replicateLag 7]
      = some [.ok, .ok, .node 0, .ok, .copies [(1, 1), (1, 2), (1, 0)], .ok,
        .copies [(1, 1), (1, 2)]] := by decide +kernel

end Bm.Pre
