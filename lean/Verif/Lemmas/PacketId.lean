import Verif.Spec.PacketId
import Mathlib.Data.List.Basic
import Mathlib.Data.List.Nodup

/-! # Lemmas on the identities of packets -/

namespace Bm.PktId

/-- A live packet that uses counter `k`. -/
def inSlot (k : Nat) (p : Pkt) : Bool := p.phv && decide (p.id % W = k)

/-- The invariant for any interleaving. -/
structure Inv (s : St) : Prop where
  count : ∀ k, s.pkts.countP (inSlot k) ≤ (s.slots k).num + 1
  le : ∀ p ∈ s.pkts, p.phv = true → p.copy ≤ (s.slots (p.id % W)).max
  nodup : s.live.Nodup

/-- The additional invariant without contention: `c` counts clones. -/
structure Exact (c : Nat → Nat) (s : St) : Prop where
  empty : ∀ k, s.pkts.countP (inSlot k) = 0 → (s.slots k).max = 0 ∧ (s.slots k).num = 0
  num : ∀ k, s.pkts.countP (inSlot k) ≠ 0 → s.pkts.countP (inSlot k) = (s.slots k).num + 1
  max : ∀ k, (s.slots k).num ≤ (s.slots k).max
  same : ∀ p ∈ s.pkts, ∀ q ∈ s.pkts, p.phv = true → q.phv = true → p.id % W = q.id % W → p.id = q.id
  le : ∀ p ∈ s.pkts, p.phv = true → (s.slots (p.id % W)).max ≤ c p.id

theorem split_at {l : List Pkt} {i : Nat} {p : Pkt} (h : l[i]? = some p) :
    ∃ a b, l = a ++ p :: b ∧ l.eraseIdx i = a ++ b ∧ (∀ q, l.set i q = a ++ q :: b) ∧ a.length = i := by
  have hlt := (List.getElem?_eq_some_iff.1 h).1
  have hp := (List.getElem?_eq_some_iff.1 h).2
  refine ⟨l.take i, l.drop (i + 1), ?_, ?_, ?_, by simp; omega⟩
  · rw [← hp, ← List.drop_eq_getElem_cons hlt, List.take_append_drop]
  · rw [List.eraseIdx_eq_take_drop_succ]
  · intro q
    rw [List.set_eq_take_append_cons_drop, if_pos hlt]

theorem upd_same (s : St) (id : Nat) (f : Cntr → Cntr) : s.upd id f (id % W) = f (s.slots (id % W)) := by
  simp [St.upd]

theorem upd_ne (s : St) {id k : Nat} (f : Cntr → Cntr) (h : k ≠ id % W) : s.upd id f k = s.slots k := by
  simp [St.upd, h]

theorem mem_live {s : St} {x : Nat × Nat} :
    x ∈ s.live ↔ ∃ p ∈ s.pkts, p.phv = true ∧ (p.id, p.copy) = x := by
  simp [St.live, and_assoc]

theorem free_count {s : St} {id : Nat} (h : s.Free id) : s.pkts.countP (inSlot (id % W)) = 0 := by
  rw [List.countP_eq_zero]
  intro p hp hs
  simp only [inSlot, Bool.and_eq_true, decide_eq_true_eq] at hs
  exact h p hp hs.1 hs.2

theorem live_append (a b : List Pkt) (sl : Nat → Cntr) :
    (St.mk sl (a ++ b)).live = (St.mk sl a).live ++ (St.mk sl b).live := by
  simp [St.live]

theorem moveAssign_spec {s : St} {i j : Nat} {p q : Pkt} (hij : i ≠ j) (hp : s.pkts[i]? = some p)
    (hq : s.pkts[j]? = some q) (hpv : p.phv = false) :
    (∀ f : Pkt → Bool, (∀ r : Pkt, r.phv = false → f r = false) →
      ((s.pkts.set i q).set j { q with phv := p.phv }).countP f = s.pkts.countP f) ∧
    ∀ r ∈ (s.pkts.set i q).set j { q with phv := p.phv }, r.phv = true → r ∈ s.pkts := by
  have hset : (s.pkts.set i q).set j { q with phv := p.phv } =
      (s.pkts.set j { q with phv := false }).set i q := by
    rw [hpv, List.set_comm _ _ hij]
  rw [hset]
  obtain ⟨a, b, h1, _, h3, _⟩ := split_at hq
  have hp' : (s.pkts.set j { q with phv := false })[i]? = some p := by
    rw [List.getElem?_set_ne (Ne.symm hij), hp]
  obtain ⟨a', b', h1', _, h3', _⟩ := split_at hp'
  rw [h3']
  refine ⟨fun f hf0 => ?_, fun r hr hrv => ?_⟩
  · have e1 : (s.pkts.set j { q with phv := false }).countP f = (a' ++ p :: b').countP f := by
      rw [h1']
    rw [h3] at e1
    rw [h1]
    simp only [List.countP_append, List.countP_cons, hf0 p hpv,
      hf0 { q with phv := false } rfl, Bool.false_eq_true, if_false, Nat.add_zero] at e1 ⊢
    omega
  · have hr' : r = q ∨ r ∈ a' ++ p :: b' := by
      simp only [List.mem_append, List.mem_cons] at hr ⊢
      rcases hr with h | h | h
      · exact .inr (.inl h)
      · exact .inl h
      · exact .inr (.inr (.inr h))
    rcases hr' with rfl | hr'
    · exact List.mem_of_getElem? hq
    · rw [← h1', h3] at hr'
      rw [h1]
      simp only [List.mem_append, List.mem_cons] at hr' ⊢
      rcases hr' with h | rfl | h
      · exact .inl h
      · cases hrv
      · exact .inr (.inr h)

theorem exec_inv {quiet : Prop} {s s' : St} {op : Op} (hi : Inv s) (ha : Sound quiet s op)
    (hf : ∀ i p, op = .clone i → s.pkts[i]? = some p → p.phv = true →
      (s.slots (p.id % W)).max < 2 ^ 16 - 1 ∧ (s.slots (p.id % W)).num < 2 ^ 16 - 1)
    (e : s.exec op = some s') : Inv s' := by
  cases op with
  | arrive id =>
    cases e
    refine ⟨fun k => ?_, ?_, ?_⟩
    · simp only [List.countP_append]
      by_cases hk : id % W = k
      · subst hk
        rw [free_count ha]
        have : ([⟨id, 0, true⟩] : List Pkt).countP (inSlot (id % W)) ≤ 1 :=
          List.countP_le_length
        omega
      · have : ([⟨id, 0, true⟩] : List Pkt).countP (inSlot k) = 0 := by simp [inSlot, hk]
        rw [this]
        exact hi.count k
    · intro p hp hv
      rcases List.mem_append.1 hp with hp | hp
      · exact hi.le p hp hv
      · simp at hp; subst hp; exact Nat.zero_le _
    · rw [live_append]
      refine List.nodup_append.2 ⟨hi.nodup, by simp [St.live], ?_⟩
      intro x hx y hy
      obtain ⟨p, hp, hv, rfl⟩ := mem_live.1 hx
      simp [St.live] at hy
      subst hy
      intro h
      have := ha p hp hv
      simp only [Prod.mk.injEq] at h
      rw [h.1] at this
      exact this rfl
  | clone i =>
    simp only [St.exec] at e
    cases hp : s.pkts[i]? with
    | none => rw [hp] at e; cases e
    | some p =>
      rw [hp] at e
      simp only at e
      split at e
      · rename_i hv
        cases e
        obtain ⟨f1, f2⟩ := hf i p rfl hp hv
        have hmem := List.mem_of_getElem? hp
        have hmax : (addOne (s.slots (p.id % W))).max = (s.slots (p.id % W)).max + 1 := by
          simp only [addOne]; omega
        have hnum : (addOne (s.slots (p.id % W))).num = (s.slots (p.id % W)).num + 1 := by
          simp only [addOne]; omega
        refine ⟨fun k => ?_, ?_, ?_⟩
        · simp only [List.countP_append]
          by_cases hk : k = p.id % W
          · subst hk
            rw [upd_same, hnum]
            have := hi.count (p.id % W)
            have : ([⟨p.id, (addOne (s.slots (p.id % W))).max, true⟩] : List Pkt).countP
              (inSlot (p.id % W)) ≤ 1 := List.countP_le_length
            omega
          · rw [upd_ne _ _ hk]
            have : ([⟨p.id, (addOne (s.slots (p.id % W))).max, true⟩] : List Pkt).countP
              (inSlot k) = 0 := by simp [inSlot, Ne.symm hk]
            rw [this]
            exact hi.count k
        · intro q hq hqv
          rcases List.mem_append.1 hq with hq | hq
          · have := hi.le q hq hqv
            by_cases hk : q.id % W = p.id % W
            · simp only
              rw [hk, upd_same, hmax]
              rw [hk] at this
              omega
            · simp only
              rw [upd_ne _ _ hk]
              exact this
          · simp at hq
            subst hq
            simp only [upd_same]
            exact Nat.le_refl _
        · rw [live_append]
          refine List.nodup_append.2 ⟨hi.nodup, by simp [St.live], ?_⟩
          intro x hx y hy
          obtain ⟨q, hq, hqv, rfl⟩ := mem_live.1 hx
          simp [St.live] at hy
          subst hy
          intro h
          simp only [Prod.mk.injEq] at h
          have := hi.le q hq hqv
          rw [h.1, h.2, hmax] at this
          omega
      · cases e
  | destroy i stale =>
    simp only [St.exec] at e
    cases hp : s.pkts[i]? with
    | none => rw [hp] at e; cases e
    | some p =>
      rw [hp] at e
      simp only at e
      cases e
      obtain ⟨a, b, h1, h2, _⟩ := split_at hp
      have hl : s.live = (St.mk s.slots (a ++ [p] ++ b)).live := by
        unfold St.live; rw [h1]; simp
      have hnd : (St.mk s.slots (a ++ b)).live.Nodup := by
        have := hi.nodup
        rw [hl, live_append, live_append] at this
        rw [live_append]
        rw [List.append_assoc] at this
        exact this.sublist (List.Sublist.append_left (List.sublist_append_right _ _) _)
      have hcount : ∀ k, (a ++ b).countP (inSlot k) + [p].countP (inSlot k) =
          s.pkts.countP (inSlot k) := by
        intro k
        rw [h1]
        simp only [List.countP_append, List.countP_cons, List.countP_nil]
        omega
      have hmem : ∀ q ∈ a ++ b, q ∈ s.pkts := by
        intro q hq
        rw [h1]
        rcases List.mem_append.1 hq with h | h <;> simp [h]
      rw [h2]
      cases hv : p.phv with
      | false =>
        simp only [Bool.false_eq_true, if_false]
        refine ⟨fun k => ?_, fun q hq hqv => hi.le q (hmem q hq) hqv, hnd⟩
        have := hi.count k
        have := hcount k
        simp only
        omega
      | true =>
        simp only [if_true]
        have h1k : [p].countP (inSlot (p.id % W)) = 1 := by simp [inSlot, hv]
        refine ⟨fun k => ?_, ?_, hnd⟩
        · have c1 := hi.count k
          have c2 := hcount k
          by_cases hk : k = p.id % W
          · subst hk
            simp only [upd_same, removeOne]
            split
            · simp only; omega
            · simp only; omega
          · simp only [upd_ne _ _ hk]
            omega
        · intro q hq hqv
          have hq' := hi.le q (hmem q hq) hqv
          by_cases hk : q.id % W = p.id % W
          · simp only
            rw [hk, upd_same]
            rw [hk] at hq'
            unfold removeOne
            split
            · exfalso
              have c1 := hi.count (p.id % W)
              have c2 := hcount (p.id % W)
              have : 0 < (a ++ b).countP (inSlot (p.id % W)) :=
                List.countP_pos_iff.2 ⟨q, hq, by simp [inSlot, hqv, hk]⟩
              omega
            · exact hq'
          · simp only
            rw [upd_ne _ _ hk]
            exact hq'
  | moveNew i =>
    simp only [St.exec] at e
    cases hp : s.pkts[i]? with
    | none => rw [hp] at e; cases e
    | some p =>
      rw [hp] at e
      simp only at e
      cases e
      obtain ⟨a, b, h1, _, h3, _⟩ := split_at hp
      rw [h3]
      refine ⟨fun k => ?_, ?_, ?_⟩
      · have := hi.count k
        rw [h1] at this
        simp only [List.countP_append, List.countP_cons, List.countP_nil] at this ⊢
        have h0 : inSlot k { p with phv := false } = false := rfl
        rw [h0]
        simp only [Bool.false_eq_true, if_false]
        omega
      · intro q hq hqv
        have : q ∈ s.pkts := by
          rw [h1]
          simp only [List.mem_append, List.mem_cons, List.not_mem_nil, or_false] at hq ⊢
          rcases hq with (h | rfl | h) | h
          · exact .inl h
          · cases hqv
          · exact .inr (.inr h)
          · exact .inr (.inl h)
        exact hi.le q this hqv
      · have := hi.nodup
        have hl : s.live = (St.mk s.slots (a ++ [p] ++ b)).live := by
          unfold St.live; rw [h1]; simp
        rw [hl, live_append, live_append, List.append_assoc] at this
        have h0 : (St.mk s.slots (a ++ { p with phv := false } :: b ++ [p])).live =
            (St.mk s.slots a).live ++ ((St.mk s.slots b).live ++ (St.mk s.slots [p]).live) := by
          simp [St.live]
        rw [h0]
        rw [List.nodup_append] at this ⊢
        refine ⟨this.1, (List.nodup_append_comm).1 this.2.1, fun x hx y hy => this.2.2 x hx y ?_⟩
        rw [List.mem_append] at hy ⊢
        exact hy.symm
  | moveAssign i j =>
    simp only [St.exec] at e
    cases hp : s.pkts[i]? with
    | none => rw [hp] at e; cases e
    | some p =>
      cases hq : s.pkts[j]? with
      | none => rw [hp, hq] at e; cases e
      | some q =>
        rw [hp, hq] at e
        simp only at e
        split at e
        · cases e; exact hi
        · rename_i hij
          cases e
          have hpv := ha p hp
          obtain ⟨hc, hmem⟩ := moveAssign_spec hij hp hq hpv
          refine ⟨fun k => ?_, fun r hr hrv => hi.le r (hmem r hr hrv) hrv, ?_⟩
          · have := hi.count k
            rw [← hc (inSlot k) (fun r hr => by simp [inSlot, hr])] at this
            exact this
          · rw [List.nodup_iff_count_le_one]
            intro x
            have hl : ∀ (sl : Nat → Cntr) (l : List Pkt), (St.mk sl l).live.count x =
                l.countP (fun r => r.phv && decide ((r.id, r.copy) = x)) := by
              intro sl l
              unfold St.live
              rw [List.count, List.countP_map, List.countP_filter]
              apply List.countP_congr
              intro r _
              simp [and_comm, Function.comp]
            rw [hl, hc _ (fun r hr => by simp [hr]), ← hl s.slots]
            exact List.nodup_iff_count_le_one.1 hi.nodup x

theorem exec_exact {s s' : St} {op : Op} {c : Nat → Nat} (hi : Inv s) (hx : Exact c s) (ha : Sound True s op)
    (hf : ∀ i p, op = .clone i → s.pkts[i]? = some p → p.phv = true →
      (s.slots (p.id % W)).max < 2 ^ 16 - 1 ∧ (s.slots (p.id % W)).num < 2 ^ 16 - 1)
    (e : s.exec op = some s') :
    Exact (fun id => c id + if clonesId s id op then 1 else 0) s' := by
  cases op with
  | arrive id =>
    cases e
    have hfree := free_count ha
    have h1 : ([⟨id, 0, true⟩] : List Pkt).countP (inSlot (id % W)) = 1 := by simp [inSlot]
    have h0 : ∀ k, k ≠ id % W → ([⟨id, 0, true⟩] : List Pkt).countP (inSlot k) = 0 := by
      intro k hk; simp [inSlot, Ne.symm hk]
    refine ⟨fun k => ?_, fun k => ?_, hx.max, ?_, ?_⟩
    · simp only [List.countP_append]
      by_cases hk : k = id % W
      · subst hk; rw [hfree, h1]; omega
      · rw [h0 k hk]; exact hx.empty k
    · simp only [List.countP_append]
      by_cases hk : k = id % W
      · subst hk
        rw [hfree, h1]
        intro _
        have := (hx.empty (id % W) hfree).2
        omega
      · rw [h0 k hk]; exact hx.num k
    · intro p hp q hq hpv hqv hpq
      rcases List.mem_append.1 hp with hp | hp <;> rcases List.mem_append.1 hq with hq | hq
      · exact hx.same p hp q hq hpv hqv hpq
      · simp at hq; subst hq; exact (ha p hp hpv hpq).elim
      · simp at hp; subst hp; exact (ha q hq hqv hpq.symm).elim
      · simp at hp hq; rw [hp, hq]
    · intro p hp hpv
      rcases List.mem_append.1 hp with hp | hp
      · exact Nat.le_trans (hx.le p hp hpv) (Nat.le_add_right _ _)
      · simp at hp; subst hp
        simp only
        rw [(hx.empty _ hfree).1]
        exact Nat.zero_le _
  | clone i =>
    simp only [St.exec] at e
    cases hp : s.pkts[i]? with
    | none => rw [hp] at e; cases e
    | some p =>
      rw [hp] at e
      simp only at e
      split at e
      · rename_i hv
        cases e
        obtain ⟨f1, f2⟩ := hf i p rfl hp hv
        have hmem := List.mem_of_getElem? hp
        have hmax : (addOne (s.slots (p.id % W))).max = (s.slots (p.id % W)).max + 1 := by
          simp only [addOne]; omega
        have hnum : (addOne (s.slots (p.id % W))).num = (s.slots (p.id % W)).num + 1 := by
          simp only [addOne]; omega
        have hcl : ∀ id, clonesId s id (.clone i) = decide (p.id = id) := by
          intro id; simp [clonesId, hp]
        have hpos : 0 < s.pkts.countP (inSlot (p.id % W)) :=
          List.countP_pos_iff.2 ⟨p, hmem, by simp [inSlot, hv]⟩
        generalize hN : (⟨p.id, (addOne (s.slots (p.id % W))).max, true⟩ : Pkt) = N
        have hNid : N.id = p.id := by rw [← hN]
        have h1 : [N].countP (inSlot (p.id % W)) = 1 := by rw [← hN]; simp [inSlot]
        have h0 : ∀ k, k ≠ p.id % W → [N].countP (inSlot k) = 0 := by
          intro k hk; rw [← hN]; simp [inSlot, Ne.symm hk]
        refine ⟨fun k => ?_, fun k => ?_, fun k => ?_, ?_, ?_⟩
        · simp only [List.countP_append]
          by_cases hk : k = p.id % W
          · subst hk; rw [h1]; omega
          · rw [h0 k hk, upd_ne _ _ hk]; exact hx.empty k
        · simp only [List.countP_append]
          by_cases hk : k = p.id % W
          · subst hk
            rw [h1, upd_same, hnum]
            have := hx.num (p.id % W) (by omega)
            omega
          · rw [h0 k hk, upd_ne _ _ hk]; exact hx.num k
        · by_cases hk : k = p.id % W
          · subst hk
            simp only [upd_same, hnum, hmax]
            have := hx.max (p.id % W)
            omega
          · simp only [upd_ne _ _ hk]; exact hx.max k
        · intro a ha' b hb hav hbv hab
          rcases List.mem_append.1 ha' with h1 | h1 <;> rcases List.mem_append.1 hb with h2 | h2
          · exact hx.same a h1 b h2 hav hbv hab
          · have h2 : b = N := by simpa using h2
            rw [h2, hNid] at hab ⊢
            exact hx.same a h1 p hmem hav hv hab
          · have h1 : a = N := by simpa using h1
            rw [h1, hNid] at hab ⊢
            exact hx.same p hmem b h2 hv hbv hab
          · simp at h1 h2; rw [h1, h2]
        · have key : ∀ q : Pkt, q ∈ s.pkts → q.phv = true →
              (s.upd p.id addOne (q.id % W)).max ≤ c q.id + if clonesId s q.id (.clone i) then 1 else 0 := by
            intro q hq hqv
            rw [hcl]
            by_cases hk : q.id % W = p.id % W
            · have hid := hx.same q hq p hmem hqv hv hk
              rw [hk, upd_same, hmax]
              have := hx.le p hmem hv
              rw [hid]
              simp only [decide_true, if_true]
              omega
            · rw [upd_ne _ _ hk]
              exact Nat.le_trans (hx.le q hq hqv) (Nat.le_add_right _ _)
          intro q hq hqv
          rcases List.mem_append.1 hq with hq | hq
          · exact key q hq hqv
          · simp at hq; subst hq
            simp only [hNid]
            exact key p hmem hv
      · cases e
  | destroy i stale =>
    have hst : stale = 0 := ha trivial
    subst hst
    simp only [St.exec] at e
    cases hp : s.pkts[i]? with
    | none => rw [hp] at e; cases e
    | some p =>
      rw [hp] at e
      simp only at e
      cases e
      obtain ⟨a, b, h1, h2, _⟩ := split_at hp
      have hcount : ∀ k, (a ++ b).countP (inSlot k) + [p].countP (inSlot k) =
          s.pkts.countP (inSlot k) := by
        intro k
        rw [h1]
        simp only [List.countP_append, List.countP_cons, List.countP_nil]
        omega
      have hmem : ∀ q ∈ a ++ b, q ∈ s.pkts := by
        intro q hq
        rw [h1]
        rcases List.mem_append.1 hq with h | h <;> simp [h]
      have hcl : ∀ id, (c id + if clonesId s id (.destroy i 0) then 1 else 0) = c id := by
        intro id; simp [clonesId]
      simp only [hcl]
      rw [h2]
      cases hv : p.phv with
      | false =>
        simp only [Bool.false_eq_true, if_false]
        have h0 : ∀ k, [p].countP (inSlot k) = 0 := by intro k; simp [inSlot, hv]
        refine ⟨fun k hk => ?_, fun k hk => ?_, hx.max, ?_, fun q hq hqv => hx.le q (hmem q hq) hqv⟩
        · have := hcount k; rw [h0] at this
          exact hx.empty k (by simp only at hk; omega)
        · have := hcount k; rw [h0] at this
          have := hx.num k (by simp only at hk; omega)
          simp only at hk ⊢; omega
        · exact fun q hq r hr => hx.same q (hmem q hq) r (hmem r hr)
      | true =>
        simp only [if_true]
        have h1k : [p].countP (inSlot (p.id % W)) = 1 := by simp [inSlot, hv]
        have h0 : ∀ k, k ≠ p.id % W → [p].countP (inSlot k) = 0 := by
          intro k hk; simp [inSlot, Ne.symm hk]
        have c2 := hcount (p.id % W)
        have c1 := hx.num (p.id % W) (by omega)
        refine ⟨fun k hk => ?_, fun k hk => ?_, fun k => ?_, ?_, ?_⟩
        · by_cases hkp : k = p.id % W
          · subst hkp
            simp only at hk
            simp only [upd_same, removeOne]
            rw [if_pos (by omega)]
            exact ⟨rfl, rfl⟩
          · simp only [upd_ne _ _ hkp]
            have := hcount k
            rw [h0 k hkp] at this
            exact hx.empty k (by simp only at hk; omega)
        · by_cases hkp : k = p.id % W
          · subst hkp
            simp only at hk
            simp only [upd_same, removeOne]
            rw [if_neg (by omega)]
            simp only
            omega
          · simp only [upd_ne _ _ hkp]
            have := hcount k
            rw [h0 k hkp] at this
            have := hx.num k (by simp only at hk; omega)
            omega
        · by_cases hkp : k = p.id % W
          · subst hkp
            simp only [upd_same, removeOne]
            split
            · exact Nat.le_refl _
            · have := hx.max (p.id % W)
              simp only
              omega
          · simp only [upd_ne _ _ hkp]
            exact hx.max k
        · exact fun q hq r hr => hx.same q (hmem q hq) r (hmem r hr)
        · intro q hq hqv
          have := hx.le q (hmem q hq) hqv
          by_cases hkp : q.id % W = p.id % W
          · simp only
            rw [hkp] at this ⊢
            rw [upd_same]
            unfold removeOne
            split
            · exact Nat.zero_le _
            · exact this
          · simp only
            rw [upd_ne _ _ hkp]
            exact this
  | moveNew i =>
    simp only [St.exec] at e
    cases hp : s.pkts[i]? with
    | none => rw [hp] at e; cases e
    | some p =>
      rw [hp] at e
      simp only at e
      cases e
      obtain ⟨a, b, h1, _, h3, _⟩ := split_at hp
      have hcl : ∀ id, (c id + if clonesId s id (.moveNew i) then 1 else 0) = c id := by
        intro id; simp [clonesId]
      simp only [hcl]
      rw [h3]
      have hc : ∀ k, (a ++ { p with phv := false } :: b ++ [p]).countP (inSlot k) =
          s.pkts.countP (inSlot k) := by
        intro k
        rw [h1]
        have h0 : inSlot k { p with phv := false } = false := rfl
        simp only [List.countP_append, List.countP_cons, List.countP_nil, h0]
        simp only [Bool.false_eq_true, if_false]
        omega
      have hmem : ∀ q ∈ a ++ { p with phv := false } :: b ++ [p], q.phv = true → q ∈ s.pkts := by
        intro q hq hqv
        rw [h1]
        simp only [List.mem_append, List.mem_cons, List.not_mem_nil, or_false] at hq ⊢
        rcases hq with (h | rfl | h) | h
        · exact .inl h
        · cases hqv
        · exact .inr (.inr h)
        · exact .inr (.inl h)
      refine ⟨fun k hk => ?_, fun k hk => ?_, hx.max, ?_, fun q hq hqv => hx.le q (hmem q hq hqv) hqv⟩
      · simp only [hc] at hk; exact hx.empty k hk
      · simp only [hc] at hk ⊢; exact hx.num k hk
      · exact fun q hq r hr hqv hrv => hx.same q (hmem q hq hqv) r (hmem r hr hrv) hqv hrv
  | moveAssign i j =>
    have hcl : ∀ id, (c id + if clonesId s id (.moveAssign i j) then 1 else 0) = c id := by
      intro id; simp [clonesId]
    simp only [hcl]
    simp only [St.exec] at e
    cases hp : s.pkts[i]? with
    | none => rw [hp] at e; cases e
    | some p =>
      cases hq : s.pkts[j]? with
      | none => rw [hp, hq] at e; cases e
      | some q =>
        rw [hp, hq] at e
        simp only at e
        split at e
        · cases e; exact hx
        · rename_i hij
          cases e
          have hpv := ha p hp
          obtain ⟨hc, hmem⟩ := moveAssign_spec hij hp hq hpv
          refine ⟨fun k hk => ?_, fun k hk => ?_, hx.max, ?_, fun q hq hqv => hx.le q (hmem q hq hqv) hqv⟩
          · simp only [hc (inSlot k) (fun r hr => by simp [inSlot, hr])] at hk
            exact hx.empty k hk
          · simp only [hc (inSlot k) (fun r hr => by simp [inSlot, hr])] at hk ⊢
            exact hx.num k hk
          · exact fun q hq r hr hqv hrv => hx.same q (hmem q hq hqv) r (hmem r hr hrv) hqv hrv

theorem run_inv {quiet : Prop} : ∀ (ops : List Op) {s s' : St}, Inv s → SoundRun quiet s ops →
    CountersFit s ops → s.run ops = some s' → Inv s'
  | [], s, s', hi, _, _, e => by cases e; exact hi
  | op :: ops, s, s', hi, hs, hf, e => by
    simp only [St.run] at e
    obtain ⟨s1, h1, e⟩ := Option.bind_eq_some_iff.1 e
    exact run_inv ops (exec_inv hi hs.1 hf.1 h1) (hs.2 s1 h1) (hf.2 s1 h1) e

theorem fit_of_count : ∀ (ops : List Op) {s : St} {c : Nat → Nat}, Inv s → Exact c s → SoundRun True s ops →
    (∀ id, c id + cloneCount id s ops < 2 ^ 16) → CountersFit s ops
  | [], _, _, _, _, _, _ => trivial
  | op :: ops, s, c, hi, hx, hs, hn => by
    have hf : ∀ i p, op = .clone i → s.pkts[i]? = some p → p.phv = true →
        (s.slots (p.id % W)).max < 2 ^ 16 - 1 ∧ (s.slots (p.id % W)).num < 2 ^ 16 - 1 := by
      intro i p e hp hv
      subst e
      have h1 := hx.le p (List.mem_of_getElem? hp) hv
      have h2 := hx.max (p.id % W)
      have h3 := hn p.id
      have : clonesId s p.id (.clone i) = true := by simp [clonesId, hp]
      simp only [cloneCount, this, if_true] at h3
      omega
    refine ⟨hf, fun s1 h1 => fit_of_count ops (exec_inv hi hs.1 hf h1) (exec_exact hi hx hs.1 hf h1)
      (hs.2 s1 h1) fun id => ?_⟩
    have := hn id
    simp only [cloneCount, h1] at this
    omega

theorem inv_init : Inv St.init :=
  ⟨fun k => by simp [St.init], fun p hp => by simp [St.init] at hp, by simp [St.init, St.live]⟩

theorem exact_init : Exact (fun _ => 0) St.init :=
  ⟨fun k _ => ⟨rfl, rfl⟩, fun k h => by simp [St.init] at h, fun k => Nat.le_refl _,
    fun p hp => by simp [St.init] at hp, fun p hp => by simp [St.init] at hp⟩

end Bm.PktId
