import Verif.Lemmas.PacketId

/-!
# C40: packet copies have distinct identities
-/

namespace Bm.PktId

/-- **C40**: for every history of arrivals, clones of any packet alive, moves and destructions in any
order, in which no packet arrives while another one with the same id modulo 4096 is alive
(`C40_refuted_collision` otherwise), fewer than `2^16` clones are made of packets with the same id
(`C40_refuted_wrap` otherwise), packets are moved into moved-from packets only (`C40_refuted_move`
otherwise) and no counter is updated by two threads at the same time (for this see `C40_contended`): the
packets alive have different identities. -/
theorem C40_partial (ops : List Op) {s : St} (e : St.init.run ops = some s)
    (hs : SoundRun True St.init ops) (hn : ∀ id, cloneCount id St.init ops < 2 ^ 16) : s.live.Nodup :=
  (run_inv ops inv_init hs (fit_of_count ops inv_init exact_init hs
    (fun id => by have := hn id; omega)) e).nodup

/-- **C40** for any interleaving of threads, as long as the counters do not wrap. -/
theorem C40_contended (ops : List Op) {s : St} (e : St.init.run ops = some s)
    (hs : SoundRun False St.init ops) (hf : CountersFit St.init ops) : s.live.Nodup :=
  (run_inv ops inv_init hs hf e).nodup

/-- A history with clones of clones, a move and destructions. -/
def exOps : List Op :=
  [.arrive 7, .clone 0, .clone 1, .destroy 0 0, .arrive 8, .clone 2, .moveNew 1, .moveAssign 1 0, .clone 1]

/-- The hypotheses of `C40_partial` hold for it. -/
example : (St.init.run exOps).map (·.live) = some [(7, 1), (8, 0), (8, 1), (7, 2), (7, 3)] ∧
    SoundRun True St.init exOps ∧ ∀ id, cloneCount id St.init exOps < 2 ^ 16 := by
  refine ⟨by decide, ?_, ?_⟩
  · have hs : ∀ (s : St) (op : Op) (ops : List Op) (s' : St), s.exec op = some s' → Sound True s op →
        SoundRun True s' ops → SoundRun True s (op :: ops) := by
      intro s op ops s' e h1 h2
      refine ⟨h1, fun s1 h => ?_⟩
      rw [e] at h
      cases h
      exact h2
    refine hs _ _ _ _ rfl (by simp [Sound, St.Free, St.init]) ?_
    refine hs _ _ _ _ rfl trivial ?_
    refine hs _ _ _ _ rfl trivial ?_
    refine hs _ _ _ _ rfl (fun _ => rfl) ?_
    refine hs _ _ _ _ rfl ?_ ?_
    · intro p hp _
      simp [St.init] at hp
      rcases hp with rfl | rfl <;> decide
    refine hs _ _ _ _ rfl trivial ?_
    refine hs _ _ _ _ rfl trivial ?_
    refine hs _ _ _ _ rfl ?_ ?_
    · intro p hp
      simp [St.init] at hp
      rw [← hp]
    exact hs _ _ _ _ rfl trivial trivial
  · intro id
    have : ∀ (ops : List Op) (s : St), cloneCount id s ops ≤ ops.length := by
      intro ops
      induction ops with
      | nil => intro s; exact Nat.le_refl _
      | cons op ops ih =>
        intro s
        simp only [cloneCount, List.length_cons]
        have : (if clonesId s id op = true then 1 else 0) ≤ 1 := by split <;> omega
        cases h : s.exec op with
        | none => simp only; omega
        | some s' => have := ih s'; simp only; omega
    have := this exOps St.init
    have hl : exOps.length = 9 := rfl
    omega

/-- **C40 fails** when two packets whose ids are the same modulo 4096 are alive: they share a counter,
which is reset while a copy of the first is still alive; cloning that copy gives its own copy id again. -/
theorem C40_refuted_collision : ∃ (ops : List Op) (s : St), St.init.run ops = some s ∧
    (∀ op ∈ ops, ∀ i st, op = .destroy i st → st = 0) ∧ ¬ s.live.Nodup :=
  ⟨[.arrive 0, .clone 0, .arrive 4096, .destroy 2 0, .destroy 0 0, .clone 0], _, rfl, by simp, by decide⟩

/-- **C40 fails** for `2^16` copies: the copy id wraps to that of the original. -/
theorem C40_refuted_wrap : ∃ s : St, St.init.run (.arrive 0 :: List.replicate (2 ^ 16) (.clone 0)) = some s ∧
    ¬ s.live.Nodup := by
  have step : ∀ (n m : Nat) (s : St), s.pkts[0]? = some ⟨0, 0, true⟩ → (s.slots 0).max = m →
      m + n = 2 ^ 16 → 0 < n → ∃ s', s.run (List.replicate n (.clone 0)) = some s' ∧
        ¬ s'.live.Nodup := by
    intro n
    induction n with
    | zero => intro m s _ _ _ h; omega
    | succ n ih =>
      intro m s h0 hm hn _
      have e : s.exec (.clone 0) = some ⟨s.upd 0 addOne, s.pkts ++ [⟨0, (m + 1) % 2 ^ 16, true⟩]⟩ := by
        simp only [St.exec, h0, if_true]
        have : (addOne (s.slots (0 % W))).max = (m + 1) % 2 ^ 16 := by
          simp only [addOne]
          rw [show (0 % W) = 0 from rfl, hm]
        rw [this]
      rw [List.replicate_succ]
      simp only [St.run, e, Option.bind_some]
      have hlt : 0 < s.pkts.length := (List.getElem?_eq_some_iff.1 h0).1
      by_cases hn0 : n = 0
      · subst hn0
        refine ⟨_, rfl, ?_⟩
        rw [live_append]
        intro hnd
        refine (List.nodup_append.1 hnd).2.2 (0, 0) ?_ (0, 0) ?_ rfl
        · exact mem_live.2 ⟨⟨0, 0, true⟩, List.mem_of_getElem? h0, rfl, rfl⟩
        · have : (m + 1) % 2 ^ 16 = 0 := by
            rw [show m + 1 = 2 ^ 16 by omega]
          rw [this]
          exact mem_live.2 ⟨⟨0, 0, true⟩, by simp, rfl, rfl⟩
      · refine ih (m + 1) _ ?_ ?_ (by omega) (by omega)
        · simp only
          rw [List.getElem?_append_left hlt, h0]
        · have hu := upd_same s 0 addOne
          rw [show (0 % W) = 0 from rfl] at hu
          simp only
          rw [hu]
          simp only [addOne, hm]
          omega
  have hN : ∀ N : Nat, N = 2 ^ 16 → ∃ s : St,
      St.init.run (.arrive 0 :: List.replicate N (.clone 0)) = some s ∧ ¬ s.live.Nodup := by
    intro N hN
    simp only [St.run, St.exec, Option.bind_some]
    exact step N 0 _ rfl rfl (by omega) (by omega)
  exact hN _ (Eq.refl _)

/-- **C40 fails** after a move assignment to a packet that was not moved from: the identities are copied
but the header vectors are exchanged, and the destructor of the source counts for the wrong packet. -/
theorem C40_refuted_move : ∃ (ops : List Op) (s : St), St.init.run ops = some s ∧
    (∀ op ∈ ops, ∀ i st, op = .destroy i st → st = 0) ∧ ¬ s.live.Nodup ∧
    s.live = [(1, 1), (1, 1)] :=
  ⟨[.arrive 1, .clone 0, .arrive 5, .moveAssign 2 1, .destroy 1 0, .destroy 0 0, .clone 0], _, rfl,
    by simp, by decide, by decide⟩

/-- Contention leaves a counter that is never reset: after this history, with one update that had to be
tried again, no packet is alive but the counter is not zero. -/
theorem C40_contended_leak : ∃ (ops : List Op) (s : St), St.init.run ops = some s ∧ s.live = [] ∧
    SoundRun False St.init ops ∧ (s.slots 3).num = 1 := by
  refine ⟨[.arrive 3, .clone 0, .clone 0, .destroy 2 0, .destroy 1 0, .destroy 0 1], _, rfl, rfl, ?_, rfl⟩
  simp [SoundRun, Sound, St.Free, St.init]

end Bm.PktId
