import Verif.Lemmas.DpGrpc

/-!
# Lemmas for C106: statistics, ports, numbers, progress
-/

namespace Bm.DpGrpc
open Bm.DpGrpc.Spec

/-! ## Statistics -/

/-- The statistics once the thread of the stream has counted its packet. -/
def St.shown (s : St) (p : Nat) : Stats :=
  match s.pc with
  | .labelling k r pid => (s.getStats p).next p (.accepted k r pid)
  | _ => s.getStats p

/-- Events that are not counted. -/
def Ev.Uncounted : Ev → Prop
  | .accepted .. | .response .. | .cleared _ => False
  | _ => True

theorem stats_uncounted {l : List Ev} {e : Ev} (h : Ev.Uncounted e) (p : Nat) : Spec.stats p (l ++ [e]) = Spec.stats p l := by
  rw [stats_snoc]; cases e <;> first | rfl | exact h.elim

theorem getStats_count (s : St) (p q : Nat) (f : Stats → Stats) :
    (s.count p f).getStats q = if q = p then f (s.getStats p) else s.getStats q := by
  simp only [St.count, St.getStats, UMap.find_assign]
  split <;> rfl

theorem shown_free {s : St} (h : ∀ k r pid, s.pc ≠ .labelling k r pid) (p : Nat) : s.shown p = s.getStats p := by
  unfold St.shown
  split
  · rename_i hk; exact absurd hk (h _ _ _)
  · rfl

theorem stats_step {c : Cfg} {s s' : St} {l : Label} (p : Nat) (h : Spec.stats p s.log = s.shown p)
    (hs : s.step c l = some s') : Spec.stats p s'.log = s'.shown p := by
  have keep : ∀ {t : St}, t.stats = s.stats → t.pc = s.pc →
      (t.log = s.log ∨ ∃ e, Ev.Uncounted e ∧ t.log = s.log ++ [e]) → Spec.stats p t.log = t.shown p := by
    intro t h1 h2 h3
    have e1 : t.shown p = s.shown p := by unfold St.shown St.getStats; rw [h1, h2]
    rcases h3 with h3 | ⟨e, h4, h3⟩
    · rw [h3, e1, h]
    · rw [h3, stats_uncounted h4, e1, h]
  have move : ∀ {t : St}, t.stats = s.stats → (∀ k r pid, s.pc ≠ .labelling k r pid) → (∀ k r pid, t.pc ≠ .labelling k r pid) →
      (t.log = s.log ∨ ∃ e, Ev.Uncounted e ∧ t.log = s.log ++ [e]) → Spec.stats p t.log = t.shown p := by
    intro t h1 h2 h2' h3
    have e1 : t.shown p = s.shown p := by rw [shown_free h2, shown_free h2']; unfold St.getStats; rw [h1]
    rcases h3 with h3 | ⟨e, h4, h3⟩
    · rw [h3, e1, h]
    · rw [h3, stats_uncounted h4, e1, h]
  cases l with
  | start =>
    simp only [St.step] at hs
    split at hs <;> cases hs
    exact keep rfl rfl (.inl rfl)
  | opens =>
    simp only [St.step] at hs
    split at hs
    · rename_i hf
      split at hs
      · cases hs; exact keep rfl rfl (.inr ⟨.notReady, trivial, rfl⟩)
      · split at hs
        · cases hs; exact keep rfl rfl (.inr ⟨.exhausted, trivial, rfl⟩)
        · cases hs
          refine move rfl ?_ ?_ (.inr ⟨.opened s.streams, trivial, rfl⟩)
          · intro k r pid h1; rw [h1] at hf; cases hf
          · intro k r pid h1; cases h1
    · cases hs
  | read r =>
    simp only [St.step] at hs
    split at hs
    · rename_i k hk
      split at hs
      · cases hs; exact keep rfl rfl (.inr ⟨.skipped k r, trivial, rfl⟩)
      · cases hs
        obtain ⟨-, h2, -, h4⟩ := addPort_core s r.port
        refine move h4 ?_ ?_ (.inl h2)
        · intro k r pid h1; rw [h1] at hk; cases hk
        · intro k r pid h1; cases h1
    · cases hs
  | take =>
    simp only [St.step] at hs
    split at hs
    · rename_i k r hk
      cases hs
      refine move rfl ?_ ?_ (.inl rfl)
      · intro k r pid h1; rw [h1] at hk; cases hk
      · intro k r pid h1; cases h1
    · cases hs
  | create =>
    simp only [St.step] at hs
    split at hs
    · rename_i k r pid hk
      split at hs
      · cases hs
        rw [stats_snoc, h, shown_free (by intro k r pid h1; rw [h1] at hk; cases hk)]
        rfl
      · cases hs
    · cases hs
  | label =>
    simp only [St.step] at hs
    split at hs
    · rename_i k r pid hk
      have e : s.shown p = (s.getStats p).next p (.accepted k r pid) := by unfold St.shown; rw [hk]
      cases hs
      rw [e] at h
      have key : ∀ t : St, t.stats = s.stats → t.log = s.log →
          Spec.stats p ({ t with pc := PC.reading k }.count r.port fun t =>
            { t with inPackets := t.inPackets + 1, inOctets := t.inOctets + r.data.length }).log =
          ({ t with pc := PC.reading k }.count r.port fun t =>
            { t with inPackets := t.inPackets + 1, inOctets := t.inOctets + r.data.length }).shown p := by
        intro t h1 h2
        rw [shown_free (by intro k r pid h1; cases h1), getStats_count]
        show Spec.stats p t.log = _
        rw [h2, h]
        show (s.getStats p).next p _ = _
        simp only [Stats.next, St.getStats, h1]
        by_cases hp : r.port = p
        · subst hp; simp
        · rw [if_neg hp, if_neg (fun h => hp h.symm)]
      split
      · exact key _ rfl rfl
      · exact key _ rfl rfl
    · cases hs
  | eof =>
    simp only [St.step] at hs
    split at hs
    · rename_i k hk
      cases hs
      refine move rfl ?_ ?_ (.inl rfl)
      · intro k r pid h1; rw [h1] at hk; cases hk
      · intro k r pid h1; cases h1
    · cases hs
  | drainLock =>
    simp only [St.step] at hs
    split at hs
    · rename_i k hk
      split at hs <;> cases hs
      refine move rfl ?_ ?_ (.inl rfl)
      · intro k r pid h1; rw [h1] at hk; cases hk
      · intro k r pid h1; cases h1
    · cases hs
  | drained =>
    simp only [St.step] at hs
    split at hs
    · rename_i k hk
      split at hs <;> cases hs
      refine move rfl ?_ ?_ (.inl rfl)
      · intro k r pid h1; rw [h1] at hk; cases hk
      · intro k r pid h1; cases h1
    · cases hs
  | close =>
    simp only [St.step] at hs
    split at hs
    · rename_i k hk
      cases hs
      refine move rfl ?_ ?_ (.inr ⟨.closed k, trivial, rfl⟩)
      · intro k r pid h1; rw [h1] at hk; cases hk
      · intro k r pid h1; cases h1
    · cases hs
  | piTake =>
    simp only [St.step, Option.some.injEq] at hs
    subst hs; exact keep rfl rfl (.inl rfl)
  | piCreate pid =>
    simp only [St.step] at hs
    split at hs <;> cases hs
    exact keep rfl rfl (.inr ⟨.injected pid, trivial, rfl⟩)
  | copy pid =>
    simp only [St.step] at hs
    split at hs <;> cases hs
    exact keep rfl rfl (.inl rfl)
  | drop pid =>
    simp only [St.step] at hs
    split at hs <;> cases hs
    exact keep rfl rfl (.inl rfl)
  | emit pid port data =>
    simp only [St.step] at hs
    split at hs <;> cases hs
    exact keep rfl rfl (.inl rfl)
  | transmit =>
    simp only [St.step] at hs
    split at hs
    · cases hs
    · rename_i pid port data q hq
      split at hs
      · cases hs; exact keep rfl rfl (.inr ⟨.packetIn pid data, trivial, rfl⟩)
      · split at hs
        · rename_i hf
          cases hs
          have hlab : ∀ k r pid, s.pc ≠ .labelling k r pid := by
            intro k r pid h1; rw [h1] at hf; cases hf
          rw [shown_free hlab] at h
          unfold St.transmitFn
          split
          · rename_i k hk
            rw [shown_free (by exact hlab), getStats_count]
            show Spec.stats p (s.log ++ [_]) = _
            rw [stats_snoc, h]
            simp only [Stats.next, St.getStats]
            by_cases hp : port = p
            · subst hp; simp
            · rw [if_neg hp, if_neg (fun h => hp h.symm)]
          · refine (keep (t := { s with outq := q, log := s.log ++ [.lost pid port data] }) rfl rfl
              (.inr ⟨.lost pid port data, trivial, rfl⟩))
        · cases hs
  | setStatus dev q op =>
    simp only [St.step] at hs
    split at hs <;> cases hs
    unfold St.setStatus
    obtain ⟨h1, h2, -, h4⟩ := addPort_core s q
    split
    · exact keep rfl rfl (.inr ⟨.invalid, trivial, rfl⟩)
    · split
      · exact keep rfl rfl (.inr ⟨.invalid, trivial, rfl⟩)
      · rename_i b
        refine keep ?_ ?_ (.inr ⟨.status q b, trivial, ?_⟩)
        · exact h4
        · simp only [St.core, Prod.mk.injEq] at h1; exact h1.2.1
        · show (s.addPort q).log ++ _ = _
          rw [h2]
  | clear q =>
    simp only [St.step] at hs
    split at hs
    · rename_i hf
      cases hs
      have hlab : ∀ k r pid, s.pc ≠ .labelling k r pid := by
        intro k r pid h1; rw [h1] at hf; cases hf
      rw [shown_free hlab] at h
      rw [shown_free (by exact hlab)]
      unfold St.clearStats
      rw [stats_snoc, h]
      simp only [Stats.next, St.getStats, UMap.find_modify]
      by_cases hp : q = p
      · subst hp
        rw [if_pos rfl, if_pos rfl]
        cases s.stats.find? q <;> rfl
      · rw [if_neg hp, if_neg (fun h => hp h.symm)]
    · cases hs
  | swapBegin =>
    simp only [St.step] at hs
    split at hs <;> cases hs
    exact keep rfl rfl (.inl rfl)
  | swapEnd =>
    simp only [St.step] at hs
    split at hs <;> cases hs
    exact keep rfl rfl (.inr ⟨.exchanged, trivial, rfl⟩)
  | apiAdd q =>
    simp only [St.step, Option.some.injEq] at hs
    subst hs; exact keep rfl rfl (.inl rfl)
  | apiRemove q =>
    simp only [St.step, Option.some.injEq] at hs
    subst hs; exact keep rfl rfl (.inl rfl)

theorem stats_reach {c : Cfg} {P : St → Label → Prop} {s : St} (h : Reach c P s) (p : Nat) :
    Spec.stats p s.log = s.shown p := by
  induction h with
  | init => rfl
  | step _ _ hs ih => exact stats_step p ih hs

/-! ## Ports -/

/-- The port the thread of the stream is using, with the packet not in the switch yet. -/
def PC.using (p : Nat) : PC → Bool
  | .handling _ r | .creating _ r _ => r.port = p
  | _ => false

/-- What holds for a port. -/
structure PortInv (s : St) (p : Nat) : Prop where
  up : s.portIsUp p = up p s.log
  known : (s.oper.find? p).isSome = (known p s.log || s.pc.using p)

theorem known_snoc (p : Nat) (l : List Ev) (e : Ev) : known p (l ++ [e]) = (known p l || known p [e]) := by
  simp only [known, List.any_append]

theorem addPort_oper (s : St) (p q : Nat) : (s.addPort p).portIsUp q = s.portIsUp q ∧
    ((s.addPort p).oper.find? q).isSome = ((s.oper.find? q).isSome || (p == q)) := by
  unfold St.addPort St.portIsUp
  by_cases hp : q = p
  · subst hp
    cases h : s.oper.find? q with
    | none => simp [UMap.find_assign]
    | some b => simp [h]
  · have hp' : ¬ p = q := fun h => hp h.symm
    cases h : s.oper.find? p with
    | none => simp [UMap.find_assign, hp, hp']
    | some b => simp [hp']

theorem port_step {c : Cfg} {s s' : St} {l : Label} (p : Nat) (h : PortInv s p)
    (hs : s.step c l = some s') : PortInv s' p := by
  have keep : ∀ {t : St}, t.oper = s.oper → t.pc.using p = s.pc.using p →
      (t.log = s.log ∨ ∃ e, (∀ q b, e ≠ Ev.status q b) ∧ (∀ k r pid, e ≠ Ev.accepted k r pid) ∧ t.log = s.log ++ [e]) →
      PortInv t p := by
    intro t h1 h2 h3
    rcases h3 with h3 | ⟨e, h4, h5, h3⟩
    · constructor
      · unfold St.portIsUp; rw [h1, h3]; exact h.up
      · rw [h1, h2, h3]; exact h.known
    · have hk : known p [e] = false := by
        cases e <;> first | rfl | (exact absurd rfl (h4 _ _)) | (exact absurd rfl (h5 _ _ _))
      have hu : up p (s.log ++ [e]) = up p s.log := by
        rw [up_snoc]
        cases e <;> first | rfl | (exact absurd rfl (h4 _ _))
      constructor
      · unfold St.portIsUp; rw [h1, h3, hu]; exact h.up
      · rw [h1, h2, h3, known_snoc, hk, Bool.or_false]; exact h.known
  cases l with
  | start =>
    simp only [St.step] at hs
    split at hs <;> cases hs
    exact keep rfl rfl (.inl rfl)
  | opens =>
    simp only [St.step] at hs
    split at hs
    · rename_i hf
      split at hs
      · cases hs; exact keep rfl rfl (.inr ⟨.notReady, by simp, by simp, rfl⟩)
      · split at hs
        · cases hs; exact keep rfl rfl (.inr ⟨.exhausted, by simp, by simp, rfl⟩)
        · cases hs
          refine keep rfl ?_ (.inr ⟨.opened s.streams, by simp, by simp, rfl⟩)
          cases hp : s.pc <;> rw [hp] at hf <;> first | rfl | cases hf
    · cases hs
  | read r =>
    simp only [St.step] at hs
    split at hs
    · rename_i k hk
      split at hs
      · cases hs; exact keep rfl rfl (.inr ⟨.skipped k r, by simp, by simp, rfl⟩)
      · cases hs
        obtain ⟨-, h2, -, h4⟩ := addPort_core s r.port
        obtain ⟨o1, o2⟩ := addPort_oper s r.port p
        constructor
        · show (s.addPort r.port).portIsUp p = up p (s.addPort r.port).log
          rw [o1, h2]; exact h.up
        · show ((s.addPort r.port).oper.find? p).isSome = (known p (s.addPort r.port).log || (decide (r.port = p)))
          rw [o2, h2, h.known, hk]
          by_cases hp : r.port = p <;> simp [PC.using, hp]
    · cases hs
  | take =>
    simp only [St.step] at hs
    split at hs
    · rename_i k r hk
      cases hs
      refine keep rfl ?_ (.inl rfl)
      rw [hk]; rfl
    · cases hs
  | create =>
    simp only [St.step] at hs
    split at hs
    · rename_i k r pid hk
      split at hs
      · cases hs
        constructor
        · show s.portIsUp p = _
          rw [up_snoc]; exact h.up
        · show (s.oper.find? p).isSome = _
          rw [known_snoc, h.known, hk]
          simp [known, PC.using]
      · cases hs
    · cases hs
  | label =>
    simp only [St.step] at hs
    split at hs
    · rename_i k r pid hk
      cases hs
      refine keep ?_ ?_ (.inl ?_)
      · split <;> rfl
      · rw [hk]; split <;> rfl
      · split <;> rfl
    · cases hs
  | eof =>
    simp only [St.step] at hs
    split at hs
    · rename_i k hk
      cases hs
      exact keep rfl (by rw [hk]; rfl) (.inl rfl)
    · cases hs
  | drainLock =>
    simp only [St.step] at hs
    split at hs
    · rename_i k hk
      split at hs <;> cases hs
      exact keep rfl (by rw [hk]; rfl) (.inl rfl)
    · cases hs
  | drained =>
    simp only [St.step] at hs
    split at hs
    · rename_i k hk
      split at hs <;> cases hs
      exact keep rfl (by rw [hk]; rfl) (.inl rfl)
    · cases hs
  | close =>
    simp only [St.step] at hs
    split at hs
    · rename_i k hk
      cases hs
      exact keep rfl (by rw [hk]; rfl) (.inr ⟨.closed k, by simp, by simp, rfl⟩)
    · cases hs
  | piTake =>
    simp only [St.step, Option.some.injEq] at hs
    subst hs; exact keep rfl rfl (.inl rfl)
  | piCreate pid =>
    simp only [St.step] at hs
    split at hs <;> cases hs
    exact keep rfl rfl (.inr ⟨.injected pid, by simp, by simp, rfl⟩)
  | copy pid =>
    simp only [St.step] at hs
    split at hs <;> cases hs
    exact keep rfl rfl (.inl rfl)
  | drop pid =>
    simp only [St.step] at hs
    split at hs <;> cases hs
    exact keep rfl rfl (.inl rfl)
  | emit pid port data =>
    simp only [St.step] at hs
    split at hs <;> cases hs
    exact keep rfl rfl (.inl rfl)
  | transmit =>
    simp only [St.step] at hs
    split at hs
    · cases hs
    · rename_i pid port data q hq
      split at hs
      · cases hs; exact keep rfl rfl (.inr ⟨.packetIn pid data, by simp, by simp, rfl⟩)
      · split at hs
        · cases hs
          refine keep ?_ ?_ (.inr ?_)
          · unfold St.transmitFn; split <;> rfl
          · unfold St.transmitFn; split <;> rfl
          · rw [transmitFn_log]
            refine ⟨_, ?_, ?_, rfl⟩
            · intro q b; dsimp only; split <;> simp
            · intro k r pid; dsimp only; split <;> simp
        · cases hs
  | setStatus dev q op =>
    simp only [St.step] at hs
    split at hs
    · rename_i hf
      cases hs
      unfold St.setStatus
      obtain ⟨h1, h2, -, h4⟩ := addPort_core s q
      have hpc : (s.addPort q).pc = s.pc := by simp only [St.core, Prod.mk.injEq] at h1; exact h1.2.1
      split
      · exact keep rfl rfl (.inr ⟨.invalid, by simp, by simp, rfl⟩)
      · split
        · exact keep rfl rfl (.inr ⟨.invalid, by simp, by simp, rfl⟩)
        · rename_i b
          obtain ⟨o1, o2⟩ := addPort_oper s q p
          have hu := h.up
          rw [← o1] at hu
          unfold St.portIsUp at hu
          constructor
          · show (((s.addPort q).oper.assign q b).find? p).getD true = up p ((s.addPort q).log ++ [Ev.status q b])
            rw [UMap.find_assign, up_snoc, h2]
            by_cases hp : p = q
            · subst hp; simp
            · have hp' : ¬ q = p := fun h => hp h.symm
              simp only [if_neg hp, if_neg hp']; exact hu
          · show (((s.addPort q).oper.assign q b).find? p).isSome =
              (known p ((s.addPort q).log ++ [Ev.status q b]) || (s.addPort q).pc.using p)
            rw [UMap.find_assign, known_snoc, h2, hpc]
            by_cases hp : p = q
            · subst hp; simp [known]
            · have hp' : ¬ q = p := fun h => hp h.symm
              rw [if_neg hp, o2, h.known]; simp [known, hp']
    · cases hs
  | clear q =>
    simp only [St.step] at hs
    split at hs <;> cases hs
    exact keep rfl rfl (.inr ⟨.cleared q, by simp, by simp, rfl⟩)
  | swapBegin =>
    simp only [St.step] at hs
    split at hs <;> cases hs
    exact keep rfl rfl (.inl rfl)
  | swapEnd =>
    simp only [St.step] at hs
    split at hs <;> cases hs
    exact keep rfl rfl (.inr ⟨.exchanged, by simp, by simp, rfl⟩)
  | apiAdd q =>
    simp only [St.step, Option.some.injEq] at hs
    subst hs; exact keep rfl rfl (.inl rfl)
  | apiRemove q =>
    simp only [St.step, Option.some.injEq] at hs
    subst hs; exact keep rfl rfl (.inl rfl)

theorem port_reach {c : Cfg} {P : St → Label → Prop} {s : St} (h : Reach c P s) (p : Nat) : PortInv s p := by
  induction h with
  | init => exact ⟨rfl, rfl⟩
  | step _ _ hs ih => exact port_step p ih hs

end Bm.DpGrpc
