import Verif.Lemmas.LearningAck
import Mathlib.Data.List.Induction

/-!
# C27: a learned sample is reported once until acknowledged
-/

namespace Bm.Learn

open Spec.Learn

set_option linter.unusedSectionVars false

variable {T : Type} [DecidableEq T]

/-- The messages of the record are the closed notifications. -/
structure Agree (m : Nat) (t : List (Op T × Res T)) (S : Notes T) : Prop where
  msg : ∀ x ∈ (seen m t).msgs, x.id < S.cur ∧ x.samples = S.note x.id ∧
    x.num = x.samples.length ∧ x.samples ≠ []
  order : (seen m t).msgs.Pairwise fun a b => a.id < b.id
  sent : ∀ b < S.cur, S.note b ≠ [] →
    b ∈ (seen m t).msgs.map Msg.id ∨ (S.closed = some b ∧ S.busy = false)
  pending : ∀ b, S.closed = some b → S.busy = false → ∀ x ∈ (seen m t).msgs, x.id < b
  acked : ∀ b i, S.acked b i = (seen m t).acked b i
  busy : S.busy = (seen m t).busy
  future : ∀ b, S.cur < b → S.note b = []
  closed : ∀ b, S.closed = some b → b < S.cur ∧ S.note b ≠ []
  busyMsg : ∀ b, S.closed = some b → S.busy = true → b ∈ (seen m t).msgs.map Msg.id
  busyClosed : S.busy = true → S.closed ≠ none

theorem seen_snoc (m : Nat) (t : List (Op T × Res T)) (e : Op T × Res T) :
    seen m (t ++ [e]) = (seen m t).next e := by simp [seen, List.foldl_append]

theorem Agree.of_close {m : Nat} {t : List (Op T × Res T)} {S : Notes T} (h : Agree m t S)
    (hc : S.closed = none) : Agree m t S.close := by
  have hb : S.busy = false := by
    cases hb : S.busy with
    | false => rfl
    | true => exact absurd hc (h.busyClosed hb)
  refine ⟨fun x hx => ⟨Nat.lt_succ_of_lt (h.msg x hx).1, (h.msg x hx).2⟩, h.order, ?_, ?_, h.acked,
    h.busy, fun b hlt => h.future b (by have : S.cur + 1 < b := hlt; omega), ?_, ?_, ?_⟩
  · intro b hlt hne
    by_cases hbc : b = S.cur
    · subst hbc
      exact Or.inr ⟨by simp [Notes.close, show S.note S.cur ≠ [] from hne], hb⟩
    · have hlt : b < S.cur + 1 := hlt
      rcases h.sent b (by omega) hne with h1 | h1
      · exact Or.inl h1
      · rw [hc] at h1; simp at h1
  · intro b hcb _ x hx
    simp only [Notes.close] at hcb
    split at hcb
    · cases hcb
    · cases hcb
      exact (h.msg x hx).1
  · intro b hcb
    simp only [Notes.close] at hcb ⊢
    split at hcb
    · cases hcb
    · cases hcb
      exact ⟨by omega, by assumption⟩
  · intro b _ hb'
    exact absurd (show S.busy = true from hb') (by simp [hb])
  · intro hb'
    exact absurd (show S.busy = true from hb') (by simp [hb])

theorem Agree.of_add {m : Nat} {t : List (Op T × Res T)} {S : Notes T} (h : Agree m t S) (x : T) :
    Agree m t (S.add x) := by
  have hn : ∀ b, b ≠ S.cur → (S.add x).note b = S.note b :=
    fun b hb => Function.update_of_ne hb _ _
  refine ⟨fun y hy => ?_, h.order, ?_, h.pending, h.acked, h.busy, ?_, ?_, h.busyMsg, h.busyClosed⟩
  · have h1 := h.msg y hy
    rw [hn _ (by omega)]
    exact h1
  · intro b hb hne
    have hb : b < S.cur := hb
    rw [hn _ (by omega)] at hne
    exact h.sent b hb hne
  · intro b hb
    have hb : S.cur < b := hb
    rw [hn _ (by omega)]
    exact h.future b hb
  · intro b hcb
    have h1 := h.closed b hcb
    rw [hn _ (by omega)]
    exact h1

theorem Agree.mayClose {m : Nat} {t : List (Op T × Res T)} {S S' : Notes T} (h : Agree m t S)
    (hc : S.MayClose S') : Agree m t S' := by
  rcases hc with rfl | ⟨h1, rfl⟩
  · exact h
  · exact h.of_close h1

/-- The record does not change. -/
theorem Agree.same {m : Nat} {t t' : List (Op T × Res T)} {S : Notes T} (h : Agree m t S)
    (h1 : (seen m t').msgs = (seen m t).msgs) (h2 : (seen m t').acked = (seen m t).acked)
    (h3 : (seen m t').busy = (seen m t).busy) : Agree m t' S := by
  refine ⟨by rw [h1]; exact h.msg, by rw [h1]; exact h.order, by rw [h1]; exact h.sent,
    by rw [h1]; exact h.pending, by rw [h2]; exact h.acked, by rw [h3]; exact h.busy, h.future,
    h.closed, by rw [h1]; exact h.busyMsg, h.busyClosed⟩

theorem Agree.send {m : Nat} {t : List (Op T × Res T)} {S : Notes T} {e : Bool} (h : Agree m t S)
    (b : Nat) (hb : S.busy = false) (hne : S.note b ≠ []) (hc : S.closed = some b) :
    Agree m (t ++ [(.transmit e, .msg ⟨b, (S.note b).length, S.note b⟩)])
      { S with busy := true } := by
  have hs : seen m (t ++ [(.transmit e, .msg ⟨b, (S.note b).length, S.note b⟩)])
      = { seen m t with msgs := (seen m t).msgs ++ [⟨b, (S.note b).length, S.note b⟩],
                        busy := true } := by rw [seen_snoc]; rfl
  refine ⟨?_, ?_, ?_, ?_, ?_, ?_, h.future, h.closed, ?_, ?_⟩
  · rw [hs]
    intro x hx
    rcases List.mem_append.1 hx with hx | hx
    · exact h.msg x hx
    · obtain rfl := List.mem_singleton.1 hx
      exact ⟨(h.closed b hc).1, rfl, rfl, hne⟩
  · rw [hs]
    refine List.pairwise_append.2 ⟨h.order, by simp, ?_⟩
    intro x hx y hy
    obtain rfl := List.mem_singleton.1 hy
    exact h.pending b hc hb x hx
  · intro b' hlt hne'
    rw [hs]
    rcases h.sent b' hlt hne' with h1 | ⟨h1, _⟩
    · exact Or.inl (by rw [List.map_append]; exact List.mem_append_left _ h1)
    · rw [hc] at h1
      cases h1
      exact Or.inl (by simp)
  · intro _ _ hf; cases hf
  · rw [hs]; exact h.acked
  · rw [hs]
  · rw [hs]
    intro b' hb' _
    have : S.closed = some b' := hb'
    rw [hc] at this
    cases this
    simp
  · intro _
    show S.closed ≠ none
    rw [hc]; simp

theorem Agree.step {m : Nat} {t : List (Op T × Res T)} {S S' : Notes T} (h : Agree m t S)
    (op : Op T) (r : Res T) (hcf : Careful (seen m t) op) (hst : Step S op r S') :
    Agree m (t ++ [(op, r)]) S' := by
  cases op with
  | learn x =>
    obtain ⟨rfl, h1⟩ := hst
    refine Agree.same (t := t) ?_ (by rw [seen_snoc]; rfl) (by rw [seen_snoc]; rfl)
      (by rw [seen_snoc]; rfl)
    rcases h1 with ⟨_, rfl⟩ | ⟨_, h2⟩
    · exact h
    · exact (h.of_add x).mayClose h2
  | wake =>
    refine Agree.same (t := t) ?_ (by rw [seen_snoc]; rfl) (by rw [seen_snoc]; rfl)
      (by rw [seen_snoc]; rfl)
    rcases hst with ⟨_, rfl⟩ | ⟨_, hc, rfl⟩
    · exact h
    · exact h.of_close hc
  | transmit e =>
    rcases hst with ⟨rfl, rfl, _⟩ | ⟨b, hb, rfl, hne, ⟨hc, rfl⟩ | ⟨hc, _, rfl, rfl⟩⟩
    · exact Agree.same h (by rw [seen_snoc]; rfl) (by rw [seen_snoc]; rfl)
        (by rw [seen_snoc]; rfl)
    · exact h.send b hb hne hc
    · exact Agree.send (S := S.close) (h.of_close hc) S.cur hb hne
        (by simp [Notes.close, hne])
  | transmitEnd =>
    have hs : seen m (t ++ [(.transmitEnd, r)]) = { seen m t with busy := false } := by
      rw [seen_snoc]; rfl
    rcases hst with ⟨rfl, hb, rfl⟩ | ⟨rfl, hb, rfl⟩
    · exact Agree.same h (by rw [hs]) (by rw [hs]) (by rw [hs, ← h.busy, hb])
    · refine ⟨by rw [hs]; exact h.msg, by rw [hs]; exact h.order, ?_, ?_, by rw [hs]; exact h.acked,
        by rw [hs], h.future, ?_, ?_, ?_⟩
      · rw [hs]
        intro b hlt hne
        rcases h.sent b hlt hne with h1 | ⟨_, h1⟩
        · exact Or.inl h1
        · rw [hb] at h1; cases h1
      · intro b hb; cases hb
      · intro b hb; cases hb
      · intro b hb; cases hb
      · intro hb; cases hb
  | ack b ids =>
    obtain ⟨rfl, rfl⟩ := hst
    obtain ⟨m', _, _, _, hnn⟩ := hcf
    have hs : seen m (t ++ [(.ack b ids, .ok)]) = { seen m t with
        acked := Function.update (seen m t).acked b fun i =>
          (seen m t).acked b i || decide ((i : Int) ∈ ids) } := by
      rw [seen_snoc]; rfl
    refine ⟨by rw [hs]; exact h.msg, by rw [hs]; exact h.order, by rw [hs]; exact h.sent,
      by rw [hs]; exact h.pending, ?_, by rw [hs]; exact h.busy, h.future, h.closed,
      by rw [hs]; exact h.busyMsg, h.busyClosed⟩
    intro b' i
    rw [hs]
    simp only [Notes.ack]
    by_cases hb : b' = b
    · subst hb
      simp only [Function.update_self, h.acked]
      congr 1
      rw [decide_eq_decide, List.mem_map]
      constructor
      · rintro ⟨j, hj, rfl⟩
        rw [Int.toNat_of_nonneg (hnn j hj).1]
        exact hj
      · intro hi
        exact ⟨i, hi, by simp⟩
    · simp only [Function.update_of_ne hb, h.acked]
  | ackBuffer b =>
    obtain ⟨rfl, rfl⟩ := hst
    have hs : seen m (t ++ [(.ackBuffer b, .ok)]) = { seen m t with
        acked := Function.update (seen m t).acked b fun _ => true } := by
      rw [seen_snoc]; rfl
    refine ⟨by rw [hs]; exact h.msg, by rw [hs]; exact h.order, by rw [hs]; exact h.sent,
      by rw [hs]; exact h.pending, ?_, by rw [hs]; exact h.busy, h.future, h.closed,
      by rw [hs]; exact h.busyMsg, h.busyClosed⟩
    intro b' i
    rw [hs]
    simp only [Notes.ackAll]
    by_cases hb : b' = b
    · subst hb; simp
    · simp only [Function.update_of_ne hb, h.acked]
  | setMax n =>
    refine Agree.same (t := t) ?_ (by rw [seen_snoc]; rfl) (by rw [seen_snoc]; rfl)
      (by rw [seen_snoc]; rfl)
    exact h.mayClose hst.2
  | reset =>
    obtain ⟨rfl, rfl⟩ := hst
    have hs : seen m (t ++ [(.reset, .ok)]) = { max := (seen m t).max } := by
      rw [seen_snoc]; rfl
    constructor <;> simp [hs]

/-- What a careful controller does the implementation can bear. -/
theorem Agree.safe {m : Nat} {t : List (Op T × Res T)} {S : Notes T} (h : Agree m t S) {op : Op T}
    (hc : Careful (seen m t) op) : Safe S op := by
  cases op with
  | ack b ids =>
    obtain ⟨x, hx, rfl, hnd, hi⟩ := hc
    obtain ⟨h1, h2, _⟩ := h.msg x hx
    exact ⟨h1, hnd, fun i hm => ⟨(hi i hm).1, mem_unacked.2
      ⟨h2 ▸ (hi i hm).2.1, by rw [h.acked]; exact (hi i hm).2.2⟩⟩⟩
  | ackBuffer b =>
    obtain ⟨x, hx, rfl, hi⟩ := hc
    obtain ⟨h1, h2, _⟩ := h.msg x hx
    refine ⟨h1, ?_⟩
    rcases hi with hi | hi
    · exact Or.inr fun i => by rw [h.acked]; exact hi i
    · left
      ext i
      rw [mem_unacked]
      simp only [Finset.notMem_empty, iff_false, not_and]
      intro hlt
      rw [h.acked, hi i (h2 ▸ hlt)]
      simp
  | reset => exact h.busy.trans hc
  | _ => trivial

theorem Agree.nil (m : Nat) : Agree (T := T) m [] {} := by
  constructor <;> simp [seen]

theorem Rep.fresh (m : Nat) : Rep ({ maxSamples := m } : LL T) {} (fun _ _ => 0) := by
  refine ⟨rfl, rfl, rfl, fun _ _ => rfl, fun _ _ _ => rfl, rfl, by simp, rfl, by simp, ?_, ?_, ?_,
    ?_, by simp, ?_, by simp⟩
  · intro b; simp [Notes.unacked]
  · intro r x; simp [Notes.At]
  · intro b i b' i' hi; simp at hi
  · intro b i hi; simp at hi
  · intro x b i b' i' h1; simp [Notes.At] at h1

theorem run_snoc (s : LL T) (ops : List (Op T)) (op : Op T) :
    run s (ops ++ [op]) = (run s ops).bind fun p => (exec p.2 op).bind fun q =>
      some (p.1 ++ [(op, q.1)], q.2) := by
  induction ops generalizing s with
  | nil =>
    simp only [List.nil_append, run, Option.bind_eq_bind, Option.bind_some]
    cases exec s op <;> rfl
  | cons o os ih =>
    simp only [List.cons_append, run, Option.bind_eq_bind]
    cases exec s o with
    | none => rfl
    | some p =>
      simp only [Option.bind_some, ih]
      cases run p.2 os with
      | none => rfl
      | some q =>
        simp only [Option.bind_some, Option.pure_def]
        cases exec q.2 op <;> rfl

theorem exec_max {s s' : LL T} {op : Op T} {r : Res T} {V : Seen T} (h : exec s op = some (r, s'))
    (hm : s.maxSamples = V.max) : s'.maxSamples = (V.next (op, r)).max := by
  have hp : ∀ u : LL T, (processFull u).maxSamples = u.maxSamples := by
    intro u; unfold processFull; split <;> rfl
  cases op with
  | learn x =>
    simp only [exec, Option.some.injEq, Prod.mk.injEq] at h
    obtain ⟨_, rfl⟩ := h
    show (addSample s x).maxSamples = V.max
    rw [← hm]
    unfold addSample
    dsimp only
    split
    · rfl
    split
    · rfl
    split
    · rw [hp]
    · rfl
  | wake =>
    have : (V.next (.wake, r)).max = V.max := rfl
    rw [this, ← hm]
    simp only [exec, wake] at h
    split at h
    · cases h; rfl
    · rename_i h1
      cases h
      split at h1
      · cases h1; rfl
      · cases h1
  | transmit e =>
    have : (V.next (.transmit e, r)).max = V.max := by cases r <;> rfl
    rw [this, ← hm]
    simp only [exec, transmit] at h
    split at h
    · cases h; rfl
    · rename_i h1
      cases h
      split at h1
      · cases h1
      split at h1
      · cases h1
      split at h1 <;> (cases h1; rfl)
  | transmitEnd =>
    have : (V.next (.transmitEnd, r)).max = V.max := rfl
    rw [this, ← hm]
    simp only [exec, transmitEnd] at h
    split at h
    · cases h; rfl
    · rename_i h1
      cases h
      split at h1
      · cases h1; rfl
      · cases h1
  | ack b ids =>
    have : (V.next (.ack b ids, r)).max = V.max := rfl
    rw [this, ← hm]
    simp only [exec, Option.map_eq_some_iff] at h
    obtain ⟨u, h1, h2⟩ := h
    cases h2
    simp only [ack] at h1
    split at h1
    · cases h1; rfl
    · simp only [Option.bind_eq_bind, Option.bind_eq_some_iff] at h1
      obtain ⟨_, _, h1⟩ := h1
      cases h1; rfl
  | ackBuffer b =>
    have : (V.next (.ackBuffer b, r)).max = V.max := rfl
    rw [this, ← hm]
    simp only [exec, Option.map_eq_some_iff] at h
    obtain ⟨u, h1, h2⟩ := h
    cases h2
    simp only [ackBuffer] at h1
    split at h1
    · cases h1; rfl
    · simp only [Option.bind_eq_bind] at h1
      split at h1
      · simp only [Option.bind_some, Option.pure_def, Option.some.injEq] at h1
        rw [← h1]
      · simp only [Option.bind_eq_some_iff] at h1
        obtain ⟨_, _, h1⟩ := h1
        cases h1; rfl
  | setMax n =>
    simp only [exec, Option.some.injEq, Prod.mk.injEq] at h
    obtain ⟨_, rfl⟩ := h
    show (setMax s n).maxSamples = n
    unfold setMax
    dsimp only
    split
    · rw [hp]
    · rfl
  | reset =>
    simp only [exec, reset, Option.map_eq_some_iff] at h
    obtain ⟨u, h1, h2⟩ := h
    cases h2
    split at h1
    · cases h1
    · cases h1; exact hm

/-- Every call of the history is one a careful controller makes, given what was seen before it. -/
def CarefulRun (m : Nat) (ops : List (Op T)) : Prop :=
  ∀ pre op suf, ops = pre ++ op :: suf → ∀ t s, run { maxSamples := m } pre = some (t, s) →
    Careful (seen m t) op

theorem CarefulRun.prefix {m : Nat} {ops : List (Op T)} {op : Op T}
    (h : CarefulRun m (ops ++ [op])) : CarefulRun m ops := by
  intro pre o suf he t s hr
  exact h pre o (suf ++ [op]) (by rw [he]; simp) t s hr

theorem run_rep (m : Nat) (ops : List (Op T)) (hc : CarefulRun m ops) :
    ∃ t s S ρ, run { maxSamples := m } ops = some (t, s) ∧ Hist t S ∧ Agree m t S ∧ Rep s S ρ ∧
      s.maxSamples = (seen m t).max := by
  induction ops using List.reverseRecOn with
  | nil => exact ⟨[], _, {}, _, rfl, Hist.nil, Agree.nil m, Rep.fresh m, rfl⟩
  | append_singleton ops op ih =>
    obtain ⟨t, s, S, ρ, h1, h2, h3, h4, h5⟩ := ih hc.prefix
    have hcf := hc ops op [] rfl t s h1
    obtain ⟨r, s', S', ρ', h6, h7, h8⟩ := h4.exec op (h3.safe hcf)
    refine ⟨t ++ [(op, r)], s', S', ρ', by rw [run_snoc, h1]; simp [h6], h2.snoc op r h8,
      h3.step op r hcf h8, h7, ?_⟩
    rw [seen_snoc]
    exact exec_max h6 h5

/-- **C27** (partial: the controller must be careful, see `C27_refuted_*`).  In any history (any
interleaving of the threads of the engine) in which the controller acknowledges only samples of
messages it has received and none of them twice, nothing undefined happens, and there are numbered
notifications such that

* every operation does to them what it should (`Hist`): in particular a learned sample that is
  outstanding is ignored, and one that is not joins the open notification; acknowledging makes it not
  outstanding;
* at any time a sample has at most one unacknowledged occurrence;
* the messages sent are notifications, whole, in order, each once;
* every sample ever put in a notification (since a reset) has been sent, or is in the one
  notification that waits for the sender, or is in the open notification;
* if the open notification is full and none waits for the sender then a thread is about to close it.
-/
theorem C27_partial (m : Nat) (ops : List (Op T)) (hc : CarefulRun m ops) :
    ∃ t s S, run { maxSamples := m } ops = some (t, s) ∧ Hist t S ∧
      (∀ x b i b' i', S.At b i x → S.At b' i' x → b = b' ∧ i = i') ∧
      (∀ y ∈ (seen m t).msgs, y.num = y.samples.length ∧ y.samples = S.note y.id ∧ y.id < S.cur) ∧
      (seen m t).msgs.Pairwise (fun a b => a.id < b.id) ∧
      (∀ (b i : Nat) (x : T), (S.note b)[i]? = some x →
        b = S.cur ∨ (S.closed = some b ∧ S.busy = false) ∨
        ∃ y ∈ (seen m t).msgs, y.id = b ∧ y.samples[i]? = some x) ∧
      (∀ b i, S.acked b i = (seen m t).acked b i) ∧
      (S.note S.cur ≠ [] → (seen m t).max ≤ (S.note S.cur).length → S.closed = none →
        ∃ s', exec s .wake = some (.ok, s')) := by
  obtain ⟨t, s, S, ρ, h1, h2, h3, h4, h5⟩ := run_rep m ops hc
  refine ⟨t, s, S, h1, h2, h4.uniq, fun y hy => ⟨(h3.msg y hy).2.2.1, (h3.msg y hy).2.1,
    (h3.msg y hy).1⟩, h3.order, ?_, h3.acked, ?_⟩
  · intro b i x hx
    have hne : S.note b ≠ [] := by intro he; rw [he] at hx; simp at hx
    rcases lt_trichotomy b S.cur with hlt | heq | hgt
    · rcases h3.sent b hlt hne with h6 | h6
      · obtain ⟨y, hy, rfl⟩ := List.mem_map.1 h6
        exact Or.inr (Or.inr ⟨y, hy, rfl, by rw [(h3.msg y hy).2.1]; exact hx⟩)
      · exact Or.inr (Or.inl h6)
    · exact Or.inl heq
    · exact absurd (h3.future b hgt) hne
  · intro hne hmax hcl
    have hw : s.waiting > 0 := by
      refine h4.attended ?_ ?_
      · rw [h4.num, h4.buf]
        exact List.length_pos_iff.2 hne
      · rw [h4.num, h4.buf, h5]; exact hmax
    refine ⟨swapBuffers { s with waiting := s.waiting - 1 }, ?_⟩
    simp only [exec, wake]
    rw [if_pos ⟨by omega, h4.tmp_nil.2 hcl⟩]

/-- Not reported twice, in terms of messages only: of two received occurrences of a sample at
different places, one has been acknowledged. -/
theorem C27_once (m : Nat) (ops : List (Op T)) (hc : CarefulRun m ops) :
    ∃ t s, run { maxSamples := m } ops = some (t, s) ∧
      ∀ y ∈ (seen m t).msgs, ∀ z ∈ (seen m t).msgs, ∀ (i j : Nat) (x : T),
        y.samples[i]? = some x → z.samples[j]? = some x → (y.id, i) ≠ (z.id, j) →
        (seen m t).acked y.id i = true ∨ (seen m t).acked z.id j = true := by
  obtain ⟨t, s, S, h1, _, h2, h3, _, _, h4, _⟩ := C27_partial m ops hc
  refine ⟨t, s, h1, fun y hy z hz i j x hi hj hne => ?_⟩
  by_contra hcon
  simp only [not_or, Bool.not_eq_true] at hcon
  rw [(h3 y hy).2.1] at hi
  rw [(h3 z hz).2.1] at hj
  obtain ⟨e1, e2⟩ := h2 x y.id i z.id j ⟨hi, by rw [h4]; exact hcon.1⟩
    ⟨hj, by rw [h4]; exact hcon.2⟩
  exact hne (by rw [e1, e2])

/-- Learnable again: a sample whose received occurrence was just acknowledged is put in the open
notification when it is learned next. -/
theorem C27_again (m : Nat) (ops : List (Op T)) (x : T) (y : Msg T) (i : Nat) (t) (s)
    (hc : CarefulRun m (ops ++ [.ack y.id [(i : Int)], .learn x]))
    (hr : run { maxSamples := m } ops = some (t, s)) (hy : y ∈ (seen m t).msgs)
    (hx : y.samples[i]? = some x) :
    ∃ t' s' b, run { maxSamples := m } (ops ++ [.ack y.id [(i : Int)], .learn x]) = some (t', s') ∧
      ∃ S j, Hist t' S ∧ S.At b j x ∧ b + 1 ≥ S.cur := by
  have hc1 : CarefulRun m (ops ++ [.ack y.id [(i : Int)]]) := by
    have : ops ++ [Op.ack y.id [(i : Int)], .learn x] = (ops ++ [.ack y.id [(i : Int)]]) ++ [.learn x] := by
      simp
    rw [this] at hc
    exact hc.prefix
  obtain ⟨t0, s0, S0, ρ0, h1, h2, h3, h4, _⟩ := run_rep m ops hc1.prefix
  rw [hr] at h1
  cases h1
  have hcf := hc1 ops _ [] rfl t s hr
  obtain ⟨r, s1, S1, ρ1, h6, h7, h8⟩ := h4.exec _ (h3.safe hcf)
  obtain ⟨rfl, hS1⟩ : r = .ok ∧ S1 = S0.ack y.id [i] := by simpa [Step] using h8
  obtain ⟨r2, s2, S2, ρ2, h9, h10, h11⟩ := h7.exec (.learn x) trivial
  have hm := h3.msg y hy
  -- the acknowledged occurrence was the only one
  have hnot : ¬ S1.Outstanding x := by
    rintro ⟨b, j, hat⟩
    have h0 : S0.At b j x ∧ ¬ (b = y.id ∧ j = i) := by
      rw [hS1] at hat
      obtain ⟨ha1, ha2⟩ := hat
      simp only [Notes.ack] at ha1 ha2
      by_cases hb : b = y.id
      · subst hb
        simp only [Function.update_self, Bool.or_eq_false_iff, List.mem_singleton,
          decide_eq_false_iff_not] at ha2
        exact ⟨⟨ha1, ha2.1⟩, fun hh => ha2.2 hh.2⟩
      · rw [Function.update_of_ne hb] at ha2
        exact ⟨⟨ha1, ha2⟩, fun hh => hb hh.1⟩
    obtain ⟨y', hy', he, _, hi⟩ := hcf
    have hacc : S0.At y.id i x := by
      refine ⟨by rw [← hm.2.1]; exact hx, ?_⟩
      rw [h3.acked]
      exact (hi i (by simp)).2.2
    exact h0.2 (h4.uniq x _ _ _ _ h0.1 hacc)
  obtain ⟨rfl, hS2⟩ : r2 = .ok ∧ (S1.add x).MayClose S2 := by
    rcases h11 with ⟨h12, ⟨h13, _⟩ | ⟨_, h13⟩⟩
    · exact absurd h13 hnot
    · exact ⟨h12, h13⟩
  refine ⟨t ++ [(.ack y.id [(i : Int)], .ok)] ++ [(.learn x, .ok)], s2, S1.cur, ?_, S2,
    (S1.note S1.cur).length, ?_, ?_, ?_⟩
  · have : ops ++ [Op.ack y.id [(i : Int)], .learn x] = (ops ++ [.ack y.id [(i : Int)]]) ++ [.learn x] := by
      simp
    rw [this, run_snoc, run_snoc, hr]
    simp [h6, h9]
  · exact (h2.snoc _ _ h8).snoc _ _ h11
  · have hadd : (S1.add x).At S1.cur (S1.note S1.cur).length x := by
      refine ⟨by simp [Notes.add], ?_⟩
      exact h7.ackedCur _ _ (le_refl _)
    rcases hS2 with rfl | ⟨_, rfl⟩
    · exact hadd
    · exact hadd
  · rcases hS2 with rfl | ⟨_, rfl⟩
    · show S1.cur + 1 ≥ S1.cur; omega
    · show S1.cur + 1 ≥ S1.cur + 1; omega

/-! ### The hypotheses are met -/

/-- Buffers of two; five samples with repetitions, a timeout, acknowledgements, a waiting thread. -/
def c27Ops : List (Op Nat) :=
  [.learn 7, .learn 7, .learn 8, .transmit false, .learn 9, .learn 7, .learn 10, .learn 11, .wake,
   .transmitEnd, .wake, .transmit false, .ack 0 [0], .learn 7, .transmitEnd, .transmit true,
   .ackBuffer 1, .transmitEnd, .learn 10, .learn 12, .transmit false]

theorem CarefulRun.snoc {m : Nat} {ops : List (Op T)} {op : Op T} (h : CarefulRun m ops)
    (ho : ∀ t s, run { maxSamples := m } ops = some (t, s) → Careful (seen m t) op) :
    CarefulRun m (ops ++ [op]) := by
  intro pre o suf he t s hr
  rcases List.eq_nil_or_concat suf with rfl | ⟨suf', e, rfl⟩
  · obtain ⟨h1, h2⟩ := List.append_inj' he rfl
    cases h2
    subst h1
    exact ho t s hr
  · have : ops ++ [op] = (pre ++ o :: suf') ++ [e] := by rw [he]; simp
    exact h pre o suf' (List.append_inj' this rfl).1 t s hr

theorem CarefulRun.append {m : Nat} {ops : List (Op T)} (h : CarefulRun m ops) (es : List (Op T))
    (he : ∀ e ∈ es, ∀ V, Careful V e) : CarefulRun m (ops ++ es) := by
  induction es using List.reverseRecOn with
  | nil => simpa using h
  | append_singleton es e ih =>
    rw [← List.append_assoc]
    exact (ih fun e' h' => he e' (by simp [h'])).snoc fun _ _ _ => he e (by simp) _

theorem c27_careful : CarefulRun 2 c27Ops := by
  have h0 : CarefulRun 2 ([] : List (Op Nat)) := by
    intro pre o suf he; simp at he
  have h1 : CarefulRun 2 (c27Ops.take 12) :=
    h0.append (c27Ops.take 12) (by simp [c27Ops, Careful])
  have h2 : CarefulRun 2 (c27Ops.take 12 ++ [.ack 0 [0]]) := by
    refine h1.snoc fun t s hr => ?_
    have hm : (run { maxSamples := 2 } (c27Ops.take 12)).map (fun p => (seen 2 p.1).msgs)
        = some [⟨0, 2, [7, 8]⟩, ⟨1, 3, [9, 10, 11]⟩] := by decide +kernel
    have ha : (run { maxSamples := 2 } (c27Ops.take 12)).map (fun p => (seen 2 p.1).acked 0 0)
        = some false := by decide +kernel
    rw [hr] at hm ha
    simp only [Option.map_some, Option.some.injEq] at hm ha
    refine ⟨⟨0, 2, [7, 8]⟩, by rw [hm]; simp, rfl, by simp, ?_⟩
    intro i hi
    obtain rfl := List.mem_singleton.1 hi
    exact ⟨by omega, by simp, ha⟩
  have h3 : CarefulRun 2 (c27Ops.take 16) :=
    h2.append [.learn 7, .transmitEnd, .transmit true] (by simp [Careful])
  have h4 : CarefulRun 2 (c27Ops.take 16 ++ [.ackBuffer 1]) := by
    refine h3.snoc fun t s hr => ?_
    have hm : (run { maxSamples := 2 } (c27Ops.take 16)).map (fun p => (seen 2 p.1).msgs)
        = some [⟨0, 2, [7, 8]⟩, ⟨1, 3, [9, 10, 11]⟩, ⟨2, 1, [7]⟩] := by decide +kernel
    have ha : (run { maxSamples := 2 } (c27Ops.take 16)).map (fun p => (seen 2 p.1).acked 1)
        = some fun _ => false := rfl
    rw [hr] at hm ha
    simp only [Option.map_some, Option.some.injEq] at hm ha
    exact ⟨⟨1, 3, [9, 10, 11]⟩, by rw [hm]; simp, rfl, Or.inl fun i => by rw [ha]⟩
  exact h4.append [.transmitEnd, .learn 10, .learn 12, .transmit false] (by simp [Careful])

theorem c27_trace : (run { maxSamples := 2 } c27Ops).map (fun p => p.1.filterMap fun e =>
      match e.2 with | .msg y => some y | _ => none)
    = some [⟨0, 2, [7, 8]⟩, ⟨1, 3, [9, 10, 11]⟩, ⟨2, 1, [7]⟩, ⟨3, 2, [10, 12]⟩] := by
  decide +kernel

/-! ### The full statement is false

The statement of C27 also asks that acknowledging any list of samples be safe. -/

/-- Acknowledging a sample twice in one call uses a dangling reference. -/
theorem C27_refuted_twice :
    run { maxSamples := 2 } [.learn 7, .learn 8, .transmit false, .ack 0 [0, 0]] = none := by
  decide +kernel

/-- So does acknowledging it twice in two calls. -/
theorem C27_refuted_again :
    run { maxSamples := 2 } [.learn 7, .learn 8, .transmit false, .ack 0 [0], .ack 0 [0]] = none := by
  decide +kernel

/-- Any further id after the one that completes a notification reads freed memory, even an id that
is out of range. -/
theorem C27_refuted_after_last :
    run { maxSamples := 1 } [.learn 7, .transmit false, .ack 0 [0, 1]] = none := by
  decide +kernel

/-- Acknowledging a whole notification of which one sample was already acknowledged uses a dangling
reference, unless nothing else is outstanding. -/
theorem C27_refuted_buffer :
    run { maxSamples := 2 } [.learn 7, .learn 8, .transmit false, .ack 0 [0], .learn 9,
      .ackBuffer 0] = none := by
  decide +kernel

/-- With nothing else outstanding the fast path saves it. -/
theorem c27_buffer_fast :
    (run { maxSamples := 2 } [.learn 7, .learn 8, .transmit false, .ack 0 [0],
      .ackBuffer 0]).isSome = true := by
  decide +kernel

/-- Acknowledging in the *open* notification (which the controller has not seen) shifts positions:
afterwards position 1 of the message, sample 8, is unknown to the engine, its acknowledgement is
ignored and the sample is not reported again. -/
theorem C27_refuted_open :
    (run { maxSamples := 2 } [.learn 7, .ack 0 [0], .learn 8, .transmit false, .transmitEnd,
      .ack 0 [1], .learn 8, .transmit true]).map (fun p => p.1.map Prod.snd) =
    some [.ok, .ok, .ok, .msg ⟨0, 2, [7, 8]⟩, .ok, .ok, .ok, .waits] := by
  decide +kernel

/-- A reset while a message is being sent changes the buffer under the sender. -/
theorem C27_refuted_reset :
    run { maxSamples := 1 } [.learn 7, .transmit false, .reset] = none := by
  decide +kernel

end Bm.Learn
