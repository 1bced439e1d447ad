import Verif.Lemmas.Queueing

/-! # The egress queues implement waiting lines: departures and settings -/

namespace Bm.Queueing

open Spec.Queueing

variable {T : Type}

/-- No packet with this priority is ready at the worker. -/
def Idle (wi : WInfo T) (now : Int) (p : Nat) : Prop := ∀ e ∈ wi.queues p, now < e.send

theorem idle_of_head {wi : WInfo T} {now p} (hs : (wi.queues p).Pairwise fun a b => a.before b = true)
    (h : ∀ e l, wi.queues p = e :: l → ¬ e.send ≤ now) : Idle wi now p := by
  intro e he
  cases hq : wi.queues p with
  | nil => rw [hq] at he; simp at he
  | cons f l =>
    rw [hq] at he hs
    have hf := h f l hq
    rw [List.pairwise_cons] at hs
    rcases List.mem_cons.1 he with rfl | he
    · omega
    · have := QE.before_send (hs.1 e he)
      omega

theorem pick_spec (wi : WInfo T) (now : Int)
    (hs : ∀ p, (wi.queues p).Pairwise fun a b => a.before b = true) (k : Nat) (hk : k ≤ 32) :
    (pick wi now k = some none ∧ ∀ p < k, Idle wi now p) ∨
    (∃ p e l, pick wi now k = some (some (p, e, l)) ∧ p < k ∧ wi.queues p = e :: l ∧ e.send ≤ now ∧
      ∀ p', p < p' → p' < k → Idle wi now p') := by
  induction k with
  | zero => left; exact ⟨rfl, fun p hp => by omega⟩
  | succ k ih =>
    have hrec : ∀ (_ : pick wi now (k + 1) = pick wi now k) (_ : Idle wi now k),
        (pick wi now (k + 1) = some none ∧ ∀ p < k + 1, Idle wi now p) ∨
        (∃ p e l, pick wi now (k + 1) = some (some (p, e, l)) ∧ p < k + 1 ∧ wi.queues p = e :: l ∧
          e.send ≤ now ∧ ∀ p', p < p' → p' < k + 1 → Idle wi now p') := by
      intro he hid
      rw [he]
      rcases ih (by omega) with ⟨h1, h2⟩ | ⟨p, e, l, h1, h2, h3, h4, h5⟩
      · left
        refine ⟨h1, fun p hp => ?_⟩
        by_cases hpk : p = k
        · subst hpk; exact hid
        · exact h2 p (by omega)
      · right
        refine ⟨p, e, l, h1, by omega, h3, h4, fun p' hp1 hp2 => ?_⟩
        by_cases hpk : p' = k
        · subst hpk; exact hid
        · exact h5 p' hp1 (by omega)
    cases hq : wi.queues k with
    | nil =>
      refine hrec ?_ ?_
      · rw [pick, if_neg (by omega), hq]
      · intro e he; rw [hq] at he; simp at he
    | cons e l =>
      by_cases hsend : e.send ≤ now
      · right
        refine ⟨k, e, l, ?_, by omega, hq, hsend, fun p' h1 h2 => by omega⟩
        rw [pick, if_neg (by omega), hq]
        simp [hsend]
      · refine hrec ?_ ?_
        · rw [pick, if_neg (by omega), hq]
          simp [hsend]
        · refine idle_of_head (hs k) fun e' l' he' => ?_
          rw [hq] at he'
          obtain ⟨rfl, rfl⟩ := List.cons.inj he'
          exact hsend

/-- Packets in the lines served by worker `w` are those in its priority queues. -/
theorem Rep.mem_line {F : Fixed} {n s} {S : Lines T} (h : Rep F n s S) {q p : Nat} {x : T} {t : Int} :
    (x, t) ∈ S.line q p ↔
      ∃ e ∈ (s.workers (F.worker q)).queues p, e.qid = q ∧ e.e = x ∧ e.send = t := by
  rw [← h.lines q p, List.mem_map]
  constructor
  · rintro ⟨e, he, heq⟩
    rw [List.mem_filter] at he
    obtain ⟨rfl, rfl⟩ := Prod.mk.inj heq
    exact ⟨e, he.1, by simpa using he.2, rfl, rfl⟩
  · rintro ⟨e, he, h1, rfl, rfl⟩
    exact ⟨e, List.mem_filter.2 ⟨he, by simpa using h1⟩, rfl⟩

theorem Rep.not_ready {F : Fixed} {n s} {S : Lines T} (h : Rep F n s S) {now : Int} {q p : Nat}
    (hi : p < F.nbPri → Idle (s.workers (F.worker q)) now p) : ¬ S.Ready q p now := by
  rintro ⟨x, t, hm, ht⟩
  obtain ⟨e, he, h1, h2, h3⟩ := h.mem_line.1 hm
  have := hi (h.mine _ _ e he).2.2 e he
  omega

theorem Rep.pop {F : Fixed} {n s} {S : Lines T} (h : Rep F n s S) (hpri : F.nbPri ≤ 32)
    (w : Nat) (now : Int) :
    ∃ r s', Queueing.pop F s w now = some (r, s') ∧ Ok F S (.pop w now) r ∧
      Rep F (n + 1) s' (effect F S (.pop w now) r) := by
  simp only [Queueing.pop]
  by_cases hw : F.nbWorkers ≤ w
  · simp only [hw, if_true]
    exact ⟨_, _, rfl, Or.inl ⟨rfl, hw⟩, h.mono⟩
  simp only [hw, if_false]
  by_cases hz : (s.workers w).size = 0
  · simp only [hz, if_true]
    refine ⟨_, _, rfl, Or.inr ⟨by omega, Or.inl ⟨rfl, ?_⟩⟩, h.mono⟩
    intro q p hq
    subst hq
    refine h.not_ready fun hp => ?_
    have h2 := h.wsize (F.worker q)
    rw [hz] at h2
    have := (Finset.sum_eq_zero_iff.1 h2.symm) p (Finset.mem_range.2 hp)
    rw [List.length_eq_zero_iff] at this
    intro e he
    rw [this] at he; simp at he
  simp only [hz, if_false]
  rcases pick_spec (s.workers w) now (h.sorted w) F.nbPri hpri with
    ⟨h1, h2⟩ | ⟨p, e, l, h1, h2, h3, h4, h5⟩
  · simp only [h1]
    refine ⟨_, _, rfl, Or.inr ⟨by omega, Or.inl ⟨rfl, ?_⟩⟩, h.mono⟩
    intro q p hq
    subst hq
    exact h.not_ready fun hp => h2 p hp
  simp only [h1]
  have hmem : e ∈ (s.workers w).queues p := by rw [h3]; simp
  obtain ⟨hwk, _, _⟩ := h.mine w p e hmem
  have hline : S.line e.qid p = (e.e, e.send) ::
      ((l.filter fun e' => e'.qid = e.qid).map fun e => (e.e, e.send)) := by
    rw [← h.lines e.qid p, hwk, h3]
    simp
  have hinfo := h.info e.qid
  cases hf : s.queues.find? e.qid with
  | none =>
    rw [hf] at hinfo
    have := hinfo.2.1 p
    rw [hline] at this
    simp at this
  | some i =>
  rw [hf] at hinfo
  obtain ⟨a, b, c, d, esz⟩ := hinfo
  simp only
  refine ⟨_, _, rfl, Or.inr ⟨by omega, Or.inr ⟨_, _, _, rfl, hwk, ⟨e.send, ?_, h4, ?_⟩, ?_⟩⟩, ?_⟩
  · rw [hline]; rfl
  · intro q' x' s' hq' hm
    obtain ⟨f, hfm, h6, h7, h8⟩ := h.mem_line.1 hm
    rw [hq', h3] at hfm
    have hsort := h.sorted w p
    rw [h3, List.pairwise_cons] at hsort
    rcases List.mem_cons.1 hfm with rfl | hfm
    · omega
    · have := QE.before_send (hsort.1 f hfm)
      omega
  · intro q' p' hq' hp'
    subst hq'
    exact h.not_ready fun hp => h5 p' hp' hp
  -- the state afterwards
  have hcs : 0 < (i.pri p).size := by rw [b, hline]; simp
  have hsz : 0 < i.size := by
    rw [esz, Lines.count]
    have := Finset.single_le_sum (f := fun p => (S.line e.qid p).length) (fun _ _ => Nat.zero_le _)
      (Finset.mem_range.2 h2)
    simp only [hline, List.length_cons] at this
    omega
  have hsub : ∀ p' f, f ∈ (Function.update (s.workers w).queues p l) p' →
      f ∈ (s.workers w).queues p' := by
    intro p' f hfm
    by_cases hp' : p' = p
    · subst hp'
      simp only [Function.update_self] at hfm
      rw [h3]; simp [hfm]
    · simpa [Function.update_of_ne hp'] using hfm
  simp only [effect, Lines.leave]
  refine ⟨?_, ?_, ?_, ?_, ?_, ?_, ?_, ?_⟩
  · intro w' p'
    by_cases hww : w' = w
    · subst hww
      simp only [Function.update_self]
      by_cases hp' : p' = p
      · subst hp'
        simp only [Function.update_self]
        have := h.sorted w' p'
        rw [h3] at this
        exact this.of_cons
      · simp only [Function.update_of_ne hp']
        exact h.sorted _ _
    · simp only [Function.update_of_ne hww]
      exact h.sorted _ _
  · intro w' p' f hfm
    by_cases hww : w' = w
    · subst hww
      simp only [Function.update_self] at hfm ⊢
      exact h.ids _ _ f (hsub _ _ hfm)
    · simp only [Function.update_of_ne hww] at hfm ⊢
      exact h.ids _ _ f hfm
  · intro w'
    have := h.cnt w'
    by_cases hww : w' = w
    · subst hww
      simp only [Function.update_self]
      omega
    · simp only [Function.update_of_ne hww]
      omega
  · intro w' p' f hfm
    by_cases hww : w' = w
    · subst hww
      simp only [Function.update_self] at hfm
      exact h.mine _ _ f (hsub _ _ hfm)
    · simp only [Function.update_of_ne hww] at hfm
      exact h.mine _ _ f hfm
  · intro q' p'
    by_cases hqq : q' = e.qid
    · subst hqq
      simp only [hwk, Function.update_self, upd2_q]
      by_cases hp' : p' = p
      · subst hp'
        simp only [Function.update_self, if_true, hline, List.tail_cons]
      · simp only [Function.update_of_ne hp', hp', if_false]
        rw [← h.lines, hwk]
    · dsimp only
      rw [upd2_of_ne _ _ _ hqq, ← h.lines q' p']
      by_cases hww : F.worker q' = w
      · rw [hww]
        simp only [Function.update_self]
        by_cases hp' : p' = p
        · subst hp'
          simp only [Function.update_self, h3]
          rw [List.filter_cons_of_neg (by simpa using Ne.symm hqq)]
        · simp only [Function.update_of_ne hp']
      · simp only [Function.update_of_ne hww]
  · intro q' la hl p' y hy
    simp only at hl hy
    by_cases hqq : q' = e.qid
    · subst hqq
      rw [upd2_q] at hy
      by_cases hp' : p' = p
      · subst hp'
        simp only [if_true] at hy
        exact h.bounded _ la hl _ y (List.mem_of_mem_tail hy)
      · simp only [hp', if_false] at hy
        exact h.bounded _ la hl _ y hy
    · rw [upd2_of_ne _ _ _ hqq] at hy
      exact h.bounded q' la hl p' y hy
  · intro q'
    simp only
    rw [UMap.find_modify]
    by_cases hqq : q' = e.qid
    · subst hqq
      simp only [if_true, hf, Option.map_some, InfoOk, upd2_q]
      refine ⟨?_, ?_, ?_, ?_, ?_⟩
      · rw [a]
        congr 1
        funext p'
        by_cases hp' : p' = p
        · subst hp'; simp
        · simp [Function.update_of_ne hp']
      · intro p'
        by_cases hp' : p' = p
        · subst hp'
          simp only [Function.update_self, if_true, dec, b, hline, List.length_cons, List.tail_cons]
          simp
        · simp [Function.update_of_ne hp', hp', b]
      · intro p'
        by_cases hp' : p' = p
        · subst hp'; simp [c]
        · simp [Function.update_of_ne hp', c]
      · intro p'
        by_cases hp' : p' = p
        · subst hp'; simp [d]
        · simp [Function.update_of_ne hp', d]
      · simp only [dec, if_neg (Nat.pos_iff_ne_zero.1 hsz)]
        rw [esz]
        have := sum_upd (f := fun p' => (S.line e.qid p').length)
          (g := fun p' => (upd2 S.line e.qid p (S.line e.qid p).tail e.qid p').length)
          (n := F.nbPri) (p := p) h2 (fun p' hp' => by simp [upd2_q, hp'])
        simp only [upd2_self, hline, List.length_cons, List.tail_cons] at this
        simp only [Lines.count, hline, List.tail_cons] at this ⊢
        omega
    · simp only [hqq, if_false]
      refine (h.info q').congr rfl ?_ rfl rfl rfl rfl
      funext p'; exact upd2_of_ne _ _ _ hqq
  · intro w'
    by_cases hww : w' = w
    · subst hww
      simp only [Function.update_self, dec, if_neg hz]
      have := sum_upd (f := fun p' => ((s.workers w').queues p').length)
        (g := fun p' => (Function.update (s.workers w').queues p l p').length)
        (n := F.nbPri) (p := p) h2 (fun p' hp' => by simp [Function.update_of_ne hp'])
      simp only [Function.update_self, h3, List.length_cons] at this
      have h6 := h.wsize w'
      omega
    · simp only [Function.update_of_ne hww]
      exact h.wsize w'

/-- A setting that concerns all priorities of one queue. -/
theorem Rep.forEachQ {F : Fixed} {n s} {S : Lines T} (h : Rep F n s S) (q : Nat) (t : Int)
    (f : PriInfo → PriInfo) (S' : Lines T)
    (hf : ∀ i, (f i).size = i.size ∧ (f i).lastSent = i.lastSent)
    (hl : S'.line = S.line) (hla : S'.last = (S.touch q t).last)
    (ho : ∀ q', q' ≠ q → S'.depth q' = S.depth q' ∧ S'.interval q' = S.interval q')
    (hq : ∀ i p, i.capacity = S.depth q p → i.delay = S.interval q p →
      (f i).capacity = S'.depth q p ∧ (f i).delay = S'.interval q p) :
    Rep F n (Queueing.forEachQ F s q t f) S' := by
  obtain ⟨i, s1, hg, h1, hfd, hw, hc, hr⟩ := h.getQueue q t
  simp only [Queueing.forEachQ, hg]
  refine h1.withQueues rfl hl ?_ ?_
  · rw [hla]; exact h1.bounded
  · intro q'
    simp only
    rw [UMap.find_modify]
    by_cases hqq : q' = q
    · subst hqq
      have hi := h1.info q'
      rw [hfd] at hi
      obtain ⟨a, b, c, d, e⟩ := hi
      simp only [if_true, hfd, Option.map_some, InfoOk, hf, hla, a, hl, Lines.count, true_and]
      exact ⟨b, fun p => (hq _ p (c p) (d p)).1, fun p => (hq _ p (c p) (d p)).2, e⟩
    · simp only [hqq, if_false]
      exact (h1.info q').congr (by rw [hla]) (by rw [hl]; rfl) (ho q' hqq).1 (ho q' hqq).2 rfl rfl

/-- A setting that concerns one priority of one queue. -/
theorem Rep.forOneQ {F : Fixed} {n s} {S : Lines T} (h : Rep F n s S) (q p : Nat) (t : Int)
    (f : PriInfo → PriInfo) (S' : Lines T)
    (hf : ∀ i, (f i).size = i.size ∧ (f i).lastSent = i.lastSent)
    (hl : S'.line = S.line) (hla : S'.last = (S.touch q t).last)
    (ho : ∀ q' p', q' ≠ q ∨ p' ≠ p →
      S'.depth q' p' = S.depth q' p' ∧ S'.interval q' p' = S.interval q' p')
    (hq : ∀ i, i.capacity = S.depth q p → i.delay = S.interval q p →
      (f i).capacity = S'.depth q p ∧ (f i).delay = S'.interval q p) :
    ∃ r s', Queueing.forOneQ F s q p t f = (r, s') ∧
      ((p < F.nbPri ∧ r = .done ∧ Rep F n s' S') ∨
       (¬ p < F.nbPri ∧ r = .throws ∧ Rep F n s' (S.touch q t))) := by
  obtain ⟨i, s1, hg, h1, hfd, hw, hc, hr⟩ := h.getQueue q t
  simp only [Queueing.forOneQ, hg]
  by_cases hp : F.nbPri ≤ p
  · simp only [hp, if_true]
    exact ⟨_, _, rfl, Or.inr ⟨by omega, rfl, h1⟩⟩
  simp only [hp, if_false]
  refine ⟨_, _, rfl, Or.inl ⟨by omega, rfl, h1.withQueues rfl hl ?_ ?_⟩⟩
  · rw [hla]; exact h1.bounded
  · intro q'
    simp only
    rw [UMap.find_modify]
    by_cases hqq : q' = q
    · subst hqq
      have hi := h1.info q'
      rw [hfd] at hi
      obtain ⟨a, b, c, d, e⟩ := hi
      have key : ∀ p', (Function.update i.pri p (f (i.pri p)) p').size = (S.line q' p').length ∧
          (Function.update i.pri p (f (i.pri p)) p').lastSent = (i.pri p').lastSent ∧
          (Function.update i.pri p (f (i.pri p)) p').capacity = S'.depth q' p' ∧
          (Function.update i.pri p (f (i.pri p)) p').delay = S'.interval q' p' := by
        intro p'
        by_cases hp' : p' = p
        · subst hp'
          simp only [Function.update_self, hf]
          exact ⟨b p', trivial, hq _ (c p') (d p')⟩
        · simp only [Function.update_of_ne hp']
          rw [(ho q' p' (Or.inr hp')).1, (ho q' p' (Or.inr hp')).2]
          exact ⟨b p', trivial, c p', d p'⟩
      simp only [if_true, hfd, Option.map_some, InfoOk, hla, a, hl, Lines.count, key]
      exact ⟨trivial, fun _ => trivial, fun _ => trivial, fun _ => trivial, e⟩
    · simp only [hqq, if_false]
      refine (h1.info q').congr (by rw [hla]) (by rw [hl]; rfl) ?_ ?_ rfl rfl
      · funext p'; exact (ho q' p' (Or.inl hqq)).1
      · funext p'; exact (ho q' p' (Or.inl hqq)).2

theorem touch_last (S : Lines T) (q : Nat) (t : Int) :
    (S.touch q t).last = Function.update S.last q (some ((S.last q).getD fun _ => t)) := rfl

/-- Every call returns what the lines require and keeps the representation. -/
theorem Rep.exec {F : Fixed} {n s} {S : Lines T} (h : Rep F n s S) (hn : n + 1 < 2 ^ 64)
    (hpri : F.nbPri ≤ 32) (op : Op T) :
    ∃ r s', exec F s op = some (r, s') ∧ Ok F S op r ∧ Rep F (n + 1) s' (effect F S op r) := by
  cases op with
  | push q p x t0 t1 => exact h.push hn hpri q p x t0 t1
  | pop w t => exact h.pop hpri w t
  | size q =>
    refine ⟨_, _, rfl, ?_, h.mono⟩
    have hi := h.info q
    cases hf : s.queues.find? q with
    | none =>
      rw [hf] at hi
      simp [Ok, Queueing.size, hf, Lines.count, hi.2.1]
    | some i =>
      rw [hf] at hi
      simp [Ok, Queueing.size, hf, hi.2.2.2.2]
  | sizePri q p =>
    refine ⟨_, _, rfl, ?_, h.mono⟩
    have hi := h.info q
    cases hf : s.queues.find? q with
    | none =>
      rw [hf] at hi
      simp [Ok, Queueing.sizePri, hf, hi.2.1, hi.1]
    | some i =>
      rw [hf] at hi
      by_cases hp : F.nbPri ≤ p
      · simp [Ok, Queueing.sizePri, hf, hi.1, hp]
      · simp [Ok, Queueing.sizePri, hf, hi.1, hp, hi.2.1]
        omega
  | setCap q c t =>
    refine ⟨_, _, rfl, rfl, Rep.mono ?_⟩
    refine h.forEachQ q t _ _ (fun i => ⟨rfl, rfl⟩) rfl rfl ?_ ?_
    · intro q' hq'
      simp [effect, Function.update_of_ne hq']
    · intro i p h1 h2
      simp [setCapacityFn, effect, h2]
  | setRate q pps t =>
    refine ⟨_, _, rfl, rfl, Rep.mono ?_⟩
    refine h.forEachQ q t _ _ (fun i => ⟨rfl, rfl⟩) rfl rfl ?_ ?_
    · intro q' hq'
      simp [effect, Function.update_of_ne hq']
    · intro i p h1 h2
      simp [setRateFn, effect, h1]
  | setCapPri q p c t =>
    obtain ⟨r, s', h1, h2⟩ := h.forOneQ q p t (setCapacityFn c)
      { S.touch q t with depth := upd2 S.depth q p c } (fun i => ⟨rfl, rfl⟩) rfl rfl
      (by
        intro q' p' hor
        refine ⟨?_, rfl⟩
        dsimp only
        by_cases hq' : q' = q
        · subst hq'
          rw [upd2_q, if_neg]
          rcases hor with h | h
          · exact absurd rfl h
          · exact h
        · exact upd2_of_ne _ _ _ hq')
      (fun i h1 h2 => ⟨by simp [setCapacityFn, upd2_self], h2⟩)
    refine ⟨r, s', by simp [Queueing.exec, h1], ?_⟩
    rcases h2 with ⟨a, rfl, b⟩ | ⟨a, rfl, b⟩
    · exact ⟨by simp [Ok, a], b.mono⟩
    · exact ⟨by simp [Ok, a], b.mono⟩
  | setRatePri q p pps t =>
    obtain ⟨r, s', h1, h2⟩ := h.forOneQ q p t (setRateFn F pps)
      { S.touch q t with interval := upd2 S.interval q p (F.ticks pps) } (fun i => ⟨rfl, rfl⟩) rfl rfl
      (by
        intro q' p' hor
        refine ⟨rfl, ?_⟩
        dsimp only
        by_cases hq' : q' = q
        · subst hq'
          rw [upd2_q, if_neg]
          rcases hor with h | h
          · exact absurd rfl h
          · exact h
        · exact upd2_of_ne _ _ _ hq')
      (fun i h1 h2 => ⟨h1, by simp [setRateFn, upd2_self]⟩)
    refine ⟨r, s', by simp [Queueing.exec, h1], ?_⟩
    rcases h2 with ⟨a, rfl, b⟩ | ⟨a, rfl, b⟩
    · exact ⟨by simp [Ok, a], b.mono⟩
    · exact ⟨by simp [Ok, a], b.mono⟩
  | setCapAll c =>
    refine ⟨_, _, rfl, rfl, Rep.mono ?_⟩
    refine h.withQueues rfl rfl h.bounded ?_
    intro q
    have hi := h.info q
    simp only [forAll, UMap.find_mapAll]
    cases hf : s.queues.find? q with
    | none =>
      rw [hf] at hi
      exact ⟨hi.1, hi.2.1, fun _ => rfl, hi.2.2.2⟩
    | some i =>
      rw [hf] at hi
      exact ⟨hi.1, hi.2.1, fun _ => rfl, hi.2.2.2.1, hi.2.2.2.2⟩
  | setRateAll c =>
    refine ⟨_, _, rfl, rfl, Rep.mono ?_⟩
    refine h.withQueues rfl rfl h.bounded ?_
    intro q
    have hi := h.info q
    simp only [forAll, UMap.find_mapAll]
    cases hf : s.queues.find? q with
    | none =>
      rw [hf] at hi
      exact ⟨hi.1, hi.2.1, hi.2.2.1, fun _ => rfl⟩
    | some i =>
      rw [hf] at hi
      exact ⟨hi.1, hi.2.1, hi.2.2.1, fun _ => rfl, hi.2.2.2.2⟩

end Bm.Queueing
