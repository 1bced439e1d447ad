import Verif.Spec.EgressThreads
import Verif.Lemmas.QueueingRL
import Verif.Props.Queueing

/-! # No wake-up is lost on egress queues -/

namespace Bm.EgressThreads
open Bm.Queueing (Res QE WInfo Rep)
open Bm.Spec.Queueing Bm.EgressThreads.Spec

variable {T S Op : Type}

/-! ## Steps -/

/-- What a step does. -/
inductive Stepped (B : Buf T S Op) (s : Sys S) : Label Op → Sys S → List (Op × Res T) → Prop
  | call {op r o j} (hx : B.exec s.obj op = some (r, o)) (hk : B.kind op ≠ .pop)
      (hn : ∀ w, B.kind op = .push w → r ≠ .accepted) : Stepped B s (.call op j) { s with obj := o } [(op, r)]
  | push0 {op o w} (hx : B.exec s.obj op = some (.accepted, o)) (hk : B.kind op = .push w)
      (hn : ∀ t ∈ s.threads, t.sleepsOn w = false) : Stepped B s (.call op none) { s with obj := o } [(op, .accepted)]
  | push1 {op o w j d} (hx : B.exec s.obj op = some (.accepted, o)) (hk : B.kind op = .push w)
      (hj : s.threads[j]? = some (.asleep w d)) :
      Stepped B s (.call op (some j)) ({ s with obj := o }.move j (.popping w)) [(op, .accepted)]
  | callPop {i w} (hi : s.threads[i]? = some .idle) : Stepped B s (.callPop i w) (s.move i (.popping w)) []
  | blocked {i w now o} (hi : s.threads[i]? = some (.popping w)) (hx : B.exec s.obj (B.pop w now) = some (.blocked, o)) :
      Stepped B s (.test i now) ({ s with obj := o }.move i (.asleep w (B.alarm o w))) [(B.pop w now, .blocked)]
  | popped {i w now r o} (hi : s.threads[i]? = some (.popping w)) (hx : B.exec s.obj (B.pop w now) = some (r, o)) :
      Stepped B s (.test i now) ({ s with obj := o }.move i .idle) [(B.pop w now, r)]
  | ring {i w d now} (hi : s.threads[i]? = some (.asleep w (some d))) (hd : d ≤ now) :
      Stepped B s (.ring i now) (s.move i (.popping w)) []
  | spurious {i w d} (hi : s.threads[i]? = some (.asleep w d)) : Stepped B s (.spurious i) (s.move i (.popping w)) []

theorem stepped {B : Buf T S Op} {s s' : Sys S} {l : Label Op} {es : List (Op × Res T)}
    (h : s.step B l = some (s', es)) : Stepped B s l s' es := by
  cases l with
  | call op j =>
    simp only [Sys.step] at h
    cases hx : B.exec s.obj op with
    | none => simp [hx] at h
    | some ro =>
      obtain ⟨r, o⟩ := ro
      simp only [hx] at h
      have plain : B.kind op ≠ .pop → (∀ w, B.kind op = .push w → r ≠ .accepted) →
          (if j = none then some (({ s with obj := o } : Sys S), [(op, r)]) else none) = some (s', es) →
          Stepped B s (.call op j) s' es := by
        intro h1 h2 h3
        split at h3
        · obtain ⟨rfl, rfl⟩ := Prod.mk.inj (Option.some.inj h3)
          exact .call hx h1 h2
        · simp at h3
      cases hk : B.kind op with
      | pop => simp [hk] at h
      | other =>
        simp only [hk] at h
        exact plain (by simp [hk]) (by simp [hk]) h
      | push w =>
        simp only [hk] at h
        by_cases hr : r = .accepted
        · subst hr
          cases j with
          | none =>
            simp only [Sys.notify] at h
            split at h
            · simp at h
            · rename_i hn
              obtain ⟨rfl, rfl⟩ := Prod.mk.inj (Option.some.inj h)
              refine .push0 hx hk fun t ht => ?_
              cases hst : t.sleepsOn w with
              | false => rfl
              | true => exact absurd (List.any_eq_true.2 ⟨t, ht, hst⟩) hn
          | some j =>
            simp only [Sys.notify] at h
            cases hj : s.threads[j]? with
            | none => simp [hj] at h
            | some t =>
              cases t with
              | asleep w' d =>
                simp only [hj] at h
                split at h
                · rename_i hw
                  subst hw
                  obtain ⟨rfl, rfl⟩ := Prod.mk.inj (Option.some.inj h)
                  exact .push1 hx hk hj
                · simp at h
              | _ => simp [hj] at h
        · refine plain (by simp [hk]) (fun _ _ => hr) ?_
          cases r <;> first | exact absurd rfl hr | exact h
  | callPop i w =>
    simp only [Sys.step] at h
    cases hi : s.threads[i]? with
    | none => simp [hi] at h
    | some t =>
      cases t with
      | idle =>
        simp only [hi] at h
        obtain ⟨rfl, rfl⟩ := Prod.mk.inj (Option.some.inj h)
        exact .callPop hi
      | _ => simp [hi] at h
  | test i now =>
    simp only [Sys.step] at h
    cases hi : s.threads[i]? with
    | none => simp [hi] at h
    | some t =>
      cases t with
      | popping w =>
        simp only [hi] at h
        cases hx : B.exec s.obj (B.pop w now) with
        | none => simp [hx] at h
        | some ro =>
          obtain ⟨r, o⟩ := ro
          simp only [hx] at h
          cases r <;> obtain ⟨rfl, rfl⟩ := Prod.mk.inj (Option.some.inj h) <;>
            first | exact .blocked hi hx | exact .popped hi hx
      | _ => simp [hi] at h
  | ring i now =>
    simp only [Sys.step] at h
    cases hi : s.threads[i]? with
    | none => simp [hi] at h
    | some t =>
      cases t with
      | asleep w d =>
        cases d with
        | none => simp [hi] at h
        | some d =>
          simp only [hi] at h
          split at h
          · rename_i hd
            obtain ⟨rfl, rfl⟩ := Prod.mk.inj (Option.some.inj h)
            exact .ring hi hd
          · simp at h
      | _ => simp [hi] at h
  | spurious i =>
    simp only [Sys.step] at h
    cases hi : s.threads[i]? with
    | none => simp [hi] at h
    | some t =>
      cases t with
      | asleep w d =>
        simp only [hi] at h
        obtain ⟨rfl, rfl⟩ := Prod.mk.inj (Option.some.inj h)
        exact .spurious hi
      | _ => simp [hi] at h

/-- A step makes no call, or one. -/
theorem Stepped.calls {B : Buf T S Op} {s s' : Sys S} {l : Label Op} {es : List (Op × Res T)}
    (h : Stepped B s l s' es) :
    (es = [] ∧ s'.obj = s.obj) ∨ ∃ op r, es = [(op, r)] ∧ B.exec s.obj op = some (r, s'.obj) := by
  cases h with
  | call hx => exact .inr ⟨_, _, rfl, hx⟩
  | push0 hx => exact .inr ⟨_, _, rfl, hx⟩
  | push1 hx => exact .inr ⟨_, _, rfl, hx⟩
  | callPop => exact .inl ⟨rfl, rfl⟩
  | blocked _ hx => exact .inr ⟨_, _, rfl, hx⟩
  | popped _ hx => exact .inr ⟨_, _, rfl, hx⟩
  | ring => exact .inl ⟨rfl, rfl⟩
  | spurious => exact .inl ⟨rfl, rfl⟩

theorem run_cons {B : Buf T S Op} {s s' : Sys S} {l : Label Op} {ls : List (Label Op)} {es : List (Op × Res T)}
    (h : s.run B (l :: ls) = some (s', es)) :
    ∃ s1 e1 e2, Stepped B s l s1 e1 ∧ s1.run B ls = some (s', e2) ∧ es = e1 ++ e2 := by
  simp only [Sys.run] at h
  cases hs : s.step B l with
  | none => simp [hs] at h
  | some r =>
    obtain ⟨s1, e1⟩ := r
    simp only [hs] at h
    cases hr : s1.run B ls with
    | none => simp [hr] at h
    | some r2 =>
      simp only [hr, Option.map_some] at h
      obtain ⟨rfl, rfl⟩ := Prod.mk.inj (Option.some.inj h)
      exact ⟨s1, e1, r2.2, stepped hs, hr, rfl⟩

/-- The calls of the threads, in the order in which they hold the mutex, are a history of calls. -/
theorem serial {F : Queueing.Fixed} : ∀ (ls : List (Label (Queueing.Op T))) (s s' : Sys (Queueing.State T))
    (es : List (Queueing.Op T × Res T)), s.run (pri F) ls = some (s', es) →
    Queueing.run F s.obj (es.map Prod.fst) = some (es, s'.obj)
  | [], s, s', es, h => by
    obtain ⟨rfl, rfl⟩ := Prod.mk.inj (Option.some.inj h)
    rfl
  | l :: ls, s, s', es, h => by
    obtain ⟨s1, e1, e2, h1, h2, rfl⟩ := run_cons h
    have ih := serial ls s1 s' e2 h2
    rcases h1.calls with ⟨rfl, ho⟩ | ⟨op, r, rfl, hx⟩
    · rw [ho] at ih
      exact ih
    · have hx' : Queueing.exec F s.obj op = some (r, s1.obj) := hx
      simp [Queueing.run, hx', ih]

/-! ## What calls do to the workers -/

theorem getQueue_workers (F : Queueing.Fixed) (s : Queueing.State T) (q : Nat) (t : Int) :
    (Queueing.getQueue F s q t).2.workers = s.workers := by
  simp only [Queueing.getQueue]
  split <;> rfl

theorem forOneQ_workers (F : Queueing.Fixed) (s : Queueing.State T) (q p : Nat) (t : Int)
    (f : Queueing.PriInfo → Queueing.PriInfo) : (Queueing.forOneQ F s q p t f).2.workers = s.workers := by
  simp only [Queueing.forOneQ]
  split
  · exact getQueue_workers F s q t
  · exact getQueue_workers F s q t

theorem exec_other {F : Queueing.Fixed} {s s' : Queueing.State T} {op : Queueing.Op T} {r : Res T}
    (h : Queueing.exec F s op = some (r, s')) (hk : (pri F).kind op ≠ .pop)
    (hn : ∀ w, (pri F : Buf T _ _).kind op = .push w → r ≠ .accepted) : s'.workers = s.workers := by
  cases op with
  | push q p x t0 t1 =>
    have hr := hn _ rfl
    simp only [Queueing.exec, Queueing.push] at h
    have hw := getQueue_workers F s q t0
    split at h
    · obtain ⟨rfl, rfl⟩ := Prod.mk.inj (Option.some.inj h); exact hw
    · split at h
      · obtain ⟨rfl, rfl⟩ := Prod.mk.inj (Option.some.inj h); exact hw
      · split at h
        · obtain ⟨rfl, rfl⟩ := Prod.mk.inj (Option.some.inj h); exact hw
        · split at h
          · simp at h
          · obtain ⟨rfl, rfl⟩ := Prod.mk.inj (Option.some.inj h); exact absurd rfl hr
  | pop w t => exact absurd rfl hk
  | size q => obtain ⟨rfl, rfl⟩ := Prod.mk.inj (Option.some.inj h); rfl
  | sizePri q p => obtain ⟨rfl, rfl⟩ := Prod.mk.inj (Option.some.inj h); rfl
  | setCap q c t => obtain ⟨rfl, rfl⟩ := Prod.mk.inj (Option.some.inj h); exact getQueue_workers F s q t
  | setCapPri q p c t =>
    have := forOneQ_workers F s q p t (Queueing.setCapacityFn c)
    simp only [Queueing.exec, Option.some.injEq] at h
    rw [h] at this
    exact this
  | setCapAll c => obtain ⟨rfl, rfl⟩ := Prod.mk.inj (Option.some.inj h); rfl
  | setRate q c t => obtain ⟨rfl, rfl⟩ := Prod.mk.inj (Option.some.inj h); exact getQueue_workers F s q t
  | setRatePri q p c t =>
    have := forOneQ_workers F s q p t (Queueing.setRateFn F c)
    simp only [Queueing.exec, Option.some.injEq] at h
    rw [h] at this
    exact this
  | setRateAll c => obtain ⟨rfl, rfl⟩ := Prod.mk.inj (Option.some.inj h); rfl

theorem exec_push {F : Queueing.Fixed} {s s' : Queueing.State T} {op : Queueing.Op T} {r : Res T} {w : Nat}
    (h : Queueing.exec F s op = some (r, s')) (hk : (pri F : Buf T _ _).kind op = .push w) {w' : Nat} (hw' : w' ≠ w) :
    s'.workers w' = s.workers w' := by
  cases op with
  | push q p x t0 t1 =>
    obtain rfl : F.worker q = w := by injection hk
    simp only [Queueing.exec, Queueing.push] at h
    have hw := congrFun (getQueue_workers F s q t0) w'
    split at h
    · obtain ⟨rfl, rfl⟩ := Prod.mk.inj (Option.some.inj h); exact hw
    · split at h
      · obtain ⟨rfl, rfl⟩ := Prod.mk.inj (Option.some.inj h); exact hw
      · split at h
        · obtain ⟨rfl, rfl⟩ := Prod.mk.inj (Option.some.inj h); exact hw
        · split at h
          · simp at h
          · obtain ⟨rfl, rfl⟩ := Prod.mk.inj (Option.some.inj h)
            simp only [Function.update_of_ne hw']
            exact hw
  | _ => simp [pri] at hk

theorem pick_mem {wi : WInfo T} {now : Int} : ∀ {n p : Nat} {e : QE T} {l : List (QE T)},
    Queueing.pick wi now n = some (some (p, e, l)) → wi.queues p = e :: l
  | 0, p, e, l, h => by simp [Queueing.pick] at h
  | n + 1, p, e, l, h => by
    simp only [Queueing.pick] at h
    split at h
    · simp at h
    · split at h
      · exact pick_mem h
      · rename_i e' l' hq
        split at h
        · simp only [Option.some.injEq, Prod.mk.injEq] at h
          obtain ⟨rfl, rfl, rfl⟩ := h
          exact hq
        · exact pick_mem h

theorem exec_pop {F : Queueing.Fixed} {s s' : Queueing.State T} {w : Nat} {now : Int} {r : Res T}
    (h : Queueing.exec F s (.pop w now) = some (r, s')) :
    (∀ w', w' ≠ w → s'.workers w' = s.workers w') ∧ (r = .blocked → s' = s) := by
  simp only [Queueing.exec, Queueing.pop] at h
  split at h
  · obtain ⟨rfl, rfl⟩ := Prod.mk.inj (Option.some.inj h); exact ⟨fun _ _ => rfl, fun _ => rfl⟩
  · split at h
    · obtain ⟨rfl, rfl⟩ := Prod.mk.inj (Option.some.inj h); exact ⟨fun _ _ => rfl, fun _ => rfl⟩
    · split at h
      · simp at h
      · obtain ⟨rfl, rfl⟩ := Prod.mk.inj (Option.some.inj h); exact ⟨fun _ _ => rfl, fun _ => rfl⟩
      · split at h
        · obtain ⟨rfl, rfl⟩ := Prod.mk.inj (Option.some.inj h)
          exact ⟨fun w' hw => by simp [Function.update_of_ne hw], fun h => by simp at h⟩
        · obtain ⟨rfl, rfl⟩ := Prod.mk.inj (Option.some.inj h)
          exact ⟨fun w' hw => by simp [Function.update_of_ne hw], fun h => by simp at h⟩

/-! ## Alarms -/

theorem nextTime_le {wi : WInfo T} : ∀ {n p : Nat} {e : QE T},
    (∀ p, (wi.queues p).Pairwise fun a b => a.before b = true) → p < n → e ∈ wi.queues p →
    ∃ d, nextTime wi n = some d ∧ d ≤ e.send
  | n + 1, p, e, hs, hp, he => by
    have head : ∀ {e' : QE T} {l}, wi.queues n = e' :: l → p = n → e'.send ≤ e.send := by
      intro e' l hq hpn
      subst hpn
      have hs' := hs p
      rw [hq] at hs' he
      rcases List.mem_cons.1 he with rfl | he
      · exact le_refl _
      · exact Queueing.QE.before_send ((List.pairwise_cons.1 hs').1 e he)
    simp only [nextTime]
    cases hq : wi.queues n with
    | nil =>
      have : p ≠ n := by rintro rfl; rw [hq] at he; simp at he
      obtain ⟨d, h1, h2⟩ := nextTime_le hs (show p < n by omega) he
      exact ⟨d, by simp [h1], h2⟩
    | cons e' l =>
      by_cases hpn : p = n
      · have h3 := head hq hpn
        cases nextTime wi n with
        | none => exact ⟨e'.send, rfl, h3⟩
        | some d => exact ⟨min e'.send d, rfl, le_trans (min_le_left _ _) h3⟩
      · obtain ⟨d, h1, h2⟩ := nextTime_le hs (show p < n by omega) he
        exact ⟨min e'.send d, by simp [h1], le_trans (min_le_right _ _) h2⟩

theorem alarm_le {F : Queueing.Fixed} {n : Nat} {s : Queueing.State T} {L : Lines T} (h : Rep F n s L) {w p : Nat}
    {e : QE T} (he : e ∈ (s.workers w).queues p) : ∃ d, (pri F).alarm s w = some d ∧ d ≤ e.send := by
  have hp := (h.mine w p e he).2.2
  obtain ⟨d, h1, h2⟩ := nextTime_le (h.sorted w) hp he
  refine ⟨d, ?_, h2⟩
  have : (s.workers w).size ≠ 0 := by
    rw [h.wsize]
    intro h0
    have := (Finset.sum_eq_zero_iff.1 h0) p (Finset.mem_range.2 hp)
    rw [List.length_eq_zero_iff] at this
    rw [this] at he
    simp at he
  simp [pri, this, h1]

/-! ## The invariant -/

/-- Threads serve their own workers, and a sleeping thread has an alarm not later than any element of its worker. -/
structure Inv (F : Queueing.Fixed) (own : Nat → Nat) (s : Sys (Queueing.State T)) : Prop where
  own : ∀ (i w : Nat) (t : TS), s.threads[i]? = some t → (t = .popping w ∨ ∃ d, t = .asleep w d) → i = own w
  alarm : ∀ (w : Nat) (d : Option Int), TS.asleep w d ∈ s.threads → ∀ p, ∀ e ∈ (s.obj.workers w).queues p,
    ∃ d', d = some d' ∧ d' ≤ e.send

theorem getElem_move {s : Sys S} {i j : Nat} {t a b : TS} (hi : s.threads[i]? = some a)
    (h : (s.move i b).threads[j]? = some t) : (j = i ∧ t = b) ∨ (j ≠ i ∧ s.threads[j]? = some t) := by
  have hlt : i < s.threads.length := (List.getElem?_eq_some_iff.1 hi).1
  simp only [Sys.move] at h
  rw [List.getElem?_set] at h
  split at h
  · rename_i hij
    subst hij
    simp only [hlt, if_true, Option.some.injEq] at h
    exact .inl ⟨rfl, h.symm⟩
  · rename_i hij
    exact .inr ⟨fun h => hij h.symm, h⟩

/-- Thread `i`, which serves worker `w`, moves; the object may change at worker `w` only. -/
theorem Inv.move {F : Queueing.Fixed} {own : Nat → Nat} {s : Sys (Queueing.State T)} (h : Inv F own s) {i w : Nat} {a b : TS}
    (hi : s.threads[i]? = some a) (hown : i = own w) (hb : ∀ w', b = .popping w' ∨ (∃ d, b = .asleep w' d) → w' = w)
    {o : Queueing.State T} (ho : ∀ w', w' ≠ w → o.workers w' = s.obj.workers w')
    (hal : ∀ d, b = .asleep w d → ∀ p, ∀ e ∈ (o.workers w).queues p, ∃ d', d = some d' ∧ d' ≤ e.send) :
    Inv F own ({ s with obj := o }.move i b) where
  own := fun j w' t ht hs => by
    rcases getElem_move (s := { s with obj := o }) hi ht with ⟨rfl, rfl⟩ | ⟨hj, ht⟩
    · rw [hb w' hs]; exact hown
    · exact h.own j w' t ht hs
  alarm := fun w' d hd p e he => by
    obtain ⟨j, hj⟩ := List.mem_iff_getElem?.1 hd
    change e ∈ (o.workers w').queues p at he
    rcases getElem_move (s := { s with obj := o }) hi hj with ⟨rfl, hb'⟩ | ⟨hji, ht⟩
    · obtain rfl := hb w' (.inr ⟨d, hb'.symm⟩)
      exact hal d hb'.symm p e he
    · have hne : w' ≠ w := by
        rintro rfl
        exact hji ((h.own j w' _ ht (.inr ⟨d, rfl⟩)).trans hown.symm)
      rw [ho w' hne] at he
      exact h.alarm w' d (List.mem_iff_getElem?.2 ⟨j, ht⟩) p e he

theorem Inv.step {F : Queueing.Fixed} {own : Nat → Nat} {s s' : Sys (Queueing.State T)} {l : Label (Queueing.Op T)}
    {es : List (Queueing.Op T × Res T)} {n : Nat} {L : Lines T} (h : Inv F own s) (hrep : Rep F n s.obj L)
    (hs : Stepped (pri F) s l s' es) (hl : Owned own l) : Inv F own s' := by
  cases hs with
  | call hx hk hn =>
    have := exec_other hx hk hn
    exact ⟨h.own, fun w d hd p e he => h.alarm w d hd p e (by rw [← this]; exact he)⟩
  | @push0 op o w0 hx hk hn =>
    refine ⟨h.own, fun w d hd p e he => ?_⟩
    have hw : w ≠ w0 := fun hw => by
      have := hn _ hd
      simp [TS.sleepsOn, hw] at this
    have := exec_push hx hk hw
    exact h.alarm w d hd p e (by rw [← this]; exact he)
  | push1 hx hk hj =>
    exact h.move hj (h.own _ _ _ hj (.inr ⟨_, rfl⟩)) (fun w' hw => by simpa [eq_comm] using hw)
      (fun w' hw => exec_push hx hk hw) (fun d hd => by simp at hd)
  | callPop hi =>
    exact h.move hi hl (fun w' hw => by simpa [eq_comm] using hw) (fun _ _ => rfl) (fun d hd => by simp at hd)
  | @blocked i w now o hi hx =>
    obtain ⟨h1, h2⟩ := exec_pop hx
    refine h.move hi (h.own _ _ _ hi (.inl rfl)) (fun w' hw => by simpa [eq_comm] using hw) h1 ?_
    intro d hd p e he
    injection hd with _ hd
    obtain rfl := h2 rfl
    rw [← hd]
    exact alarm_le hrep he
  | popped hi hx =>
    exact h.move hi (h.own _ _ _ hi (.inl rfl)) (fun w' hw => by simp at hw) (exec_pop hx).1 (fun d hd => by simp at hd)
  | ring hi =>
    exact h.move hi (h.own _ _ _ hi (.inr ⟨_, rfl⟩)) (fun w' hw => by simpa [eq_comm] using hw) (fun _ _ => rfl)
      (fun d hd => by simp at hd)
  | spurious hi =>
    exact h.move hi (h.own _ _ _ hi (.inr ⟨_, rfl⟩)) (fun w' hw => by simpa [eq_comm] using hw) (fun _ _ => rfl)
      (fun d hd => by simp at hd)

theorem inv_start {F : Queueing.Fixed} {own : Nat → Nat} (o : Queueing.State T) (n : Nat) : Inv F own (start o n) where
  own := fun i w t ht hs => by
    have := List.mem_iff_getElem?.2 ⟨i, ht⟩
    simp only [start, List.mem_replicate] at this
    rcases hs with rfl | ⟨d, rfl⟩ <;> simp at this
  alarm := fun w d hd => by simp [start] at hd

theorem after_append (F : Queueing.Fixed) : ∀ (a b : List (Queueing.Op T × Res T)) (L : Lines T),
    Queueing.after F L (a ++ b) = Queueing.after F (Queueing.after F L a) b
  | [], _, _ => rfl
  | _ :: a, b, L => after_append F a b _

/-- The invariant holds along a run, and the state represents the lines. -/
theorem inv_run {F : Queueing.Fixed} (hpri : F.nbPri ≤ 32) {own : Nat → Nat} :
    ∀ (ls : List (Label (Queueing.Op T))) (s s' : Sys (Queueing.State T)) (es : List (Queueing.Op T × Res T))
      (n : Nat) (L : Lines T), s.run (pri F) ls = some (s', es) → (∀ l ∈ ls, Owned own l) → Inv F own s →
      Rep F n s.obj L → n + es.length < 2 ^ 64 →
      Inv F own s' ∧ Rep F (n + es.length) s'.obj (Queueing.after F L es)
  | [], s, s', es, n, L, h, _, hi, hr, _ => by
    obtain ⟨rfl, rfl⟩ := Prod.mk.inj (Option.some.inj h)
    exact ⟨hi, hr⟩
  | l :: ls, s, s', es, n, L, h, hl, hi, hr, hn => by
    obtain ⟨s1, e1, e2, h1, h2, rfl⟩ := run_cons h
    have hi1 := hi.step hr h1 (hl l (by simp))
    rw [List.length_append] at hn
    rw [after_append, List.length_append, ← Nat.add_assoc]
    refine inv_run hpri ls s1 s' e2 _ _ h2 (fun l' hl' => hl l' (by simp [hl'])) hi1 ?_ (by omega)
    rcases h1.calls with ⟨rfl, ho⟩ | ⟨op, r, rfl, hx⟩
    · rw [ho]; exact hr
    · simp only [List.length_cons, List.length_nil] at hn
      obtain ⟨r', o', hx', _, hr'⟩ := hr.exec (by omega) hpri op
      have hx2 : Queueing.exec F s.obj op = some (r, s1.obj) := hx
      rw [hx2] at hx'
      obtain ⟨rfl, rfl⟩ := Prod.mk.inj (Option.some.inj hx')
      exact hr'

/-! ## `QueueingLogicRL` -/

/-- The same step of the class with priorities. -/
def Label.pri : Label (QueueingRL.Op T) → Label (Queueing.Op T)
  | .call op j => .call op.pri j
  | .callPop i w => .callPop i w
  | .test i now => .test i now
  | .ring i now => .ring i now
  | .spurious i => .spurious i

theorem kind_pri (F : QueueingRL.Fixed) (op : QueueingRL.Op T) :
    (EgressThreads.pri F.pri : Buf T _ _).kind op.pri = (rl F : Buf T _ _).kind op := by cases op <;> rfl

theorem alarm_pri {F : QueueingRL.Fixed} {s : QueueingRL.State T} {u : Queueing.State T} (h : QueueingRL.Sim s u)
    (w : Nat) : (EgressThreads.pri F.pri).alarm u w = (rl F).alarm s w := by
  simp only [EgressThreads.pri, rl, QueueingRL.alarm, h.wsize, QueueingRL.Fixed.pri, nextTime, h.queue]
  cases (s.workers w).queue <;> simp

/-- The same threads on objects that hold the same. -/
structure Same (s : Sys (QueueingRL.State T)) (u : Sys (Queueing.State T)) : Prop where
  sim : QueueingRL.Sim s.obj u.obj
  threads : u.threads = s.threads

theorem Same.notify {s : Sys (QueueingRL.State T)} {u : Sys (Queueing.State T)} (h : Same s u) (w : Nat) (j : Option Nat) :
    (s.notify w j = none ∧ u.notify w j = none) ∨
      ∃ s' u', s.notify w j = some s' ∧ u.notify w j = some u' ∧ Same s' u' := by
  cases j with
  | none =>
    simp only [Sys.notify, h.threads]
    split
    · exact .inl ⟨rfl, rfl⟩
    · exact .inr ⟨_, _, rfl, rfl, h⟩
  | some j =>
    simp only [Sys.notify, h.threads]
    split
    · split
      · exact .inr ⟨_, _, rfl, rfl, h.sim, by simp [Sys.move, h.threads]⟩
      · exact .inl ⟨rfl, rfl⟩
    · exact .inl ⟨rfl, rfl⟩

/-- Calls and results, for the class with priorities. -/
abbrev priEvents (es : List (QueueingRL.Op T × Res T)) : List (Queueing.Op T × Res T) :=
  es.map fun x => (x.1.pri, x.2)

theorem Same.step {F : QueueingRL.Fixed} {s s' : Sys (QueueingRL.State T)} {u : Sys (Queueing.State T)}
    {l : Label (QueueingRL.Op T)} {es : List (QueueingRL.Op T × Res T)} (h : Same s u)
    (hs : s.step (rl F) l = some (s', es)) :
    ∃ u', u.step (EgressThreads.pri F.pri) l.pri = some (u', priEvents es) ∧ Same s' u' := by
  have key : ∀ op : QueueingRL.Op T, ∃ u', (EgressThreads.pri F.pri).exec u.obj op.pri
      = some ((QueueingRL.exec F s.obj op).1, u') ∧ QueueingRL.Sim (QueueingRL.exec F s.obj op).2 u' :=
    fun op => h.sim.exec op
  cases l with
  | call op j =>
    obtain ⟨o, hx, ho⟩ := key op
    simp only [Sys.step, Label.pri, hx, kind_pri] at hs ⊢
    have hr : (rl F : Buf T _ _).exec s.obj op = some ((QueueingRL.exec F s.obj op).1, (QueueingRL.exec F s.obj op).2) := rfl
    rw [hr] at hs
    generalize (QueueingRL.exec F s.obj op).1 = r at *
    generalize (QueueingRL.exec F s.obj op).2 = s1 at *
    have hsame : Same { s with obj := s1 } { u with obj := o } := ⟨ho, h.threads⟩
    have plain : (if j = none then some (({ s with obj := s1 } : Sys _), [(op, r)]) else none) = some (s', es) →
        ∃ u', (if j = none then some (({ u with obj := o } : Sys (Queueing.State T)), [(op.pri, r)]) else none)
          = some (u', priEvents es) ∧ Same s' u' := by
      intro h3
      split at h3
      · rename_i hj
        obtain ⟨rfl, rfl⟩ := Prod.mk.inj (Option.some.inj h3)
        exact ⟨_, by rw [if_pos hj]; rfl, hsame⟩
      · simp at h3
    cases hk : (rl F : Buf T _ _).kind op with
    | pop => simp [hk] at hs
    | other =>
      simp only [hk] at hs ⊢
      exact plain hs
    | push w =>
      simp only [hk] at hs ⊢
      by_cases hr : r = .accepted
      · subst hr
        rcases hsame.notify w j with ⟨h1, h2⟩ | ⟨s2, u2, h1, h2, h3⟩
        · simp [h1] at hs
        · simp only [h1, h2, Option.map_some, Option.some.injEq, Prod.mk.injEq] at hs ⊢
          obtain ⟨rfl, rfl⟩ := hs
          exact ⟨u2, ⟨rfl, rfl⟩, h3⟩
      · cases r <;> first | exact absurd rfl hr | exact plain hs
  | callPop i w =>
    simp only [Sys.step, Label.pri, h.threads] at hs ⊢
    split at hs
    · obtain ⟨rfl, rfl⟩ := Prod.mk.inj (Option.some.inj hs)
      exact ⟨_, rfl, h.sim, by simp [Sys.move, h.threads]⟩
    · simp at hs
  | test i now =>
    simp only [Sys.step, Label.pri, h.threads] at hs ⊢
    split at hs
    · rename_i w hi
      obtain ⟨o, hx, ho⟩ := key (.pop w now)
      have hx' : (EgressThreads.pri F.pri).exec u.obj ((EgressThreads.pri F.pri : Buf T _ _).pop w now)
          = some ((QueueingRL.exec F s.obj (.pop w now)).1, o) := hx
      have hr : (rl F : Buf T _ _).exec s.obj ((rl F : Buf T _ _).pop w now)
          = some ((QueueingRL.exec F s.obj (.pop w now)).1, (QueueingRL.exec F s.obj (.pop w now)).2) := rfl
      rw [hr] at hs
      rw [hx']
      generalize (QueueingRL.exec F s.obj (.pop w now)).1 = r at *
      generalize (QueueingRL.exec F s.obj (.pop w now)).2 = s1 at *
      cases r with
      | blocked =>
        obtain ⟨rfl, rfl⟩ := Prod.mk.inj (Option.some.inj hs)
        exact ⟨_, rfl, ho, by simp [Sys.move, h.threads, alarm_pri (F := F) ho]⟩
      | _ =>
        obtain ⟨rfl, rfl⟩ := Prod.mk.inj (Option.some.inj hs)
        exact ⟨_, rfl, ho, by simp [Sys.move, h.threads]⟩
    · simp at hs
  | ring i now =>
    simp only [Sys.step, Label.pri, h.threads] at hs ⊢
    split at hs
    · split at hs
      · rename_i hd
        obtain ⟨rfl, rfl⟩ := Prod.mk.inj (Option.some.inj hs)
        simp only [hd, if_true]
        exact ⟨_, rfl, h.sim, by simp [Sys.move, h.threads]⟩
      · simp at hs
    · simp at hs
  | spurious i =>
    simp only [Sys.step, Label.pri, h.threads] at hs ⊢
    split at hs
    · obtain ⟨rfl, rfl⟩ := Prod.mk.inj (Option.some.inj hs)
      exact ⟨_, rfl, h.sim, by simp [Sys.move, h.threads]⟩
    · simp at hs

theorem Same.run {F : QueueingRL.Fixed} : ∀ (ls : List (Label (QueueingRL.Op T))) {s s' : Sys (QueueingRL.State T)}
    {u : Sys (Queueing.State T)} {es : List (QueueingRL.Op T × Res T)}, Same s u → s.run (rl F) ls = some (s', es) →
    ∃ u', u.run (EgressThreads.pri F.pri) (ls.map Label.pri) = some (u', priEvents es) ∧ Same s' u'
  | [], s, s', u, es, h, hr => by
    obtain ⟨rfl, rfl⟩ := Prod.mk.inj (Option.some.inj hr)
    exact ⟨u, rfl, h⟩
  | l :: ls, s, s', u, es, h, hr => by
    simp only [Sys.run] at hr
    cases hs : s.step (rl F) l with
    | none => simp [hs] at hr
    | some r =>
      obtain ⟨s1, e1⟩ := r
      simp only [hs] at hr
      cases hr1 : s1.run (rl F) ls with
      | none => simp [hr1] at hr
      | some r2 =>
        simp only [hr1, Option.map_some] at hr
        obtain ⟨rfl, rfl⟩ := Prod.mk.inj (Option.some.inj hr)
        obtain ⟨u1, h1, h2⟩ := h.step hs
        obtain ⟨u2, h3, h4⟩ := Same.run ls h2 (show s1.run (rl F) ls = some (r2.1, r2.2) from hr1)
        exact ⟨u2, by simp [Sys.run, h1, h3], h4⟩

theorem serialRL {F : QueueingRL.Fixed} : ∀ (ls : List (Label (QueueingRL.Op T))) (s s' : Sys (QueueingRL.State T))
    (es : List (QueueingRL.Op T × Res T)), s.run (rl F) ls = some (s', es) →
    QueueingRL.run F s.obj (es.map Prod.fst) = (es, s'.obj)
  | [], s, s', es, h => by
    obtain ⟨rfl, rfl⟩ := Prod.mk.inj (Option.some.inj h)
    rfl
  | l :: ls, s, s', es, h => by
    obtain ⟨s1, e1, e2, h1, h2, rfl⟩ := run_cons h
    have ih := serialRL ls s1 s' e2 h2
    rcases h1.calls with ⟨rfl, ho⟩ | ⟨op, r, rfl, hx⟩
    · rw [ho] at ih
      exact ih
    · have hx' : QueueingRL.exec F s.obj op = (r, s1.obj) := Option.some.inj hx
      simp [QueueingRL.run, hx', ih]

end Bm.EgressThreads
