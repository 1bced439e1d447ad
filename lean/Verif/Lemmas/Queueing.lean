import Verif.Model.Queueing
import Verif.Spec.Queueing
import Mathlib.Algebra.Order.BigOperators.Group.Finset

/-! # The egress queues implement waiting lines -/

namespace Bm.Queueing

open Spec.Queueing

variable {T : Type}

/-! ## The priority queue -/

theorem QE.before_trans {a b c : QE T} (h : a.before b = true) (h' : b.before c = true) :
    a.before c = true := by
  simp only [QE.before] at *
  split at h <;> split at h' <;> simp_all <;> first | omega | (split <;> omega)

theorem QE.before_total {a b : QE T} (h : ¬ a.before b = true) (hid : b.id ≠ a.id) :
    b.before a = true := by
  simp only [QE.before] at *
  split at h <;> simp_all <;> first | omega | (split <;> omega)

theorem QE.before_send {a b : QE T} (h : a.before b = true) : a.send ≤ b.send := by
  simp only [QE.before] at h
  split at h <;> simp_all <;> omega

theorem mem_emplace (x y : QE T) (l : List (QE T)) : y ∈ emplace x l ↔ y = x ∨ y ∈ l := by
  induction l with
  | nil => simp [emplace]
  | cons z l ih =>
    rw [emplace]
    split
    · simp
    · simp only [List.mem_cons, ih]; tauto

theorem emplace_length (x : QE T) (l : List (QE T)) : (emplace x l).length = l.length + 1 := by
  induction l with
  | nil => rfl
  | cons z l ih => rw [emplace]; split <;> simp [ih]

theorem emplace_sorted (x : QE T) (l : List (QE T)) (hs : l.Pairwise fun a b => a.before b = true)
    (hid : ∀ y ∈ l, y.id ≠ x.id) : (emplace x l).Pairwise fun a b => a.before b = true := by
  induction l with
  | nil => simp [emplace]
  | cons z l ih =>
    rw [List.pairwise_cons] at hs
    rw [emplace]
    split
    · rename_i h
      rw [List.pairwise_cons]
      refine ⟨fun y hy => ?_, List.pairwise_cons.2 hs⟩
      rcases List.mem_cons.1 hy with rfl | hy
      · exact h
      · exact QE.before_trans h (hs.1 y hy)
    · rename_i h
      rw [List.pairwise_cons]
      refine ⟨fun y hy => ?_, ih hs.2 fun y hy => hid y (by simp [hy])⟩
      rcases (mem_emplace _ _ _).1 hy with rfl | hy
      · exact QE.before_total h (hid z (by simp))
      · exact hs.1 y hy

theorem emplace_filter_other (x : QE T) (l : List (QE T)) (q : Nat) (h : x.qid ≠ q) :
    (emplace x l).filter (fun e => e.qid = q) = l.filter fun e => e.qid = q := by
  induction l with
  | nil => simp [emplace, h]
  | cons z l ih =>
    rw [emplace]
    split
    · simp [h]
    · simp only [List.filter_cons, ih]

theorem emplace_filter_same (x : QE T) (l : List (QE T))
    (hs : l.Pairwise fun a b => a.before b = true)
    (hb : ∀ y ∈ l, y.qid = x.qid → y.before x = true) :
    (emplace x l).filter (fun e => e.qid = x.qid) = l.filter (fun e => e.qid = x.qid) ++ [x] := by
  induction l with
  | nil => simp [emplace]
  | cons z l ih =>
    rw [List.pairwise_cons] at hs
    have hasym : ∀ a b : QE T, a.before b = true → b.before a = true → False := by
      intro a b h h'
      simp only [QE.before] at h h'
      split at h <;> split at h' <;> simp_all <;> omega
    rw [emplace]
    split
    · rename_i h
      have hnone : ∀ y ∈ z :: l, y.qid ≠ x.qid := by
        intro y hy he
        have h1 := hb y hy he
        rcases List.mem_cons.1 hy with rfl | hy
        · exact hasym _ _ h h1
        · exact hasym _ _ (QE.before_trans h (hs.1 y hy)) h1
      have : (z :: l).filter (fun e => decide (e.qid = x.qid)) = [] := by
        rw [List.filter_eq_nil_iff]
        intro y hy
        simpa using hnone y hy
      rw [List.filter_cons, this]
      simp
    · simp only [List.filter_cons, ih hs.2 fun y hy => hb y (by simp [hy])]
      split <;> simp

/-! ## Effect of the calls on the lines -/

/-- What a call with a given result does to the lines. -/
def effect (F : Fixed) (S : Lines T) : Op T → Res T → Lines T
  | .push q p x t0 t1, .accepted => (S.touch q t0).join q p x t1
  | .push q _ _ t0 _, _ => S.touch q t0
  | .pop _ _, .item q p _ => S.leave q p
  | .pop _ _, _ => S
  | .size _, _ => S
  | .sizePri _ _, _ => S
  | .setCap q c t, _ =>
    { S.touch q t with depth := Function.update S.depth q fun _ => c }
  | .setCapPri q p c t, .done => { S.touch q t with depth := upd2 S.depth q p c }
  | .setCapPri q _ _ t, _ => S.touch q t
  | .setCapAll c, _ => { S with depth := fun _ _ => c }
  | .setRate q pps t, _ =>
    { S.touch q t with interval := Function.update S.interval q fun _ => F.ticks pps }
  | .setRatePri q p pps t, .done => { S.touch q t with interval := upd2 S.interval q p (F.ticks pps) }
  | .setRatePri q _ _ t, _ => S.touch q t
  | .setRateAll pps, _ => { S with interval := fun _ _ => F.ticks pps }

/-- What a call has to return. -/
def Ok (F : Fixed) (S : Lines T) : Op T → Res T → Prop
  | .push q p _ _ _, r =>
    (r = .throws ∧ (F.nbWorkers ≤ F.worker q ∨ F.nbPri ≤ p)) ∨
    (F.worker q < F.nbWorkers ∧ p < F.nbPri ∧
      ((r = .refused ∧ S.depth q p ≤ (S.line q p).length) ∨
       (r = .accepted ∧ (S.line q p).length < S.depth q p)))
  | .pop w t, r =>
    (r = .throws ∧ F.nbWorkers ≤ w) ∨
    (w < F.nbWorkers ∧
      ((r = .blocked ∧ ∀ q p, F.worker q = w → ¬ S.Ready q p t) ∨
       (∃ q p x, r = .item q p x ∧ S.Next (fun q => F.worker q = w) t q p x)))
  | .size q, r => r = .size (S.count F.nbPri q)
  | .sizePri q p, r =>
    (r = .throws ∧ F.nbPri ≤ p ∧ S.last q ≠ none) ∨
    (r = .size (S.line q p).length ∧ (p < F.nbPri ∨ S.last q = none))
  | .setCapPri _ p _ _, r => r = if p < F.nbPri then .done else .throws
  | .setRatePri _ p _ _, r => r = if p < F.nbPri then .done else .throws
  | _, r => r = .done

/-- What is known about one queue. -/
def InfoOk (F : Fixed) (s : State T) (S : Lines T) (q : Nat) : Option QInfo → Prop
  | none => S.last q = none ∧ (∀ p, S.line q p = []) ∧ (∀ p, S.depth q p = s.capacity) ∧
      ∀ p, S.interval q p = F.ticks s.rate
  | some i => S.last q = some (fun p => (i.pri p).lastSent) ∧
      (∀ p, (i.pri p).size = (S.line q p).length) ∧ (∀ p, (i.pri p).capacity = S.depth q p) ∧
      (∀ p, (i.pri p).delay = S.interval q p) ∧ i.size = S.count F.nbPri q

/-- The state represents the lines; at most `n` packets have been accepted. -/
structure Rep (F : Fixed) (n : Nat) (s : State T) (S : Lines T) : Prop where
  sorted : ∀ w p, ((s.workers w).queues p).Pairwise fun a b => a.before b = true
  ids : ∀ w p, ∀ e ∈ (s.workers w).queues p, e.id < (s.workers w).counter
  cnt : ∀ w, (s.workers w).counter ≤ n
  mine : ∀ w p, ∀ e ∈ (s.workers w).queues p,
    F.worker e.qid = w ∧ w < F.nbWorkers ∧ p < F.nbPri
  lines : ∀ q p, (((s.workers (F.worker q)).queues p).filter fun e => e.qid = q).map
    (fun e => (e.e, e.send)) = S.line q p
  bounded : ∀ q l, S.last q = some l → ∀ p, ∀ x ∈ S.line q p, x.2 ≤ l p
  info : ∀ q, InfoOk F s S q (s.queues.find? q)
  wsize : ∀ w, (s.workers w).size
    = ∑ p ∈ Finset.range F.nbPri, ((s.workers w).queues p).length

theorem Rep.mono {F : Fixed} {n s} {S : Lines T} (h : Rep F n s S) : Rep F (n + 1) s S :=
  { h with cnt := fun w => by have := h.cnt w; omega }

/-- Changing only the book-keeping of queue `q`. -/
theorem Rep.withQueues {F : Fixed} {n} {s s' : State T} {S S' : Lines T} (h : Rep F n s S)
    (hw : s'.workers = s.workers) (hl : S'.line = S.line)
    (hb : ∀ q l, S'.last q = some l → ∀ p, ∀ x ∈ S.line q p, x.2 ≤ l p)
    (hi : ∀ q, InfoOk F s' S' q (s'.queues.find? q)) : Rep F n s' S' where
  sorted := by rw [hw]; exact h.sorted
  ids := by rw [hw]; exact h.ids
  cnt := by rw [hw]; exact h.cnt
  mine := by rw [hw]; exact h.mine
  lines := by rw [hw, hl]; exact h.lines
  bounded := by rw [hl]; exact hb
  info := hi
  wsize := by rw [hw]; exact h.wsize

theorem Rep.getQueue {F : Fixed} {n s} {S : Lines T} (h : Rep F n s S) (q : Nat) (t : Int) :
    ∃ i s', getQueue F s q t = (i, s') ∧ Rep F n s' (S.touch q t) ∧
      s'.queues.find? q = some i ∧ s'.workers = s.workers ∧ s'.capacity = s.capacity ∧
      s'.rate = s.rate := by
  have hq := h.info q
  cases hf : s.queues.find? q with
  | some i =>
    rw [hf] at hq
    obtain ⟨a, b, c, d, e⟩ := hq
    have hS : S.touch q t = S := by
      cases S
      simp only [Lines.touch] at a ⊢
      simp [a]
    refine ⟨i, s, by simp [Queueing.getQueue, hf], ?_, hf, rfl, rfl, rfl⟩
    rw [hS]; exact h
  | none =>
    rw [hf] at hq
    obtain ⟨a, b, c, d⟩ := hq
    refine ⟨_, _, by simp only [Queueing.getQueue, hf]; rfl, ?_⟩
    refine ⟨?_, ?_, rfl, rfl, rfl⟩
    · refine h.withQueues rfl rfl ?_ ?_
      · intro q' l hl p x hx
        by_cases hqq : q' = q
        · subst hqq; rw [b] at hx; simp at hx
        · simp only [Lines.touch, Function.update_of_ne hqq] at hl
          exact h.bounded q' l hl p x hx
      · intro q'
        simp only
        rw [UMap.find_insert _ _ _ hf]
        by_cases hqq : q' = q
        · subst hqq
          simp only [if_true, InfoOk, Lines.touch, Function.update_self, a, Option.getD_none, b,
            List.length_nil, c, d, Lines.count, Finset.sum_const_zero, and_self, implies_true]
        · simp only [hqq, if_false]
          have := h.info q'
          cases hf' : s.queues.find? q' with
          | none =>
            rw [hf'] at this
            simpa [InfoOk, Lines.touch, Function.update_of_ne hqq] using this
          | some i =>
            rw [hf'] at this
            simpa [InfoOk, Lines.touch, Function.update_of_ne hqq, Lines.count] using this
    · simp [UMap.find_insert _ _ _ hf]

@[simp] theorem touch_line (S : Lines T) (q : Nat) (t : Int) : (S.touch q t).line = S.line := rfl
@[simp] theorem touch_depth (S : Lines T) (q : Nat) (t : Int) : (S.touch q t).depth = S.depth := rfl
@[simp] theorem touch_interval (S : Lines T) (q : Nat) (t : Int) :
    (S.touch q t).interval = S.interval := rfl

theorem upd2_self {α : Type} (f : Nat → Nat → α) (q p : Nat) (v : α) : upd2 f q p v q p = v := by
  simp [upd2]

theorem upd2_q {α : Type} (f : Nat → Nat → α) (q p p' : Nat) (v : α) :
    upd2 f q p v q p' = if p' = p then v else f q p' := by
  simp [upd2, Function.update_apply]

theorem upd2_of_ne {α : Type} (f : Nat → Nat → α) {q p q' : Nat} (p' : Nat) (v : α) (h : q' ≠ q) :
    upd2 f q p v q' p' = f q' p' := by
  simp [upd2, Function.update_of_ne h]

theorem sum_upd {f g : Nat → Nat} {n p : Nat} (hp : p < n) (hne : ∀ p', p' ≠ p → g p' = f p') :
    (∑ i ∈ Finset.range n, g i) + f p = (∑ i ∈ Finset.range n, f i) + g p := by
  have hm : p ∈ Finset.range n := Finset.mem_range.2 hp
  rw [← Finset.add_sum_erase _ _ hm, ← Finset.add_sum_erase _ f hm]
  have : ∑ x ∈ (Finset.range n).erase p, g x = ∑ x ∈ (Finset.range n).erase p, f x :=
    Finset.sum_congr rfl fun x hx => hne x (Finset.ne_of_mem_erase hx)
  rw [this]; omega

/-- `q_info` of another queue is not concerned. -/
theorem InfoOk.congr {F : Fixed} {s s' : State T} {S S' : Lines T} {q o} (h : InfoOk F s S q o)
    (h1 : S'.last q = S.last q) (h2 : S'.line q = S.line q) (h3 : S'.depth q = S.depth q)
    (h4 : S'.interval q = S.interval q) (h5 : s'.capacity = s.capacity) (h6 : s'.rate = s.rate) :
    InfoOk F s' S' q o := by
  cases o <;> simp_all [InfoOk, Lines.count]

theorem Rep.push {F : Fixed} {n s} {S : Lines T} (h : Rep F n s S) (hn : n + 1 < 2 ^ 64)
    (hpri : F.nbPri ≤ 32) (q p : Nat) (x : T) (t0 t1 : Int) :
    ∃ r s', Queueing.push F s q p x t0 t1 = some (r, s') ∧ Ok F S (.push q p x t0 t1) r ∧
      Rep F (n + 1) s' (effect F S (.push q p x t0 t1) r) := by
  obtain ⟨i, s1, hg, h1, hf, hw, hc, hr⟩ := h.getQueue q t0
  simp only [Queueing.push, hg]
  by_cases hwk : F.nbWorkers ≤ F.worker q
  · simp only [hwk, if_true]
    exact ⟨_, _, rfl, Or.inl ⟨rfl, Or.inl hwk⟩, h1.mono⟩
  simp only [hwk, if_false]
  by_cases hpp : F.nbPri ≤ p
  · simp only [hpp, if_true]
    exact ⟨_, _, rfl, Or.inl ⟨rfl, Or.inr hpp⟩, h1.mono⟩
  simp only [hpp, if_false]
  have hi := h1.info q
  rw [hf] at hi
  obtain ⟨a, b, c, d, e⟩ := hi
  simp only [touch_line, touch_depth, touch_interval] at b c d
  by_cases hfull : (i.pri p).size ≥ (i.pri p).capacity
  · simp only [hfull, if_true]
    refine ⟨_, _, rfl, Or.inr ⟨by omega, by omega, Or.inl ⟨rfl, ?_⟩⟩, h1.mono⟩
    rw [← b, ← c]; exact hfull
  simp only [hfull, if_false, show ¬ 32 ≤ p by omega]
  refine ⟨_, _, rfl, Or.inr ⟨by omega, by omega, Or.inr ⟨rfl, ?_⟩⟩, ?_⟩
  · rw [← b, ← c]; omega
  -- the packet joins
  have hsent : (S.touch q t0).sched q p t1 = max t1 ((i.pri p).lastSent + (i.pri p).delay) := by
    simp only [Lines.sched, a, Option.getD_some, touch_interval, d]
  simp only [effect, Lines.join, hsent, a, Option.getD_some]
  generalize hS : (max t1 ((i.pri p).lastSent + (i.pri p).delay)) = sent
  have hlast : (i.pri p).lastSent ≤ sent := by
    rw [← hS]
    have : (0 : Int) ≤ ((i.pri p).delay : Int) := Int.natCast_nonneg _
    omega
  have hin : ∀ y ∈ (s1.workers (F.worker q)).queues p, y.qid = q →
      y.send ≤ (i.pri p).lastSent := by
    intro y hy hyq
    have hmem : (y.e, y.send) ∈ S.line q p := by
      rw [← touch_line S q t0, ← h1.lines q p]
      exact List.mem_map.2 ⟨y, List.mem_filter.2 ⟨hy, by simp [hyq]⟩, rfl⟩
    exact h1.bounded q _ a p _ hmem
  have hids := h1.ids (F.worker q) p
  refine ⟨?_, ?_, ?_, ?_, ?_, ?_, ?_, ?_⟩
  · intro w p'
    by_cases hww : w = F.worker q
    · subst hww
      simp only [Function.update_self]
      by_cases hp' : p' = p
      · subst hp'
        simp only [Function.update_self]
        exact emplace_sorted _ _ (h1.sorted _ _) fun y hy => by have := hids y hy; simp; omega
      · simp only [Function.update_of_ne hp']
        exact h1.sorted _ _
    · simp only [Function.update_of_ne hww]
      exact h1.sorted _ _
  · intro w p' y hy
    by_cases hww : w = F.worker q
    · subst hww
      have hcn := h1.cnt (F.worker q)
      simp only [Function.update_self] at hy ⊢
      rw [Nat.mod_eq_of_lt (by omega)]
      by_cases hp' : p' = p
      · subst hp'
        simp only [Function.update_self, mem_emplace] at hy
        rcases hy with rfl | hy
        · simp
        · have := hids y hy; omega
      · simp only [Function.update_of_ne hp'] at hy
        have := h1.ids _ _ y hy; omega
    · simp only [Function.update_of_ne hww] at hy ⊢
      exact h1.ids _ _ y hy
  · intro w
    by_cases hww : w = F.worker q
    · subst hww
      have hcn := h1.cnt (F.worker q)
      simp only [Function.update_self]
      rw [Nat.mod_eq_of_lt (by omega)]
      omega
    · simp only [Function.update_of_ne hww]
      have := h1.cnt w; omega
  · intro w p' y hy
    by_cases hww : w = F.worker q
    · subst hww
      simp only [Function.update_self] at hy
      by_cases hp' : p' = p
      · subst hp'
        simp only [Function.update_self, mem_emplace] at hy
        rcases hy with rfl | hy
        · exact ⟨rfl, by omega, by omega⟩
        · exact h1.mine _ _ y hy
      · simp only [Function.update_of_ne hp'] at hy
        exact h1.mine _ _ y hy
    · simp only [Function.update_of_ne hww] at hy
      exact h1.mine _ _ y hy
  · intro q' p'
    by_cases hqq : q' = q
    · subst hqq
      simp only [Function.update_self, upd2_q]
      by_cases hp' : p' = p
      · subst hp'
        simp only [Function.update_self, if_true]
        rw [emplace_filter_same (⟨x, q', sent, (s1.workers (F.worker q')).counter⟩ : QE T) _
          (h1.sorted _ _) (fun y hy hyq => by
            have h2 := hin y hy hyq
            have h3 := hids y hy
            simp only [QE.before]
            split
            · simpa using h3
            · rename_i hne
              simp only [decide_eq_true_eq]
              omega)]
        rw [List.map_append, h1.lines]
        simp
      · simp only [Function.update_of_ne hp', hp', if_false]
        exact h1.lines _ _
    · dsimp only
      rw [upd2_of_ne _ _ _ hqq, ← h1.lines q' p']
      by_cases hww : F.worker q' = F.worker q
      · rw [hww]
        simp only [Function.update_self]
        by_cases hp' : p' = p
        · subst hp'
          simp only [Function.update_self]
          rw [emplace_filter_other _ _ _ (by simpa using Ne.symm hqq)]
        · simp only [Function.update_of_ne hp']
      · simp only [Function.update_of_ne hww]
  · intro q' l hl p' y hy
    simp only at hl hy
    by_cases hqq : q' = q
    · subst hqq
      simp only [Function.update_self, Option.some.injEq] at hl
      subst hl
      rw [upd2_q] at hy
      by_cases hp' : p' = p
      · subst hp'
        simp only [if_true, List.mem_append, List.mem_singleton] at hy
        simp only [Function.update_self]
        rcases hy with hy | rfl
        · have := h1.bounded q' _ a p' y hy
          omega
        · exact Int.le_refl _
      · simp only [hp', if_false] at hy
        simp only [Function.update_of_ne hp']
        exact h1.bounded q' _ a p' y hy
    · simp only [Function.update_of_ne hqq] at hl
      rw [upd2_of_ne _ _ _ hqq] at hy
      exact h1.bounded q' l hl p' y hy
  · intro q'
    simp only
    rw [UMap.find_modify]
    by_cases hqq : q' = q
    · subst hqq
      simp only [if_true, hf, Option.map_some, InfoOk, Function.update_self, upd2_q]
      refine ⟨?_, ?_, ?_, ?_, ?_⟩
      · congr 1
        funext p'
        by_cases hp' : p' = p
        · subst hp'; simp
        · simp [Function.update_of_ne hp']
      · intro p'
        by_cases hp' : p' = p
        · subst hp'; simp [b]
        · simp [Function.update_of_ne hp', hp', b]
      · intro p'
        by_cases hp' : p' = p
        · subst hp'; simp [c]
        · simp [Function.update_of_ne hp', c]
      · intro p'
        by_cases hp' : p' = p
        · subst hp'; simp [d]
        · simp [Function.update_of_ne hp', d]
      · rw [e]
        have := sum_upd (f := fun p' => (S.line q' p').length)
          (g := fun p' => (upd2 S.line q' p (S.line q' p ++ [(x, sent)]) q' p').length)
          (n := F.nbPri) (p := p) (by omega) (fun p' hp' => by simp [upd2_q, hp'])
        simp only [upd2_self, List.length_append, List.length_singleton] at this
        simp only [Lines.count, touch_line] at this ⊢
        omega
    · simp only [hqq, if_false]
      refine (h1.info q').congr ?_ ?_ rfl rfl rfl rfl
      · simp [Function.update_of_ne hqq]
      · funext p'; exact upd2_of_ne _ _ _ hqq
  · intro w
    by_cases hww : w = F.worker q
    · subst hww
      simp only [Function.update_self]
      have := sum_upd (f := fun p' => ((s1.workers (F.worker q)).queues p').length)
        (g := fun p' => (Function.update (s1.workers (F.worker q)).queues p
          (emplace ⟨x, q, sent, (s1.workers (F.worker q)).counter⟩
            ((s1.workers (F.worker q)).queues p)) p').length)
        (n := F.nbPri) (p := p) (by omega) (fun p' hp' => by simp [Function.update_of_ne hp'])
      simp only [Function.update_self, emplace_length] at this
      have h2 := h1.wsize (F.worker q)
      omega
    · simp only [Function.update_of_ne hww]
      exact h1.wsize w

end Bm.Queueing
