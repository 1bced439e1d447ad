import Verif.Model.QueueingRL
import Verif.Lemmas.QueueingStep

/-! # `QueueingLogicRL` behaves like `QueueingLogicPriRL` with one priority -/

namespace Bm.QueueingRL
open Bm.Queueing (QE emplace dec Res)

variable {T : Type}

/-- The same workers and rates, one priority. -/
def Fixed.pri (F : Fixed) : Queueing.Fixed :=
  { nbWorkers := F.nbWorkers, nbPri := 1, worker := F.worker, ticks := F.ticks }

/-- The same call, with priority 0. -/
def Op.pri : Op T → Queueing.Op T
  | .push q x t0 t1 => .push q 0 x t0 t1
  | .pop w t => .pop w t
  | .size q => .size q
  | .setCap q c t => .setCap q c t
  | .setCapAll c => .setCapAll c
  | .setRate q pps t => .setRate q pps t
  | .setRateAll pps => .setRateAll pps

/-- The book-keeping of one queue in the two classes. -/
def SimI : Option Info → Option Queueing.QInfo → Prop
  | none, none => True
  | some i, some j => (j.pri 0).size = i.size ∧ (j.pri 0).capacity = i.capacity ∧ (j.pri 0).delay = i.delay ∧
      (j.pri 0).lastSent = i.lastSent ∧ j.size = i.size
  | _, _ => False

/-- The two objects hold the same. -/
structure Sim (s : State T) (u : Queueing.State T) : Prop where
  capacity : u.capacity = s.capacity
  rate : u.rate = s.rate
  queues : ∀ q, SimI (s.queues.find? q) (u.queues.find? q)
  queue : ∀ w, (u.workers w).queues 0 = (s.workers w).queue
  counter : ∀ w, (u.workers w).counter = (s.workers w).counter
  wsize : ∀ w, (u.workers w).size = (s.workers w).queue.length
  known : ∀ w, ∀ e ∈ (s.workers w).queue, (s.queues.find? e.qid).isSome = true

theorem Sim.getQueue {F : Fixed} {s : State T} {u : Queueing.State T} (h : Sim s u) (q : Nat) (t : Int) :
    ∃ i s' j u', getQueue F s q t = (i, s') ∧ Queueing.getQueue F.pri u q t = (j, u') ∧ Sim s' u' ∧
      s'.queues.find? q = some i ∧ u'.queues.find? q = some j ∧ SimI (some i) (some j) := by
  have hq := h.queues q
  cases hs : s.queues.find? q with
  | some i =>
    cases hu : u.queues.find? q with
    | none => rw [hs, hu] at hq; exact hq.elim
    | some j =>
      rw [hs, hu] at hq
      exact ⟨i, s, j, u, by simp [QueueingRL.getQueue, hs], by simp [Queueing.getQueue, hu], h, hs, hu, hq⟩
  | none =>
    cases hu : u.queues.find? q with
    | some j => rw [hs, hu] at hq; exact hq.elim
    | none =>
      refine ⟨_, _, _, _, by simp only [QueueingRL.getQueue, hs]; rfl, by simp only [Queueing.getQueue, hu]; rfl, ?_,
        by simp [UMap.find_insert _ _ _ hs], by simp [UMap.find_insert _ _ _ hu], ?_⟩
      · refine ⟨h.capacity, h.rate, fun q' => ?_, h.queue, h.counter, h.wsize, ?_⟩
        swap
        · intro w e he
          simp only
          rw [UMap.find_insert _ _ _ hs]
          have := h.known w e he
          by_cases hq' : e.qid = q <;> simp_all
        simp only
        rw [UMap.find_insert _ _ _ hs, UMap.find_insert _ _ _ hu]
        by_cases hq' : q' = q
        · simp [hq', SimI, h.capacity, h.rate, Fixed.pri]
        · simpa [hq'] using h.queues q'
      · simp [SimI, h.capacity, h.rate, Fixed.pri]

theorem Sim.modify {s : State T} {u : Queueing.State T} (h : Sim s u) {q : Nat} {i i' : Info} {j j' : Queueing.QInfo}
    (hs : s.queues.find? q = some i) (hu : u.queues.find? q = some j) (hi : SimI (some i') (some j'))
    {ws : Nat → WInfo T} {wu : Nat → Queueing.WInfo T} (h1 : ∀ w, (wu w).queues 0 = (ws w).queue)
    (h2 : ∀ w, (wu w).counter = (ws w).counter) (h3 : ∀ w, (wu w).size = (ws w).queue.length)
    (h4 : ∀ w, ∀ e ∈ (ws w).queue, e.qid = q ∨ ∃ w', e ∈ (s.workers w').queue) :
    Sim { s with queues := s.queues.modify q fun _ => i', workers := ws }
      { u with queues := u.queues.modify q fun _ => j', workers := wu } where
  capacity := h.capacity
  rate := h.rate
  queues := fun q' => by
    simp only
    rw [UMap.find_modify, UMap.find_modify]
    by_cases hq : q' = q
    · subst hq
      simpa [hs, hu] using hi
    · simpa [hq] using h.queues q'
  queue := h1
  counter := h2
  wsize := h3
  known := fun w e he => by
    simp only
    rw [UMap.find_modify]
    rcases h4 w e he with hq | ⟨w', hw'⟩
    · simp [hq, hs]
    · have := h.known w' e hw'
      by_cases hq : e.qid = q <;> simp_all

theorem Sim.push {F : Fixed} {s : State T} {u : Queueing.State T} (h : Sim s u) (q : Nat) (x : T) (t0 t1 : Int) :
    ∃ u', Queueing.push F.pri u q 0 x t0 t1 = some ((push F s q x t0 t1).1, u') ∧ Sim (push F s q x t0 t1).2 u' := by
  obtain ⟨i, s', j, u', h1, h2, h3, h4, h5, a, b, c, d, e⟩ := h.getQueue (F := F) q t0
  simp only [QueueingRL.push, Queueing.push, h1, h2]
  simp only [Fixed.pri] at *
  by_cases hw : F.nbWorkers ≤ F.worker q
  · exact ⟨u', by simp [hw], by simpa [hw] using h3⟩
  · simp only [hw, if_false, a, b, c, d]
    rw [if_neg (show ¬ (1 : Nat) ≤ 0 by omega)]
    by_cases hf : i.size ≥ i.capacity
    · exact ⟨u', by simp [hf], by simpa [hf] using h3⟩
    · simp only [hf, if_false]
      rw [if_neg (show ¬ 32 ≤ 0 by omega)]
      refine ⟨_, rfl, ?_⟩
      refine h3.modify h4 h5 ?_ ?_ ?_ ?_ ?_
      · simp [SimI, b, c, e]
      · intro w
        by_cases hww : w = F.worker q
        · subst hww; simp [h3.queue, h3.counter]
        · simp [Function.update_of_ne hww, h3.queue]
      · intro w
        by_cases hww : w = F.worker q
        · subst hww; simp [h3.counter]
        · simp [Function.update_of_ne hww, h3.counter]
      · intro w
        by_cases hww : w = F.worker q
        · subst hww; simp [h3.wsize, Queueing.emplace_length]
        · simp [Function.update_of_ne hww, h3.wsize]
      · intro w e he
        by_cases hww : w = F.worker q
        · subst hww
          simp only [Function.update_self, Queueing.mem_emplace] at he
          rcases he with rfl | he
          · exact Or.inl rfl
          · exact Or.inr ⟨_, he⟩
        · rw [Function.update_of_ne hww] at he
          exact Or.inr ⟨_, he⟩

theorem Sim.pop {F : Fixed} {s : State T} {u : Queueing.State T} (h : Sim s u) (w : Nat) (now : Int) :
    ∃ u', Queueing.pop F.pri u w now = some ((pop F s w now).1, u') ∧ Sim (pop F s w now).2 u' := by
  simp only [QueueingRL.pop, Queueing.pop]
  by_cases hw : F.nbWorkers ≤ w
  · exact ⟨u, by simp [hw, Fixed.pri], by simpa [hw] using h⟩
  · have hp : F.pri.nbWorkers = F.nbWorkers := rfl
    simp only [hp, hw, if_false, h.wsize]
    have hq := h.queue w
    cases hl : (s.workers w).queue with
    | nil => exact ⟨u, by simp, by simpa using h⟩
    | cons e l =>
      rw [hl] at hq
      rw [if_neg (by simp)]
      simp only [Fixed.pri, Queueing.pick, hq]
      rw [if_neg (show ¬ 32 ≤ 0 by omega)]
      by_cases ht : e.send ≤ now
      · simp only [ht, if_true]
        have hi := h.queues e.qid
        cases hs : s.queues.find? e.qid with
        | none =>
          have := h.known w e (by simp [hl])
          simp [hs] at this
        | some i =>
          cases hu : u.queues.find? e.qid with
          | none => rw [hs, hu] at hi; exact hi.elim
          | some j =>
            rw [hs, hu] at hi
            obtain ⟨a, b, c, d, e'⟩ := hi
            refine ⟨_, rfl, ?_⟩
            refine h.modify hs hu ?_ ?_ ?_ ?_ ?_
            · simp [SimI, a, b, c, d, e']
            · intro w'
              by_cases hww : w' = w
              · subst hww; simp
              · simp [Function.update_of_ne hww, h.queue]
            · intro w'
              by_cases hww : w' = w
              · subst hww; simp [h.counter]
              · simp [Function.update_of_ne hww, h.counter]
            · intro w'
              by_cases hww : w' = w
              · subst hww; simp [dec]
              · simp [Function.update_of_ne hww, h.wsize]
            · intro w' e1 he
              by_cases hww : w' = w
              · subst hww
                rw [Function.update_self] at he
                exact Or.inr ⟨w', by rw [hl]; exact List.mem_cons_of_mem _ he⟩
              · rw [Function.update_of_ne hww] at he
                exact Or.inr ⟨_, he⟩
      · exact ⟨u, by simp [ht], by simpa [ht] using h⟩

theorem Sim.forQ {F : Fixed} {s : State T} {u : Queueing.State T} (h : Sim s u) (q : Nat) (t : Int)
    {f : Info → Info} {g : Queueing.PriInfo → Queueing.PriInfo}
    (hf : ∀ i j, SimI (some i) (some j) → SimI (some (f i)) (some { j with pri := fun p => g (j.pri p) })) :
    Sim (forQ F s q t f) (Queueing.forEachQ F.pri u q t g) := by
  obtain ⟨i, s', j, u', h1, h2, h3, h4, h5, h6⟩ := h.getQueue (F := F) q t
  simp only [QueueingRL.forQ, Queueing.forEachQ, h1, h2]
  exact h3.modify h4 h5 (hf i j h6) h3.queue h3.counter h3.wsize fun w e he => Or.inr ⟨w, he⟩

theorem Sim.forAll {s : State T} {u : Queueing.State T} (h : Sim s u)
    {f : Info → Info} {g : Queueing.PriInfo → Queueing.PriInfo} {c r : Nat}
    (hf : ∀ i j, SimI (some i) (some j) → SimI (some (f i)) (some { j with pri := fun p => g (j.pri p) })) :
    Sim { s with queues := s.queues.mapAll f, capacity := c, rate := r }
      { Queueing.forAll u g with capacity := c, rate := r } where
  capacity := rfl
  rate := rfl
  queues := fun q => by
    simp only [Queueing.forAll]
    rw [UMap.find_mapAll, UMap.find_mapAll]
    have := h.queues q
    cases hs : s.queues.find? q <;> cases hu : u.queues.find? q <;> rw [hs, hu] at this
    · trivial
    · exact this.elim
    · exact this.elim
    · exact hf _ _ this
  queue := h.queue
  counter := h.counter
  wsize := h.wsize
  known := fun w e he => by
    simp only
    rw [UMap.find_mapAll]
    simpa using h.known w e he

theorem Sim.exec {F : Fixed} {s : State T} {u : Queueing.State T} (h : Sim s u) (op : Op T) :
    ∃ u', Queueing.exec F.pri u op.pri = some ((exec F s op).1, u') ∧ Sim (exec F s op).2 u' := by
  cases op with
  | push q x t0 t1 => exact h.push q x t0 t1
  | pop w t => exact h.pop w t
  | size q =>
    refine ⟨u, ?_, h⟩
    have := h.queues q
    simp only [Op.pri, Queueing.exec, QueueingRL.exec, QueueingRL.size, Queueing.size]
    cases hs : s.queues.find? q <;> cases hu : u.queues.find? q <;> rw [hs, hu] at this
    · exact this.elim
    · exact this.elim
    · simp only [this.2.2.2.2]
  | setCap q c t =>
    refine ⟨_, rfl, ?_⟩
    exact h.forQ (f := fun i => { i with capacity := c }) (g := Queueing.setCapacityFn c) q t
      fun i j hi => ⟨hi.1, rfl, hi.2.2.1, hi.2.2.2.1, hi.2.2.2.2⟩
  | setCapAll c =>
    refine ⟨_, rfl, ?_⟩
    have := h.forAll (f := fun i => { i with capacity := c }) (g := Queueing.setCapacityFn c) (c := c) (r := s.rate)
      fun i j hi => ⟨hi.1, rfl, hi.2.2.1, hi.2.2.2.1, hi.2.2.2.2⟩
    rw [← h.rate] at this
    refine Eq.mp (congrArg₂ Sim ?_ rfl) this
    simp [h.rate, QueueingRL.exec]
  | setRate q pps t =>
    refine ⟨_, rfl, ?_⟩
    exact h.forQ (f := fun i => { i with delay := F.ticks pps }) (g := Queueing.setRateFn F.pri pps) q t
      fun i j hi => ⟨hi.1, hi.2.1, rfl, hi.2.2.2.1, hi.2.2.2.2⟩
  | setRateAll pps =>
    refine ⟨_, rfl, ?_⟩
    have := h.forAll (f := fun i => { i with delay := F.ticks pps }) (g := Queueing.setRateFn F.pri pps)
      (c := s.capacity) (r := pps) fun i j hi => ⟨hi.1, hi.2.1, rfl, hi.2.2.2.1, hi.2.2.2.2⟩
    rw [← h.capacity] at this
    refine Eq.mp (congrArg₂ Sim ?_ rfl) this
    simp [h.capacity, QueueingRL.exec]

theorem sim_init (c : Nat) : Sim (init c : State T) { capacity := c } where
  capacity := rfl
  rate := rfl
  queues := fun _ => trivial
  queue := fun _ => rfl
  counter := fun _ => rfl
  wsize := fun _ => rfl
  known := fun _ e he => by simp [init] at he

theorem Sim.run {F : Fixed} : ∀ (ops : List (Op T)) {s : State T} {u : Queueing.State T}, Sim s u →
    ∃ u', Queueing.run F.pri u (ops.map Op.pri) = some ((run F s ops).1.map fun x => (x.1.pri, x.2), u') ∧
      Sim (run F s ops).2 u'
  | [], s, u, h => ⟨u, rfl, h⟩
  | op :: ops, s, u, h => by
    obtain ⟨u1, h1, h2⟩ := h.exec (F := F) op
    obtain ⟨u2, h3, h4⟩ := Sim.run ops h2
    refine ⟨u2, ?_, h4⟩
    simp [Queueing.run, h1, h3, QueueingRL.run]

end Bm.QueueingRL
