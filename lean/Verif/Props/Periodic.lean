import Verif.Lemmas.Periodic

/-!
# Properties of periodic tasks

Full statement of C85: however tasks are created and destroyed by any threads, the function of a task is executed
only while the task is registered, executions do not overlap, no task is executed before one interval has passed since
its construction or the end of its last execution, a task that is due is executed, a task that is due earlier is
executed before one that is due later, and nothing is undefined.

The code does not do this: the loop waits with a reference to the time of the top task.  When that task is destroyed
meanwhile, the time is read from memory that was freed (`C85_refuted_ub`); if it is read just before that, the task
that is on top now is executed although it is not due (`C85_refuted_early`).  When `start` is called while another
thread is in `join`, the program is terminated (`C85_refuted_start`).

`C85_registered`, `C85_sequential`, `C85_fair` and `C85_progress` hold for all runs; `C85_partial` says that, as
long as nobody destroys the task the loop waits for or starts the list again after `join`, tasks are punctual and
nothing is undefined.
-/

namespace Bm.Periodic

open Bm.Periodic.Spec

/-- Only tasks that are registered (neither before `register_task` nor after `unregister_task`, which the destructor
calls) are executed. -/
theorem C85_registered (es : List Ev) (e : Ev) (s s' : St) (t b f : Nat)
    (hr : St.init.run es = .ok s) (hs : s.step e = .ok s') (hl : s'.log = .exec t b f :: s.log) :
    registered t es.reverse = true := by
  have h := run_ok es _ _ [] .init hr
  rw [List.append_nil] at h
  exact (exec_top h hs hl).1

/-- Executions do not overlap, and the log is in the order of time. -/
theorem C85_sequential (es : List Ev) (s : St) (hr : St.init.run es = .ok s) : Sequential s.log :=
  (inv_reach (run_ok es _ _ [] .init hr)).seq

/-- As long as nobody unregisters the task the loop waits for, and the list is not started again after `join`, no
task is executed early and nothing is undefined. -/
theorem C85_partial (es : List Ev) (hc : Calm es.reverse) :
    St.init.run es ≠ .ub ∧ ∀ s, St.init.run es = .ok s → Punctual s.log := by
  refine ⟨fun hu => ?_, fun s hr => ?_⟩
  · obtain ⟨es1, e, es2, s1, h1, h2, h3⟩ := run_ub es _ [] .init hu
    rw [List.append_nil] at h2
    have hc' : Calm (e :: es1.reverse) := by
      apply calm_append es2.reverse
      rw [h1] at hc
      simpa using hc
    exact calm_no_ub h2 hc' h3
  · have h := run_ok es _ _ [] .init hr
    rw [List.append_nil] at h
    exact (calm_reach h hc).2

theorem run_grow (es : List Ev) : ∀ (s s' : St), s.run es = .ok s' →
    ∃ mid, s'.log = mid ++ s.log ∧ ∀ t ∈ s.made, ∀ iv a, Obs.made t iv a ∉ mid := by
  induction es with
  | nil =>
    intro s s' h
    simp only [St.run, Res.ok.injEq] at h
    subst h
    exact ⟨[], rfl, by simp⟩
  | cons e es ih =>
    intro s s' h
    rw [St.run] at h
    cases he : s.step e with
    | no => rw [he] at h; cases h
    | ub => rw [he] at h; cases h
    | ok s1 =>
      rw [he] at h
      obtain ⟨mid, hm, hn⟩ := ih s1 s' h
      rcases step_log he with hl | ⟨t, iv, _, ht, hl⟩ | ⟨t, d, _, _, _, hl⟩
      · exact ⟨mid, by rw [hm, hl], fun u hu => hn u (step_made he u hu)⟩
      · refine ⟨mid ++ [.made t iv s.now], by rw [hm, hl]; simp, fun u hu iv' a hmem => ?_⟩
        rcases List.mem_append.mp hmem with h1 | h1
        · exact hn u (step_made he u hu) iv' a h1
        · simp only [List.mem_singleton, Obs.made.injEq] at h1
          exact ht (h1.1 ▸ hu)
      · refine ⟨mid ++ [.exec t s.now (s.now + d)], by rw [hm, hl]; simp, fun u hu iv' a hmem => ?_⟩
        rcases List.mem_append.mp hmem with h1 | h1
        · exact hn u (step_made he u hu) iv' a h1
        · simp at h1

theorem dueAt_append (t : Nat) (l : List Obs) : ∀ mid : List Obs, (∀ iv a, Obs.made t iv a ∉ mid) →
    (∀ b f, Obs.exec t b f ∉ mid) → dueAt t (mid ++ l) = dueAt t l := by
  intro mid
  induction mid with
  | nil => intro _ _; rfl
  | cons o mid ih =>
    intro h1 h2
    have ih' := ih (fun iv a hh => h1 iv a (List.mem_cons_of_mem _ hh)) (fun b f hh => h2 b f (List.mem_cons_of_mem _ hh))
    cases o with
    | made u iv a =>
      have : ¬ u = t := by rintro rfl; exact h1 iv a List.mem_cons_self
      simp only [List.cons_append, dueAt, if_neg this, ih']
    | exec u b f =>
      have : ¬ u = t := by rintro rfl; exact h2 b f List.mem_cons_self
      simp only [List.cons_append, dueAt, if_neg this, ih']

theorem registered_append (t : Nat) (pre : List Ev) (h : registered t pre = true) : ∀ es : List Ev,
    Ev.unregister t ∉ es → registered t (es ++ pre) = true := by
  intro es
  induction es with
  | nil => intro _; exact h
  | cons e es ih =>
    intro hn
    have ih' := ih (fun hh => hn (List.mem_cons_of_mem _ hh))
    cases e with
    | unregister u =>
      have : ¬ u = t := by rintro rfl; exact hn List.mem_cons_self
      simp only [List.cons_append, registered, if_neg this, ih']
    | register u => simp only [List.cons_append, registered, ih']; split <;> rfl
    | _ => exact ih'

/-- When task `u` is due before task `t`, it is executed before `t` is executed (again), unless it is unregistered.
In particular (take for `s` a state in which `t` was just executed) no task waits for ever because others take too
long. -/
theorem C85_fair (es es' : List Ev) (e : Ev) (s s1 s2 : St) (t u b f x y : Nat)
    (hr : St.init.run es = .ok s) (hr' : s.run es' = .ok s1) (hs : s1.step e = .ok s2)
    (hl : s2.log = .exec t b f :: s1.log)
    (hu : registered u es.reverse = true) (hn : Ev.unregister u ∉ es')
    (hdu : dueAt u s.log = some x) (hdt : dueAt t s.log = some y) (hxy : x < y) :
    ∃ mid, s1.log = mid ++ s.log ∧ ∃ b' f', Obs.exec u b' f' ∈ mid := by
  have h := run_ok es _ _ [] .init hr
  rw [List.append_nil] at h
  have h1 := run_ok es' _ _ _ h hr'
  have ht := due_made h t y hdt
  obtain ⟨mid, hm, hmade⟩ := run_grow es' _ _ hr'
  refine ⟨mid, hm, ?_⟩
  apply Classical.byContradiction
  intro hno
  have hinv := inv_reach h
  have hinv1 := inv_reach h1
  have huq := (hinv.reg u).mpr hu
  have hdu1 : dueAt u s1.log = some x := by
    rw [hm, dueAt_append u _ mid (hmade u (alive_made (hinv.alive u huq)))
      (fun b' f' hh => hno ⟨b', f', hh⟩), hdu]
  have hreg1 := registered_append u _ hu es'.reverse (by simpa using hn)
  obtain ⟨_, htop⟩ := exec_top h1 hs hl
  obtain ⟨x', y', hx', hy', hle⟩ := htop u hreg1
  rw [hdu1] at hy'
  obtain ⟨ht1, hle1⟩ := run_next es' _ _ _ h hr' t ht
  have e1 := (hinv.due t ht).1
  have e2 := (hinv1.due t ht1).1
  rw [hdt, Option.some.injEq] at e1
  rw [hx', Option.some.injEq] at e2
  simp only [Option.some.injEq] at hy'
  omega

/-- When the loop comes to lock the mutex, the list was started, and a task is due, then a task is executed when the
loop locks the mutex the next two times (and no other thread in between); there is a task it can be, and whichever it
is, it is due. -/
theorem C85_progress (es : List Ev) (s : St) (t x : Nat) (hr : St.init.run es = .ok s) (hl : s.loop = .idle)
    (hrun : s.running = true) (ht : registered t es.reverse = true) (hd : dueAt t s.log = some x) (hx : x ≤ s.now) :
    (∃ u, ∀ d, ∃ s2, s.run [.enter u, .wake u d] = .ok s2) ∧
    ∀ u u' d s2, s.run [.enter u, .wake u' d] = .ok s2 →
      s2.log = .exec u' s.now (s.now + d) :: s.log ∧ ∃ x', dueAt u' s.log = some x' ∧ x' ≤ s.now := by
  have h := run_ok es _ _ [] .init hr
  rw [List.append_nil] at h
  have hinv := inv_reach h
  have htq := (hinv.reg t).mpr ht
  have hne : s.queue ≠ [] := by intro hh; rw [hh] at htq; cases htq
  have hdt := (hinv.due t (alive_made (hinv.alive t htq))).1
  rw [hd, Option.some.injEq] at hdt
  have henter : ∀ u, s.isTop u = true → s.step (.enter u) = .ok { s with loop := .waitFor u } := by
    intro u hu
    simp only [St.step, if_pos hl, St.enter, hrun, if_neg hne, hu, hinv.alive u (isTop_mem hu).1]
    simp
  have hwake : ∀ u u' d, s.isTop u = true → s.isTop u' = true →
      St.step { s with loop := .waitFor u } (.wake u' d) = .ok { s.execute u' d with loop := .idle } := by
    intro u u' d hu hu'
    have hle := (isTop_mem hu).2 t htq
    have ha : St.alive { s with loop := .waitFor u } u = true := hinv.alive u (isTop_mem hu).1
    have ha' : St.alive { s with loop := .waitFor u } u' = true := hinv.alive u' (isTop_mem hu').1
    have ht' : St.isTop { s with loop := .waitFor u } u' = true := hu'
    have hlt : ¬ s.now < s.next u := by omega
    simp only [St.step, St.wakeFor, ha, ha', ht', if_neg hlt, if_neg hne]
    simp [St.execute]
  refine ⟨?_, ?_⟩
  · obtain ⟨u, hu⟩ := exists_top s hne
    refine ⟨u, fun d => ⟨({ s.execute u d with loop := .idle } : St), ?_⟩⟩
    simp only [St.run, henter u hu, hwake u u d hu hu]
  · intro u u' d s2 h2
    rw [St.run] at h2
    by_cases hu : s.isTop u = true
    · rw [henter u hu] at h2
      simp only [St.run] at h2
      by_cases hu' : s.isTop u' = true
      · rw [hwake u u' d hu hu'] at h2
        simp only [Res.ok.injEq] at h2
        subst h2
        refine ⟨rfl, s.next u', (hinv.due u' (alive_made (hinv.alive u' (isTop_mem hu').1))).1, ?_⟩
        have := (isTop_mem hu').2 t htq
        omega
      · exfalso
        have ha : St.alive { s with loop := .waitFor u } u = true := hinv.alive u (isTop_mem hu).1
        have ht' : St.isTop { s with loop := .waitFor u } u' = false := by
          have : s.isTop u' = false := by simpa using hu'
          exact this
        have hle := (isTop_mem hu).2 t htq
        have hlt : ¬ s.now < s.next u := by omega
        simp only [St.step, St.wakeFor, ha, ht', if_neg hlt, if_neg hne] at h2
        simp at h2
    · exfalso
      have hu : s.isTop u = false := by simpa using hu
      simp only [St.step, if_pos hl, St.enter, hrun, if_neg hne, hu] at h2
      simp at h2

namespace Ex

/-- Two tasks with intervals 10 and 30; the loop executes them when they are due. -/
def evs : List Ev :=
  [.construct 1 10, .register 1, .construct 2 30, .register 2, .start, .enter 1, .tick 10, .wake 1 3, .enter 1, .tick 4,
   .wake 1 0, .enter 1, .tick 6, .wake 1 12, .enter 2, .wake 2 1, .unregister 1, .free 1, .enter 2]

/-- The log of a run. -/
def logOf : Res → List Obs
  | .ok s => s.log
  | _ => []

/-- What is observed. -/
theorem evs_run : logOf (St.init.run evs) =
    [.exec 2 35 36, .exec 1 23 35, .exec 1 10 13, .made 2 30 0, .made 1 10 0] := by decide

/-- The run meets the condition of `C85_partial`. -/
theorem evs_calm : Calm evs.reverse := by
  simp [Calm, evs, waitsFor]

/-- `C85_partial` for it: it is not empty and not undefined. -/
theorem evs_punctual : ∃ s, St.init.run evs = .ok s ∧ Punctual s.log := by
  cases h : St.init.run evs with
  | ok s => exact ⟨s, rfl, (C85_partial evs evs_calm).2 s h⟩
  | no => have := evs_run; rw [h] at this; cases this
  | ub => exact absurd h (C85_partial evs evs_calm).1

/-- A task is destroyed while the loop waits for it: the loop reads memory that was freed. -/
theorem C85_refuted_ub : St.init.run [.construct 1 10, .register 1, .start, .enter 1, .unregister 1, .free 1, .wake 0 0]
    = .ub := by rfl

/-- The run for `C85_refuted_early`: the first task is unregistered when it is due; before its memory is freed the
loop looks at the time. -/
def early : List Ev :=
  [.construct 1 10, .register 1, .construct 2 1000, .register 2, .start, .enter 1, .tick 10, .unregister 1, .wake 2 0,
   .free 1]

/-- The second task is executed at time 10, though its interval is 1000. -/
theorem C85_refuted_early : ∃ s, St.init.run early = .ok s ∧ ¬ Punctual s.log ∧
    s.log = [.exec 2 10 10, .made 2 1000 0, .made 1 10 0] := by
  cases h : St.init.run early with
  | ok s =>
    have hl : s.log = [.exec 2 10 10, .made 2 1000 0, .made 1 10 0] := by
      have : logOf (St.init.run early) = [.exec 2 10 10, .made 2 1000 0, .made 1 10 0] := by decide
      rw [h] at this; exact this
    refine ⟨s, rfl, ?_, hl⟩
    rw [hl]
    simp [Punctual, dueAt]
  | no => exact absurd (congrArg logOf h) (by decide)
  | ub => exact absurd (congrArg logOf h) (by decide)

/-- `start` is called while another thread is in `join`. -/
theorem C85_refuted_start : St.init.run [.start, .join, .start] = .ub := by rfl

/-- The hypotheses of `C85_fair`: after the first execution of task 1 (due again at 23), a task 3 due at 18 is executed
before task 1, although the loop is late. -/
def fair1 : List Ev := [.construct 1 10, .register 1, .start, .enter 1, .tick 10, .construct 3 8, .register 3, .wake 1 3]

/-- The rest of that run. -/
def fair2 : List Ev := [.enter 3, .tick 100, .wake 3 5, .enter 1]

theorem C85_fair_case :
    logOf (St.init.run (fair1 ++ fair2 ++ [.wake 1 1])) =
      [.exec 1 118 119, .exec 3 113 118, .exec 1 10 13, .made 3 8 10, .made 1 10 0] ∧
    registered 3 fair1.reverse = true ∧ Ev.unregister 3 ∉ fair2 ∧
    dueAt 3 (logOf (St.init.run fair1)) = some 18 ∧ dueAt 1 (logOf (St.init.run fair1)) = some 23 ∧
    logOf (St.init.run (fair1 ++ [.enter 3, .tick 100, .wake 1 1])) = [] := by decide

end Ex

end Bm.Periodic
