import Verif.Spec.Periodic

/-!
# Lemmas about periodic tasks
-/

namespace Bm.Periodic

open Bm.Periodic.Spec

/-- States reached by events (the last one first). -/
inductive Reach : List Ev → St → Prop
  | init : Reach [] St.init
  | step {es s e s'} : Reach es s → s.step e = .ok s' → Reach (e :: es) s'

theorem run_ok (es : List Ev) : ∀ (s s' : St) (pre : List Ev), Reach pre s → s.run es = .ok s' →
    Reach (es.reverse ++ pre) s' := by
  induction es with
  | nil => intro s s' pre h hr; simp only [St.run, Res.ok.injEq] at hr; subst hr; exact h
  | cons e es ih =>
    intro s s' pre h hr
    rw [St.run] at hr
    cases he : s.step e with
    | ok s1 =>
      rw [he] at hr
      have := ih s1 s' (e :: pre) (.step h he) hr
      simpa using this
    | no => rw [he] at hr; cases hr
    | ub => rw [he] at hr; cases hr

theorem run_ub (es : List Ev) : ∀ (s : St) (pre : List Ev), Reach pre s → s.run es = .ub →
    ∃ es1 e es2 s1, es = es1 ++ e :: es2 ∧ Reach (es1.reverse ++ pre) s1 ∧ s1.step e = .ub := by
  induction es with
  | nil => intro s pre _ hr; cases hr
  | cons e es ih =>
    intro s pre h hr
    rw [St.run] at hr
    cases he : s.step e with
    | ok s1 =>
      rw [he] at hr
      obtain ⟨es1, e', es2, s2, h1, h2, h3⟩ := ih s1 (e :: pre) (.step h he) hr
      refine ⟨e :: es1, e', es2, s2, ?_, ?_, h3⟩
      · rw [h1]; rfl
      · simpa using h2
    | no => rw [he] at hr; cases hr
    | ub => exact ⟨[], e, es, s, rfl, h, he⟩

/-- What always holds. -/
structure Inv (es : List Ev) (s : St) : Prop where
  reg : ∀ t, t ∈ s.queue ↔ registered t es = true
  alive : ∀ t ∈ s.queue, s.alive t = true
  due : ∀ t ∈ s.made, dueAt t s.log = some (s.next t) ∧ intervalOf t s.log = some (s.interval t)
  seq : Sequential s.log
  past : ∀ o ∈ s.log, Obs.until_ o ≤ s.now
  waits : ∀ t, s.loop = .waitFor t → waitsFor es = some t
  off : Ev.join ∉ es → s.running = false → s.loop = .off
  freed : ∀ t ∈ s.freed, t ∈ s.made

theorem alive_made {s : St} {t : Nat} (h : s.alive t = true) : t ∈ s.made := by
  simp only [St.alive, Bool.and_eq_true, decide_eq_true_eq] at h; exact h.1

theorem isTop_mem {s : St} {t : Nat} (h : s.isTop t = true) : t ∈ s.queue ∧ ∀ u ∈ s.queue, s.next t ≤ s.next u := by
  simp only [St.isTop, Bool.and_eq_true, decide_eq_true_eq, List.all_eq_true] at h; exact h

theorem step_cases {s s' : St} {top d : Nat} (h : s.step (.wake top d) = .ok s') :
    s' = { s with loop := .idle } ∨
    (∃ t, s.loop = .waitFor t ∧ s.alive t = true ∧ s.next t ≤ s.now ∧ s.isTop top = true ∧ s.alive top = true ∧
      s' = { s.execute top d with loop := .idle }) := by
  simp only [St.step] at h
  split at h
  · simp only [Res.ok.injEq] at h; exact .inl h.symm
  · rename_i t hl
    simp only [St.wakeFor] at h
    split at h
    · cases h
    · rename_i h1
      split at h
      · simp only [Res.ok.injEq] at h; exact .inl h.symm
      · rename_i h2
        split at h
        · simp only [Res.ok.injEq] at h; exact .inl h.symm
        · split at h
          · rename_i h3
            split at h
            · rename_i h4
              simp only [Res.ok.injEq] at h
              refine .inr ⟨t, hl, ?_, by omega, h3, h4, h.symm⟩
              cases hh : s.alive t
              · exact absurd hh h1
              · rfl
            · cases h
          · cases h
  · cases h

theorem enter_cases {s s' : St} {top : Nat} (h : s.step (.enter top) = .ok s') :
    s.loop = .idle ∧
    ((s.running = false ∧ s' = { s with loop := .ended }) ∨ (s.running = true ∧ s' = { s with loop := .waitAny }) ∨
     (s.running = true ∧ top ∈ s.queue ∧ s' = { s with loop := .waitFor top })) := by
  simp only [St.step] at h
  split at h
  · rename_i hl
    refine ⟨hl, ?_⟩
    simp only [St.enter] at h
    split at h
    · rename_i hr
      simp only [Res.ok.injEq] at h; exact .inl ⟨hr, h.symm⟩
    · rename_i hr
      have hr : s.running = true := by simpa using hr
      split at h
      · simp only [Res.ok.injEq] at h; exact .inr (.inl ⟨hr, h.symm⟩)
      · split at h
        · rename_i h3
          split at h
          · simp only [Res.ok.injEq] at h; exact .inr (.inr ⟨hr, (isTop_mem h3).1, h.symm⟩)
          · cases h
        · cases h
  · cases h

theorem seq_cons {o : Obs} {l : List Obs} {n : Nat} (h : Sequential l) (hp : ∀ o ∈ l, Obs.until_ o ≤ n)
    (hf : Obs.from_ o = n) (hu : n ≤ Obs.until_ o) : Sequential (o :: l) := by
  refine ⟨?_, ?_⟩
  · intro o' ho'
    rcases List.mem_cons.mp ho' with rfl | ho'
    · omega
    · exact h.1 o' ho'
  · rw [List.pairwise_cons]
    exact ⟨fun e he => hf ▸ hp e he, h.2⟩

theorem inv_step {es : List Ev} {s s' : St} {e : Ev} (h : Inv es s) (hs : s.step e = .ok s') : Inv (e :: es) s' := by
  obtain ⟨hreg, halive, hdue, hseq, hpast, hwaits, hoff, hfreed⟩ := h
  cases e with
  | tick d =>
    simp only [St.step, Res.ok.injEq] at hs; subst hs
    refine ⟨hreg, halive, hdue, hseq, ?_, hwaits, ?_, hfreed⟩
    · intro o ho; have := hpast o ho; show _ ≤ s.now + d; omega
    · intro h; exact hoff (fun hh => h (List.mem_cons_of_mem _ hh))
  | construct t iv =>
    simp only [St.step] at hs
    split at hs
    · cases hs
    · rename_i hn
      simp only [Res.ok.injEq] at hs; subst hs
      refine ⟨hreg, ?_, ?_, ?_, ?_, hwaits, ?_, ?_⟩
      · intro u hu
        have := halive u hu
        simp only [St.alive, Bool.and_eq_true, decide_eq_true_eq] at this ⊢
        exact ⟨List.mem_cons_of_mem _ this.1, this.2⟩
      · intro u hu
        by_cases hut : t = u
        · subst hut; simp [dueAt, intervalOf, upd]
        · have hu : u ∈ s.made := by
            rcases List.mem_cons.mp hu with rfl | hu
            · exact absurd rfl hut
            · exact hu
          have := hdue u hu
          have hut' : ¬ u = t := fun hh => hut hh.symm
          simpa [dueAt, intervalOf, upd, hut, hut'] using this
      · exact seq_cons hseq hpast rfl (Nat.le_refl _)
      · intro o ho
        rcases List.mem_cons.mp ho with rfl | ho
        · exact Nat.le_refl _
        · exact hpast o ho
      · intro h; exact hoff (fun hh => h (List.mem_cons_of_mem _ hh))
      · intro u hu; exact List.mem_cons_of_mem _ (hfreed u hu)
  | register t =>
    simp only [St.step] at hs
    split at hs
    · cases hs
    · rename_i ha
      have ha : s.alive t = true := by simpa using ha
      have hoff' : Ev.join ∉ Ev.register t :: es → s.running = false → s.loop = .off :=
        fun h => hoff (fun hh => h (List.mem_cons_of_mem _ hh))
      split at hs
      · rename_i hq
        simp only [Res.ok.injEq] at hs; subst hs
        refine ⟨?_, halive, hdue, hseq, hpast, hwaits, hoff', hfreed⟩
        intro u
        simp only [registered]
        by_cases hut : t = u
        · subst hut; simp [hq]
        · rw [if_neg hut]; exact hreg u
      · simp only [Res.ok.injEq] at hs; subst hs
        refine ⟨?_, ?_, hdue, hseq, hpast, hwaits, hoff', hfreed⟩
        · intro u
          simp only [registered]
          by_cases hut : t = u
          · subst hut; simp
          · rw [if_neg hut, ← hreg u]
            have hut' : ¬ u = t := fun hh => hut hh.symm
            simp [hut']
        · intro u hu
          rcases List.mem_cons.mp hu with rfl | hu
          · exact ha
          · exact halive u hu
  | unregister t =>
    simp only [St.step] at hs
    split at hs
    · cases hs
    · simp only [Res.ok.injEq] at hs; subst hs
      refine ⟨?_, ?_, hdue, hseq, hpast, hwaits, fun h => hoff (fun hh => h (List.mem_cons_of_mem _ hh)), hfreed⟩
      · intro u
        simp only [registered]
        by_cases hut : t = u
        · subst hut; simp
        · rw [if_neg hut, ← hreg u]
          have hut' : ¬ u = t := fun hh => hut hh.symm
          simp [hut']
      · intro u hu
        exact halive u (List.mem_filter.mp hu).1
  | free t =>
    simp only [St.step] at hs
    split at hs
    · cases hs
    · rename_i hc
      simp only [Res.ok.injEq] at hs; subst hs
      have ha : s.alive t = true := by
        cases hh : s.alive t
        · exact absurd (.inl hh) hc
        · rfl
      have hq : t ∉ s.queue := fun hh => hc (.inr hh)
      refine ⟨hreg, ?_, hdue, hseq, hpast, hwaits, fun h => hoff (fun hh => h (List.mem_cons_of_mem _ hh)), ?_⟩
      · intro u hu
        have := halive u hu
        simp only [St.alive, Bool.and_eq_true, decide_eq_true_eq] at this ⊢
        refine ⟨this.1, ?_⟩
        intro hm
        rcases List.mem_cons.mp hm with rfl | hm
        · exact hq hu
        · exact this.2 hm
      · intro u hu
        rcases List.mem_cons.mp hu with rfl | hu
        · simp only [St.alive, Bool.and_eq_true, decide_eq_true_eq] at ha; exact ha.1
        · exact hfreed u hu
  | start =>
    simp only [St.step] at hs
    split at hs
    · rename_i hr
      simp only [Res.ok.injEq] at hs; subst hs
      refine ⟨hreg, halive, hdue, hseq, hpast, hwaits, ?_, hfreed⟩
      intro _ h; rw [hr] at h; cases h
    · split at hs
      · simp only [Res.ok.injEq] at hs; subst hs
        refine ⟨hreg, halive, hdue, hseq, hpast, ?_, ?_, hfreed⟩
        · intro t h; cases h
        · intro _ h; cases h
      · cases hs
  | join =>
    simp only [St.step, Res.ok.injEq] at hs; subst hs
    refine ⟨hreg, halive, hdue, hseq, hpast, hwaits, ?_, hfreed⟩
    intro h; exact absurd List.mem_cons_self h
  | joined =>
    simp only [St.step] at hs
    split at hs
    · simp only [Res.ok.injEq] at hs; subst hs
      refine ⟨hreg, halive, hdue, hseq, hpast, ?_, ?_, hfreed⟩
      · intro t h; cases h
      · intro _ _; rfl
    · cases hs
  | enter top =>
    have hoff' : Ev.join ∉ Ev.enter top :: es → s.running = false → s.loop = .off :=
        fun h => hoff (fun hh => h (List.mem_cons_of_mem _ hh))
    obtain ⟨hl, (⟨hr, rfl⟩ | ⟨hr, rfl⟩ | ⟨hr, _, rfl⟩)⟩ := enter_cases hs
    · refine ⟨hreg, halive, hdue, hseq, hpast, ?_, ?_, hfreed⟩
      · intro t h; cases h
      · intro h1 h2; have := hoff' h1 hr; rw [hl] at this; cases this
    · refine ⟨hreg, halive, hdue, hseq, hpast, ?_, ?_, hfreed⟩
      · intro t h; cases h
      · intro _ h; rw [show s.running = false from h] at hr; cases hr
    · refine ⟨hreg, halive, hdue, hseq, hpast, ?_, ?_, hfreed⟩
      · intro t h; cases h; rfl
      · intro _ h; rw [show s.running = false from h] at hr; cases hr
  | wake top d =>
    have hoff' : Ev.join ∉ Ev.wake top d :: es → s.running = false → s.loop = .off :=
        fun h => hoff (fun hh => h (List.mem_cons_of_mem _ hh))
    have hnoff : s.loop ≠ .off := by
      intro h
      simp only [St.step, h] at hs
      cases hs
    rcases step_cases hs with rfl | ⟨t, hl, _, _, htop, hat, rfl⟩
    · refine ⟨hreg, halive, hdue, hseq, hpast, ?_, ?_, hfreed⟩
      · intro t h; cases h
      · intro h1 h2; exact absurd (hoff' h1 h2) hnoff
    · refine ⟨hreg, halive, ?_, ?_, ?_, ?_, ?_, hfreed⟩
      · intro u hu
        have hd := hdue u hu
        by_cases hut : top = u
        · subst hut
          simp only [St.execute, dueAt, intervalOf, upd, if_pos, hd.2, Option.map_some, and_self]
        · have hut' : ¬ u = top := fun hh => hut hh.symm
          simpa [St.execute, dueAt, intervalOf, upd, hut, hut'] using hd
      · exact seq_cons hseq hpast rfl (Nat.le_add_right _ _)
      · intro o ho
        rcases List.mem_cons.mp ho with rfl | ho
        · exact Nat.le_refl _
        · have := hpast o ho; show _ ≤ s.now + d; omega
      · intro t h; cases h
      · intro h1 h2; exact absurd (hoff' h1 h2) hnoff

theorem inv_reach {es : List Ev} {s : St} (h : Reach es s) : Inv es s := by
  induction h with
  | init =>
    refine ⟨?_, ?_, ?_, ?_, ?_, ?_, ?_, ?_⟩
    · intro t; simp [St.init, registered]
    · intro t h; cases h
    · intro t h; cases h
    · exact ⟨(by intro o h; cases h), List.Pairwise.nil⟩
    · intro o h; cases h
    · intro t h; cases h
    · intro _ _; rfl
    · intro t h; cases h
  | step _ hs ih => exact inv_step ih hs

theorem calm_tail {e : Ev} {es : List Ev} (h : Calm (e :: es)) : Calm es := by
  cases e <;> first | exact h | exact h.2

/-- What holds when nobody unregisters the task the loop waits for. -/
theorem calm_reach {es : List Ev} {s : St} (h : Reach es s) (hc : Calm es) :
    (∀ t, s.loop = .waitFor t → t ∈ s.queue) ∧ Punctual s.log := by
  induction h with
  | init => exact ⟨(by intro t h; cases h), trivial⟩
  | @step es s e s' hr hs ih =>
    obtain ⟨ih1, ih2⟩ := ih (calm_tail hc)
    have hinv := inv_reach hr
    cases e with
    | tick d => simp only [St.step, Res.ok.injEq] at hs; subst hs; exact ⟨ih1, ih2⟩
    | construct t iv =>
      simp only [St.step] at hs
      split at hs
      · cases hs
      · simp only [Res.ok.injEq] at hs; subst hs; exact ⟨ih1, ih2⟩
    | register t =>
      simp only [St.step] at hs
      split at hs
      · cases hs
      · split at hs
        · simp only [Res.ok.injEq] at hs; subst hs; exact ⟨ih1, ih2⟩
        · simp only [Res.ok.injEq] at hs; subst hs
          exact ⟨fun t h => List.mem_cons_of_mem _ (ih1 t h), ih2⟩
    | unregister t =>
      simp only [St.step] at hs
      split at hs
      · cases hs
      · simp only [Res.ok.injEq] at hs; subst hs
        refine ⟨fun u h => ?_, ih2⟩
        have hw := hinv.waits u h
        have hne : u ≠ t := by rintro rfl; exact hc.1 hw
        simpa [hne] using ih1 u h
    | free t =>
      simp only [St.step] at hs
      split at hs
      · cases hs
      · simp only [Res.ok.injEq] at hs; subst hs; exact ⟨ih1, ih2⟩
    | start =>
      simp only [St.step] at hs
      split at hs
      · simp only [Res.ok.injEq] at hs; subst hs; exact ⟨ih1, ih2⟩
      · split at hs
        · simp only [Res.ok.injEq] at hs; subst hs; exact ⟨(by intro t h; cases h), ih2⟩
        · cases hs
    | join => simp only [St.step, Res.ok.injEq] at hs; subst hs; exact ⟨ih1, ih2⟩
    | joined =>
      simp only [St.step] at hs
      split at hs
      · simp only [Res.ok.injEq] at hs; subst hs; exact ⟨(by intro t h; cases h), ih2⟩
      · cases hs
    | enter top =>
      obtain ⟨_, (⟨_, rfl⟩ | ⟨_, rfl⟩ | ⟨_, hq, rfl⟩)⟩ := enter_cases hs
      · exact ⟨(by intro t h; cases h), ih2⟩
      · exact ⟨(by intro t h; cases h), ih2⟩
      · exact ⟨(by intro t h; cases h; exact hq), ih2⟩
    | wake top d =>
      rcases step_cases hs with rfl | ⟨t, hl, _, hnow, htop, hat, rfl⟩
      · exact ⟨(by intro t h; cases h), ih2⟩
      · refine ⟨(by intro t h; cases h), ?_, ih2⟩
        have h1 := (isTop_mem htop).2 t (ih1 t hl)
        exact ⟨s.next top, (hinv.due top (alive_made hat)).1, by omega⟩

/-- No undefined behaviour in calm runs. -/
theorem calm_no_ub {es : List Ev} {s : St} {e : Ev} (h : Reach es s) (hc : Calm (e :: es)) : s.step e ≠ .ub := by
  have hinv := inv_reach h
  have hcr := calm_reach h (calm_tail hc)
  cases e with
  | tick d => simp [St.step]
  | construct t iv => simp only [St.step]; split <;> simp
  | register t => simp only [St.step]; split; · simp
                  split <;> simp
  | unregister t => simp only [St.step]; split <;> simp
  | free t => simp only [St.step]; split <;> simp
  | start =>
    simp only [St.step]
    split
    · simp
    · rename_i hr
      have := hinv.off hc.1 (by simpa using hr)
      simp [this]
  | join => simp [St.step]
  | joined => simp only [St.step]; split <;> simp
  | enter top =>
    simp only [St.step]
    split
    · simp only [St.enter]
      split
      · simp
      · split
        · simp
        · split
          · rename_i h3
            rw [if_pos (hinv.alive top (isTop_mem h3).1)]; simp
          · simp
    · simp
  | wake top d =>
    simp only [St.step]
    split
    · simp
    · rename_i t hl
      simp only [St.wakeFor]
      rw [if_neg (by rw [hinv.alive t (hcr.1 t hl)]; simp)]
      split
      · simp
      · split
        · simp
        · split
          · rename_i h3
            rw [if_pos (hinv.alive top (isTop_mem h3).1)]; simp
          · simp
    · simp

theorem calm_append : ∀ (a b : List Ev), Calm (a ++ b) → Calm b := by
  intro a
  induction a with
  | nil => intro b h; exact h
  | cons e a ih => intro b h; exact ih b (calm_tail h)

/-- How the log grows in a step. -/
theorem step_log {s s' : St} {e : Ev} (hs : s.step e = .ok s') :
    s'.log = s.log ∨ (∃ t iv, e = .construct t iv ∧ t ∉ s.made ∧ s'.log = .made t iv s.now :: s.log) ∨
    (∃ t d, e = .wake t d ∧ s.isTop t = true ∧ s.alive t = true ∧ s'.log = .exec t s.now (s.now + d) :: s.log) := by
  cases e with
  | tick d => simp only [St.step, Res.ok.injEq] at hs; subst hs; exact .inl rfl
  | construct t iv =>
    simp only [St.step] at hs
    split at hs
    · cases hs
    · rename_i hn
      simp only [Res.ok.injEq] at hs; subst hs; exact .inr (.inl ⟨t, iv, rfl, hn, rfl⟩)
  | register t =>
    simp only [St.step] at hs
    split at hs
    · cases hs
    · split at hs
      · simp only [Res.ok.injEq] at hs; subst hs; exact .inl rfl
      · simp only [Res.ok.injEq] at hs; subst hs; exact .inl rfl
  | unregister t =>
    simp only [St.step] at hs
    split at hs
    · cases hs
    · simp only [Res.ok.injEq] at hs; subst hs; exact .inl rfl
  | free t =>
    simp only [St.step] at hs
    split at hs
    · cases hs
    · simp only [Res.ok.injEq] at hs; subst hs; exact .inl rfl
  | start =>
    simp only [St.step] at hs
    split at hs
    · simp only [Res.ok.injEq] at hs; subst hs; exact .inl rfl
    · split at hs
      · simp only [Res.ok.injEq] at hs; subst hs; exact .inl rfl
      · cases hs
  | join => simp only [St.step, Res.ok.injEq] at hs; subst hs; exact .inl rfl
  | joined =>
    simp only [St.step] at hs
    split at hs
    · simp only [Res.ok.injEq] at hs; subst hs; exact .inl rfl
    · cases hs
  | enter top =>
    obtain ⟨_, (⟨_, rfl⟩ | ⟨_, rfl⟩ | ⟨_, _, rfl⟩)⟩ := enter_cases hs <;> exact .inl rfl
  | wake top d =>
    rcases step_cases hs with rfl | ⟨t, _, _, _, htop, hat, rfl⟩
    · exact .inl rfl
    · exact .inr (.inr ⟨top, d, rfl, htop, hat, rfl⟩)

theorem step_made {s s' : St} {e : Ev} (hs : s.step e = .ok s') : ∀ t ∈ s.made, t ∈ s'.made := by
  intro t ht
  cases e with
  | construct u iv =>
    simp only [St.step] at hs
    split at hs
    · cases hs
    · simp only [Res.ok.injEq] at hs; subst hs; exact List.mem_cons_of_mem _ ht
  | tick d => simp only [St.step, Res.ok.injEq] at hs; subst hs; exact ht
  | register u =>
    simp only [St.step] at hs
    split at hs
    · cases hs
    · split at hs
      · simp only [Res.ok.injEq] at hs; subst hs; exact ht
      · simp only [Res.ok.injEq] at hs; subst hs; exact ht
  | unregister u =>
    simp only [St.step] at hs
    split at hs
    · cases hs
    · simp only [Res.ok.injEq] at hs; subst hs; exact ht
  | free u =>
    simp only [St.step] at hs
    split at hs
    · cases hs
    · simp only [Res.ok.injEq] at hs; subst hs; exact ht
  | start =>
    simp only [St.step] at hs
    split at hs
    · simp only [Res.ok.injEq] at hs; subst hs; exact ht
    · split at hs
      · simp only [Res.ok.injEq] at hs; subst hs; exact ht
      · cases hs
  | join => simp only [St.step, Res.ok.injEq] at hs; subst hs; exact ht
  | joined =>
    simp only [St.step] at hs
    split at hs
    · simp only [Res.ok.injEq] at hs; subst hs; exact ht
    · cases hs
  | enter top =>
    obtain ⟨_, (⟨_, rfl⟩ | ⟨_, rfl⟩ | ⟨_, _, rfl⟩)⟩ := enter_cases hs <;> exact ht
  | wake top d =>
    rcases step_cases hs with rfl | ⟨_, _, _, _, _, _, rfl⟩ <;> exact ht

/-- An execution is that of a registered task with the smallest time. -/
theorem exec_top {es : List Ev} {s s' : St} {e : Ev} {t b f : Nat} (hr : Reach es s) (hs : s.step e = .ok s')
    (hl : s'.log = .exec t b f :: s.log) :
    registered t es = true ∧ ∀ u, registered u es = true →
      ∃ x y, dueAt t s.log = some x ∧ dueAt u s.log = some y ∧ x ≤ y := by
  have hinv := inv_reach hr
  rcases step_log hs with h | ⟨_, _, _, _, h⟩ | ⟨t', d, _, htop, hat, h⟩
  · rw [h] at hl
    have := congrArg List.length hl
    simp at this
  · rw [h] at hl; simp at hl
  · rw [h] at hl
    simp only [List.cons.injEq, Obs.exec.injEq] at hl
    obtain ⟨⟨rfl, _, _⟩, _⟩ := hl
    have htm := isTop_mem htop
    refine ⟨(hinv.reg t').mp htm.1, fun u hu => ?_⟩
    have huq := (hinv.reg u).mpr hu
    exact ⟨s.next t', s.next u, (hinv.due t' (alive_made hat)).1, (hinv.due u (alive_made (hinv.alive u huq))).1,
      htm.2 u huq⟩

/-- How the fields about times change in a step. -/
theorem step_times {s s' : St} {e : Ev} (hs : s.step e = .ok s') :
    (∃ d, s'.now = s.now + d) ∧ ∀ t ∈ s.made, s'.interval t = s.interval t ∧
      (s'.next t = s.next t ∨ s'.next t = s'.now + s.interval t) := by
  cases e with
  | construct u iv =>
    simp only [St.step] at hs
    split at hs
    · cases hs
    · rename_i hn
      simp only [Res.ok.injEq] at hs; subst hs
      refine ⟨⟨0, rfl⟩, fun t ht => ?_⟩
      have : ¬ t = u := by rintro rfl; exact hn ht
      simp [upd, this]
  | tick d => simp only [St.step, Res.ok.injEq] at hs; subst hs; exact ⟨⟨d, rfl⟩, fun t _ => ⟨rfl, .inl rfl⟩⟩
  | register u =>
    simp only [St.step] at hs
    split at hs
    · cases hs
    · split at hs
      · simp only [Res.ok.injEq] at hs; subst hs; exact ⟨⟨0, rfl⟩, fun t _ => ⟨rfl, .inl rfl⟩⟩
      · simp only [Res.ok.injEq] at hs; subst hs; exact ⟨⟨0, rfl⟩, fun t _ => ⟨rfl, .inl rfl⟩⟩
  | unregister u =>
    simp only [St.step] at hs
    split at hs
    · cases hs
    · simp only [Res.ok.injEq] at hs; subst hs; exact ⟨⟨0, rfl⟩, fun t _ => ⟨rfl, .inl rfl⟩⟩
  | free u =>
    simp only [St.step] at hs
    split at hs
    · cases hs
    · simp only [Res.ok.injEq] at hs; subst hs; exact ⟨⟨0, rfl⟩, fun t _ => ⟨rfl, .inl rfl⟩⟩
  | start =>
    simp only [St.step] at hs
    split at hs
    · simp only [Res.ok.injEq] at hs; subst hs; exact ⟨⟨0, rfl⟩, fun t _ => ⟨rfl, .inl rfl⟩⟩
    · split at hs
      · simp only [Res.ok.injEq] at hs; subst hs; exact ⟨⟨0, rfl⟩, fun t _ => ⟨rfl, .inl rfl⟩⟩
      · cases hs
  | join => simp only [St.step, Res.ok.injEq] at hs; subst hs; exact ⟨⟨0, rfl⟩, fun t _ => ⟨rfl, .inl rfl⟩⟩
  | joined =>
    simp only [St.step] at hs
    split at hs
    · simp only [Res.ok.injEq] at hs; subst hs; exact ⟨⟨0, rfl⟩, fun t _ => ⟨rfl, .inl rfl⟩⟩
    · cases hs
  | enter top =>
    obtain ⟨_, (⟨_, rfl⟩ | ⟨_, rfl⟩ | ⟨_, _, rfl⟩)⟩ := enter_cases hs <;>
      exact ⟨⟨0, rfl⟩, fun t _ => ⟨rfl, .inl rfl⟩⟩
  | wake top d =>
    rcases step_cases hs with rfl | ⟨_, _, _, _, _, _, rfl⟩
    · exact ⟨⟨0, rfl⟩, fun t _ => ⟨rfl, .inl rfl⟩⟩
    · refine ⟨⟨d, rfl⟩, fun t _ => ⟨rfl, ?_⟩⟩
      by_cases htt : t = top
      · subst htt; simp [St.execute, upd]
      · simp [St.execute, upd, htt]

/-- New tasks in a step. -/
theorem step_new {s s' : St} {e : Ev} (hs : s.step e = .ok s') : ∀ t ∈ s'.made, t ∈ s.made ∨
    s'.next t = s'.now + s'.interval t := by
  intro t ht
  cases e with
  | construct u iv =>
    simp only [St.step] at hs
    split at hs
    · cases hs
    · simp only [Res.ok.injEq] at hs; subst hs
      rcases List.mem_cons.mp ht with rfl | ht
      · right; simp [upd]
      · exact .inl ht
  | tick d => simp only [St.step, Res.ok.injEq] at hs; subst hs; exact .inl ht
  | register u =>
    simp only [St.step] at hs
    split at hs
    · cases hs
    · split at hs
      · simp only [Res.ok.injEq] at hs; subst hs; exact .inl ht
      · simp only [Res.ok.injEq] at hs; subst hs; exact .inl ht
  | unregister u =>
    simp only [St.step] at hs
    split at hs
    · cases hs
    · simp only [Res.ok.injEq] at hs; subst hs; exact .inl ht
  | free u =>
    simp only [St.step] at hs
    split at hs
    · cases hs
    · simp only [Res.ok.injEq] at hs; subst hs; exact .inl ht
  | start =>
    simp only [St.step] at hs
    split at hs
    · simp only [Res.ok.injEq] at hs; subst hs; exact .inl ht
    · split at hs
      · simp only [Res.ok.injEq] at hs; subst hs; exact .inl ht
      · cases hs
  | join => simp only [St.step, Res.ok.injEq] at hs; subst hs; exact .inl ht
  | joined =>
    simp only [St.step] at hs
    split at hs
    · simp only [Res.ok.injEq] at hs; subst hs; exact .inl ht
    · cases hs
  | enter top =>
    obtain ⟨_, (⟨_, rfl⟩ | ⟨_, rfl⟩ | ⟨_, _, rfl⟩)⟩ := enter_cases hs <;> exact .inl ht
  | wake top d =>
    rcases step_cases hs with rfl | ⟨_, _, _, _, _, _, rfl⟩ <;> exact .inl ht

theorem next_le {es : List Ev} {s : St} (h : Reach es s) : ∀ t ∈ s.made, s.next t ≤ s.now + s.interval t := by
  induction h with
  | init => intro t ht; cases ht
  | step _ hs ih =>
    intro t ht
    rcases step_new hs t ht with h1 | h1
    · obtain ⟨⟨d, hd⟩, h2⟩ := step_times hs
      have h3 := ih t h1
      obtain ⟨h4, h5 | h5⟩ := h2 t h1 <;> omega
    · omega

theorem run_next (es : List Ev) : ∀ (s s' : St) (pre : List Ev), Reach pre s → s.run es = .ok s' →
    ∀ t ∈ s.made, t ∈ s'.made ∧ s.next t ≤ s'.next t := by
  induction es with
  | nil => intro s s' pre _ hr t ht; simp only [St.run, Res.ok.injEq] at hr; subst hr; exact ⟨ht, Nat.le_refl _⟩
  | cons e es ih =>
    intro s s' pre h hr t ht
    rw [St.run] at hr
    cases he : s.step e with
    | ok s1 =>
      rw [he] at hr
      obtain ⟨h1, h2⟩ := ih s1 s' (e :: pre) (.step h he) hr t (step_made he t ht)
      refine ⟨h1, ?_⟩
      obtain ⟨⟨d, hd⟩, h3⟩ := step_times he
      have h6 := next_le h t ht
      obtain ⟨h4, h5 | h5⟩ := h3 t ht <;> omega
    | no => rw [he] at hr; cases hr
    | ub => rw [he] at hr; cases hr

theorem due_made {es : List Ev} {s : St} (h : Reach es s) : ∀ t x, dueAt t s.log = some x → t ∈ s.made := by
  induction h with
  | init => intro t x ht; cases ht
  | @step es s e s' hr hs ih =>
    intro t x ht
    rcases step_log hs with hl | ⟨u, iv, rfl, hn, hl⟩ | ⟨u, d, rfl, _, ha, hl⟩
    · rw [hl] at ht; exact step_made hs t (ih t x ht)
    · rw [hl] at ht
      by_cases hut : u = t
      · subst hut
        simp only [St.step, if_neg hn, Res.ok.injEq] at hs
        subst hs
        exact List.mem_cons_self
      · simp only [dueAt, if_neg hut] at ht; exact step_made hs t (ih t x ht)
    · rw [hl] at ht
      by_cases hut : u = t
      · subst hut; exact step_made hs _ (alive_made ha)
      · simp only [dueAt, if_neg hut] at ht; exact step_made hs t (ih t x ht)

/-- A task whose time is smallest. -/
theorem exists_top (s : St) (h : s.queue ≠ []) : ∃ t, s.isTop t = true := by
  have key : ∀ l : List Nat, l ≠ [] → ∃ t ∈ l, ∀ u ∈ l, s.next t ≤ s.next u := by
    intro l
    induction l with
    | nil => intro h; exact absurd rfl h
    | cons a l ih =>
      intro _
      by_cases hl : l = []
      · subst hl; exact ⟨a, List.mem_cons_self, by intro u hu; simp at hu; subst hu; exact Nat.le_refl _⟩
      · obtain ⟨t, ht, hm⟩ := ih hl
        by_cases hat : s.next a ≤ s.next t
        · refine ⟨a, List.mem_cons_self, fun u hu => ?_⟩
          rcases List.mem_cons.mp hu with rfl | hu
          · exact Nat.le_refl _
          · have := hm u hu; omega
        · refine ⟨t, List.mem_cons_of_mem _ ht, fun u hu => ?_⟩
          rcases List.mem_cons.mp hu with rfl | hu
          · omega
          · exact hm u hu
  obtain ⟨t, ht, hm⟩ := key s.queue h
  refine ⟨t, ?_⟩
  simp only [St.isTop, Bool.and_eq_true, decide_eq_true_eq, List.all_eq_true]
  exact ⟨ht, hm⟩

end Bm.Periodic
