import Verif.Lemmas.Bmi
import Mathlib.Data.List.Nodup
import Mathlib.Data.List.Perm.Subperm

/-! # Lemmas about the thread of the port manager -/

namespace Bm.Bmi
open Bm.Bmi.Spec

variable {s : Sys} {S : St}

theorem of_ok {o : Option (Ev × Sys)} {e : Ev} {s' : Sys} (h : Res.of o = .ok e s') : o = some (e, s') := by
  cases o with
  | none => cases h
  | some x => obtain ⟨e', t⟩ := x; cases h; rfl

/-- What arrives changes nothing else. -/
theorem arrive_step {fd : Nat} {k : Pkt} {e : Ev} {s' : Sys} (h : s.step (.arrive fd k) = .ok e s') :
    ∃ net, s' = { s with net } ∧ e = .arrive fd k := by
  simp only [Sys.step] at h
  split at h
  · cases h
  · cases h; exact ⟨_, rfl, rfl⟩

/-- While a port is being removed, only the thread, the end of the removal and the outside make steps. -/
theorem wait_step {k : Nat} {d : Option Nat} (hk : s.ctl = .wait k d) {a : Act} {e : Ev} {s' : Sys} (h : s.step a = .ok e s') :
    (∃ fd x, a = .arrive fd x) ∨ (a = .removeEnd ∧ s.toCtl = true) ∨ (a = .select ∧ ∃ fds mf, s.pc = .select fds mf) ∨
    (a = .interrupt ∧ ∃ fds mf, s.pc = .select fds mf) ∨ (a = .bounce ∧ s.toThread = true ∧ ∃ n fds, s.pc = .bounce n fds) ∨
    (a = .iter ∧ ∃ n fds i, s.pc = .loop n fds i) := by
  cases a with
  | arrive fd x => exact .inl ⟨fd, x, rfl⟩
  | removeEnd =>
    simp only [Sys.step, hk] at h
    split at h
    · rename_i ht; exact .inr (.inl ⟨rfl, ht⟩)
    · cases h
  | select =>
    simp only [Sys.step] at h
    split at h
    · rename_i fds mf hp; exact .inr (.inr (.inl ⟨rfl, fds, mf, hp⟩))
    · cases h
  | interrupt =>
    simp only [Sys.step] at h
    split at h
    · rename_i fds mf hp; exact .inr (.inr (.inr (.inl ⟨rfl, fds, mf, hp⟩)))
    · cases h
  | bounce =>
    simp only [Sys.step] at h
    split at h
    · rename_i n fds hp
      split at h
      · rename_i ht; exact .inr (.inr (.inr (.inr (.inl ⟨rfl, ht, n, fds, hp⟩))))
      · cases h
    · cases h
  | iter =>
    simp only [Sys.step] at h
    split at h
    · rename_i n fds i hp; exact .inr (.inr (.inr (.inr (.inr ⟨rfl, n, fds, i, hp⟩))))
    · cases h
  | add p os => simp [Sys.step, Sys.canWrite, hk] at h
  | removeBegin p => simp [Sys.step, Sys.canWrite, hk] at h
  | setHandler => simp [Sys.step, Sys.canWrite, hk] at h
  | send p d net => simp [Sys.step, Sys.free, hk] at h
  | stats p => simp [Sys.step, Sys.free, hk] at h
  | clear p => simp [Sys.step, Sys.free, hk] at h
  | destroyBegin => simp [Sys.step, Sys.canWrite, hk] at h
  | destroyNext => simp [Sys.step, hk] at h
  | destroyEnd => simp [Sys.step, hk] at h
  | copy =>
    simp only [Sys.step] at h
    split at h
    · simp [Sys.canRead, hk] at h
    · cases h
  | relock =>
    simp only [Sys.step] at h
    split at h
    · simp [Sys.canRead, hk] at h
    · cases h

/-! ## A removal that hangs -/

/-- The thread waits for the lock. -/
def AtLock (s : Sys) : Prop := s.pc = .copy ∨ ∃ n fds, s.pc = .relock n fds

/-- The request waits for the thread, the thread waits for the lock that the request holds. -/
def Stuck (s : Sys) : Prop := (∃ k d, s.ctl = .wait k d) ∧ s.toCtl = false ∧ AtLock s

theorem stuck_step (h : Stuck s) {a : Act} {e : Ev} {s' : Sys} (hs : s.step a = .ok e s') :
    Stuck s' ∧ ∃ fd x, e = .arrive fd x := by
  obtain ⟨⟨k, d, hk⟩, ht, hp⟩ := h
  rcases wait_step hk hs with ⟨fd, x, rfl⟩ | ⟨_, h⟩ | ⟨_, fds, mf, h⟩ | ⟨_, fds, mf, h⟩ | ⟨_, _, n, fds, h⟩ | ⟨_, n, fds, i, h⟩
  · obtain ⟨net, rfl, rfl⟩ := arrive_step hs
    exact ⟨⟨⟨k, d, hk⟩, ht, hp⟩, fd, x, rfl⟩
  · rw [ht] at h; cases h
  all_goals rcases hp with hp | ⟨_, _, hp⟩ <;> rw [hp] at h <;> cases h

/-- Nothing but arriving packets is seen any more. -/
theorem stuck_run : ∀ (as : List Act) (s : Sys), Stuck s → ∀ es s', s.run as = .ok es s' →
    Stuck s' ∧ ∀ e ∈ es, ∃ fd x, e = .arrive fd x
  | [], s, h, es, s', hr => by
    simp only [Sys.run] at hr
    cases hr
    exact ⟨h, by simp⟩
  | a :: as, s, h, es, s', hr => by
    simp only [Sys.run] at hr
    cases hs : s.step a with
    | blocked => rw [hs] at hr; cases hr
    | bad => rw [hs] at hr; cases hr
    | ok e t =>
      rw [hs] at hr
      simp only [] at hr
      obtain ⟨h1, h2⟩ := stuck_step h hs
      cases ht : t.run as with
      | blocked => rw [ht] at hr; cases hr
      | bad => rw [ht] at hr; cases hr
      | ok es' t' =>
        rw [ht] at hr
        simp only [] at hr
        cases hr
        obtain ⟨i1, i2⟩ := stuck_run as t h1 es' s' ht
        refine ⟨i1, ?_⟩
        intro e' he'
        rcases List.mem_cons.1 he' with rfl | he'
        · exact h2
        · exact i2 e' he'

theorem removeBegin_shape (h : Inv s) {p : Int} {s' : Sys} (hs : s.step (.removeBegin p) = .ok (.removeBegin p) s') :
    s.ctl = .idle ∧ ∃ k x, Live s.m k x ∧ x.port = p ∧
      s' = { s with
        m := { s.m with fds := upd s.m.fds x.fd false }
        toThread := true
        ctl := .wait k none } := by
  simp only [Sys.step] at hs
  by_cases hcan : s.canWrite = true
  case neg => rw [if_neg hcan] at hs; cases hs
  rw [if_pos hcan] at hs
  refine ⟨canWrite_idle hcan, ?_⟩
  rcases getPort_ok h.core.tab p with ⟨k, x, h1, h2, h3, h4⟩ | ⟨h1, h2⟩
  · simp only [Sys.removeBegin, h1, h3, Option.bind_eq_bind, Option.bind_some, Option.isNone_none, if_true, Res.of] at hs
    cases hs
    exact ⟨k, x, ⟨h2, h3⟩, h4, rfl⟩
  · simp only [Sys.removeBegin, h1, Option.bind_eq_bind, Option.bind_some, Res.of] at hs
    cases hs

theorem idle_bytes (h : Inv s) (hi : s.ctl = .idle) : s.toThread = false ∧ s.toCtl = false := by
  rcases h.ctl with h | ⟨idx, e, _⟩
  · exact h.2
  · rw [hi] at e; cases e

/-! ## A removal that ends -/

/-- How far a removal is from its end. -/
inductive Stage (p : Int) : Nat → Sys → Prop
  | three s k x fds mf : Inv s → s.ctl = .wait k none → Live s.m k x → x.port = p → s.toThread = true →
    s.pc = .select fds mf → (s.m.sp1 : Int) ≤ mf → Stage p 3 s
  | two s k x n fds : Inv s → s.ctl = .wait k none → Live s.m k x → x.port = p → s.toThread = true →
    s.pc = .bounce n fds → Stage p 2 s
  | one s k x : Inv s → s.ctl = .wait k none → Live s.m k x → x.port = p → s.toCtl = true → AtLock s → Stage p 1 s

theorem after_inv (h : Inv s) (r : Rel s S) {a : Act} (ha : Fits a) {e : Ev} {s' : Sys} (hs : s.step a = .ok e s') :
    Inv s' ∧ ∃ S', Rel s' S' := by
  have := step_ok h r a ha
  rw [hs] at this
  exact ⟨this.1, this.2.2.imp fun _ x => x.2⟩

/-- There is a state of the specification for every state (its histories are made up). -/
theorem select_bit (s : Sys) (fds : Nat → Bool) (mf : Int) (h1 : fds s.m.sp1 = true) (h2 : s.toThread = true)
    (h3 : (s.m.sp1 : Int) ≤ mf) {n : Nat} {r : Nat → Bool} (h : s.select fds (mf + 1).toNat = some (n, r)) :
    r s.m.sp1 = true := by
  simp only [Sys.select] at h
  split at h
  · cases h
    simp only []
    split
    · simp [h1, Sys.ready, h2]; omega
    · exact h1
  · cases h

theorem stage_step {p : Int} {j : Nat} (h : Stage p j s) (r : Rel s S) {a : Act} (ha : Fits a) {e : Ev} {s' : Sys}
    (hs : s.step a = .ok e s') :
    (∃ fd x, a = .arrive fd x ∧ e = .arrive fd x ∧ Stage p j s') ∨
    ((∀ fd x, a ≠ .arrive fd x) ∧ ((2 ≤ j ∧ Stage p (j - 1) s') ∨ (j = 1 ∧ e = .removeEnd p))) := by
  cases h with
  | three _ k x fds mf hI hk hl hx ht hp hm =>
    have hI' := (after_inv hI r ha hs).1
    obtain ⟨b1, b2, _⟩ := hI.sel fds mf hp
    rcases wait_step hk hs with ⟨fd, y, rfl⟩ | ⟨_, h⟩ | ⟨rfl, fds', mf', h⟩ | ⟨rfl, fds', mf', h⟩ | ⟨_, _, n, fds', h⟩ |
      ⟨_, n, fds', i, h⟩
    · obtain ⟨net, rfl, rfl⟩ := arrive_step hs
      exact .inl ⟨fd, y, rfl, rfl, .three _ k x fds mf hI' hk hl hx ht hp hm⟩
    · rcases hI.ctl with ⟨hi, _⟩ | ⟨_, _, _, _, ⟨_, h'⟩ | ⟨h', _⟩⟩
      · rw [hk] at hi; cases hi
      · rw [h'] at h; cases h
      · rw [h'] at ht; cases ht
    · right
      refine ⟨nofun, .inl ⟨by omega, ?_⟩⟩
      simp only [Sys.step, hp] at hs
      cases hsel : s.select fds (mf + 1).toNat with
      | none => rw [hsel] at hs; cases hs
      | some x' =>
        obtain ⟨n, r'⟩ := x'
        rw [hsel] at hs
        cases hs
        have := select_bit s fds mf b1 ht hm hsel
        refine .two _ k x n r' hI' hk hl hx ht ?_
        simp only [Sys.afterSelect]
        rw [if_neg (by omega), if_pos this]
    · right
      refine ⟨nofun, .inl ⟨by omega, ?_⟩⟩
      simp only [Sys.step, hp] at hs
      cases hs
      refine .two _ k x (-1) fds hI' hk hl hx ht ?_
      simp only [Sys.afterSelect]
      rw [if_neg (by omega), if_pos b1]
    · rw [hp] at h; cases h
    · rw [hp] at h; cases h
  | two _ k x n fds hI hk hl hx ht hp =>
    have hI' := (after_inv hI r ha hs).1
    rcases wait_step hk hs with ⟨fd, y, rfl⟩ | ⟨_, h⟩ | ⟨rfl, fds', mf', h⟩ | ⟨rfl, fds', mf', h⟩ | ⟨rfl, _, n', fds', h⟩ |
      ⟨_, n', fds', i, h⟩
    · obtain ⟨net, rfl, rfl⟩ := arrive_step hs
      exact .inl ⟨fd, y, rfl, rfl, .two _ k x n fds hI' hk hl hx ht hp⟩
    · rcases hI.ctl with ⟨hi, _⟩ | ⟨_, _, _, _, ⟨_, h'⟩ | ⟨h', _⟩⟩
      · rw [hk] at hi; cases hi
      · rw [h'] at h; cases h
      · rw [h'] at ht; cases ht
    · rw [hp] at h; cases h
    · rw [hp] at h; cases h
    · right
      refine ⟨nofun, .inl ⟨by omega, ?_⟩⟩
      simp only [Sys.step, hp, ht, if_true] at hs
      cases hs
      refine .one _ k x hI' hk hl hx rfl ?_
      simp only [AtLock, Pc.go]
      split
      · exact .inl rfl
      · exact .inr ⟨_, _, rfl⟩
    · rw [hp] at h; cases h
  | one _ k x hI hk hl hx ht hp =>
    have hI' := (after_inv hI r ha hs).1
    rcases wait_step hk hs with ⟨fd, y, rfl⟩ | ⟨rfl, h⟩ | ⟨rfl, fds', mf', h⟩ | ⟨rfl, fds', mf', h⟩ | ⟨rfl, _, n', fds', h⟩ |
      ⟨_, n', fds', i, h⟩
    · obtain ⟨net, rfl, rfl⟩ := arrive_step hs
      exact .inl ⟨fd, y, rfl, rfl, .one _ k x hI' hk hl hx ht hp⟩
    · right
      refine ⟨nofun, .inr ⟨rfl, ?_⟩⟩
      simp only [Sys.step, hk, ht, if_true] at hs
      have hs := of_ok hs
      simp only [Sys.removeEnd, hl.2, Option.bind_eq_bind, Option.bind_some] at hs
      rw [Option.bind_eq_some_iff] at hs
      obtain ⟨b, hb, hs⟩ := hs
      rw [Option.bind_eq_some_iff] at hs
      obtain ⟨fd, hfd, hs⟩ := hs
      rw [Option.bind_eq_some_iff] at hs
      obtain ⟨f, hf, hs⟩ := hs
      have hsel : s.pc.selects fd = false := by
        rcases hp with h | ⟨n, fds, h⟩ <;> rw [h] <;> rfl
      simp only [hsel, Bool.false_eq_true, if_false] at hs
      rw [Option.bind_eq_some_iff] at hs
      obtain ⟨m, hm, hs⟩ := hs
      simp only [Option.isNone_none, if_true] at hs
      cases hs
      rw [hx]
    all_goals rcases hp with hp | ⟨_, _, hp⟩ <;> rw [hp] at h <;> cases h

/-- A removal on its way to its end can go on. -/
theorem stage_next {p : Int} {j : Nat} (h : Stage p j s) (r : Rel s S) :
    ∃ a e s', (∀ fd x, a ≠ .arrive fd x) ∧ Fits a ∧ s.step a = .ok e s' := by
  cases h with
  | three _ k x fds mf hI hk hl hx ht hp hm =>
    have h := step_ok hI r .select trivial
    have : s.step .select ≠ .blocked := by
      simp only [Sys.step, hp]
      cases s.select fds (mf + 1).toNat with
      | none => simp
      | some y => simp
    cases hs : s.step .select with
    | blocked => exact absurd hs this
    | bad => rw [hs] at h; exact h.elim
    | ok e s' => exact ⟨.select, e, s', nofun, trivial, hs⟩
  | two _ k x n fds hI hk hl hx ht hp =>
    refine ⟨.bounce, .tau, { s with toThread := false, toCtl := true, pc := .go (n - 1) fds }, nofun, trivial, ?_⟩
    simp only [Sys.step, hp, ht, if_true]
  | one _ k x hI hk hl hx ht hp =>
    have h := step_ok hI r .removeEnd trivial
    have : s.step .removeEnd ≠ .blocked := by
      simp only [Sys.step, hk, ht, if_true]
      cases s.removeEnd k none with
      | none => simp [Res.of]
      | some y => simp [Res.of]
    cases hs : s.step .removeEnd with
    | blocked => exact absurd hs this
    | bad => rw [hs] at h; exact h.elim
    | ok e s' => exact ⟨.removeEnd, e, s', nofun, trivial, hs⟩

/-- Steps other than arriving packets. -/
def own : List Act → Nat
  | [] => 0
  | .arrive _ _ :: as => own as
  | _ :: as => own as + 1

theorem own_cons {a : Act} {as : List Act} (h : ∀ fd x, a ≠ .arrive fd x) : own (a :: as) = own as + 1 := by
  cases a <;> first | rfl | exact absurd rfl (h _ _)

theorem run_cons {a : Act} {as : List Act} {es : List Ev} {s' : Sys} (h : s.run (a :: as) = .ok es s') :
    ∃ e t es', s.step a = .ok e t ∧ t.run as = .ok es' s' ∧ es = e :: es' := by
  simp only [Sys.run] at h
  cases hs : s.step a with
  | blocked => rw [hs] at h; cases h
  | bad => rw [hs] at h; cases h
  | ok e t =>
    rw [hs] at h
    simp only [] at h
    cases ht : t.run as with
    | blocked => rw [ht] at h; cases h
    | bad => rw [ht] at h; cases h
    | ok es' t' =>
      rw [ht] at h
      simp only [] at h
      cases h
      exact ⟨e, t, es', rfl, ht, rfl⟩

theorem stage_run {p : Int} : ∀ (as : List Act) (s : Sys) (S : St) (j : Nat), Stage p j s → Rel s S → (∀ a ∈ as, Fits a) →
    ∀ es s', s.run as = .ok es s' → .removeEnd p ∈ es ∨ ∃ j' S', Stage p j' s' ∧ Rel s' S' ∧ j' + own as = j
  | [], s, S, j, h, r, _, es, s', hr => by
    simp only [Sys.run] at hr
    cases hr
    exact .inr ⟨j, S, h, r, rfl⟩
  | a :: as, s, S, j, h, r, hf, es, s', hr => by
    obtain ⟨e, t, es', hs, ht, rfl⟩ := run_cons hr
    have hI : Inv s := by cases h <;> assumption
    obtain ⟨hI', S', r'⟩ := after_inv hI r (hf a (by simp)) hs
    have hf' : ∀ a ∈ as, Fits a := fun a h => hf a (by simp [h])
    rcases stage_step h r (hf a (by simp)) hs with ⟨fd, x, rfl, _, h'⟩ | ⟨hn, ⟨hj, h'⟩ | ⟨_, rfl⟩⟩
    · rcases stage_run as t S' j h' r' hf' es' s' ht with h | ⟨j', S'', a1, a2, a3⟩
      · exact .inl (by simp [h])
      · exact .inr ⟨j', S'', a1, a2, a3⟩
    · rcases stage_run as t S' (j - 1) h' r' hf' es' s' ht with h | ⟨j', S'', a1, a2, a3⟩
      · exact .inl (by simp [h])
      · refine .inr ⟨j', S'', a1, a2, ?_⟩
        rw [own_cons hn]; omega
    · exact .inl (by simp)

/-! ## The socket pair has a larger descriptor than the ports -/

/-- The thread will not see the byte. -/
def Low (s : Sys) : Prop := (∃ k d, s.ctl = .wait k d) ∧ s.toCtl = false ∧
  (AtLock s ∨ ∃ fds mf, s.pc = .select fds mf ∧ 0 ≤ mf ∧ mf < (s.m.sp1 : Int) ∧ s.m.sp1 < 64)

theorem go_atLock (n : Int) (fds : Nat → Bool) : Pc.go n fds = .copy ∨ ∃ n' fds', Pc.go n fds = .relock n' fds' := by
  simp only [Pc.go]
  split
  · exact .inl rfl
  · exact .inr ⟨_, _, rfl⟩

theorem low_step (h : Low s) {a : Act} (ha : a ≠ .interrupt) {e : Ev} {s' : Sys} (hs : s.step a = .ok e s') :
    Low s' ∧ ∀ p, e ≠ .removeEnd p := by
  obtain ⟨⟨k, d, hk⟩, ht, hp⟩ := h
  rcases wait_step hk hs with ⟨fd, x, rfl⟩ | ⟨_, h⟩ | ⟨rfl, fds, mf, h⟩ | ⟨rfl, fds, mf, h⟩ | ⟨_, _, n, fds, h⟩ | ⟨_, n, fds, i, h⟩
  · obtain ⟨net, rfl, rfl⟩ := arrive_step hs
    exact ⟨⟨⟨k, d, hk⟩, ht, hp⟩, nofun⟩
  · rw [ht] at h; cases h
  · rcases hp with (hp | ⟨_, _, hp⟩) | ⟨fds', mf', hp, h1, h2, h3⟩
    · rw [hp] at h; cases h
    · rw [hp] at h; cases h
    · rw [hp] at h; cases h
      simp only [Sys.step, hp] at hs
      cases hsel : s.select fds (mf + 1).toNat with
      | none => rw [hsel] at hs; cases hs
      | some y =>
        obtain ⟨n, r⟩ := y
        rw [hsel] at hs
        cases hs
        have hr : r s.m.sp1 = false := by
          simp only [Sys.select] at hsel
          split at hsel
          · cases hsel
            simp only []
            rw [if_pos (by omega)]
            have : ¬ s.m.sp1 < (mf + 1).toNat := by omega
            simp [this]
          · cases hsel
        refine ⟨⟨⟨k, d, hk⟩, ht, .inl ?_⟩, nofun⟩
        simp only [AtLock, Sys.afterSelect]
        rw [if_neg (by omega), hr]
        exact go_atLock _ _
  · exact absurd rfl ha
  all_goals rcases hp with (hp | ⟨_, _, hp⟩) | ⟨_, _, hp, _⟩ <;> rw [hp] at h <;> cases h

theorem low_run : ∀ (as : List Act) (s : Sys), Low s → (∀ a ∈ as, a ≠ .interrupt) → ∀ es s', s.run as = .ok es s' →
    Low s' ∧ ∀ p, .removeEnd p ∉ es
  | [], s, h, _, es, s', hr => by
    simp only [Sys.run] at hr
    cases hr
    exact ⟨h, by simp⟩
  | a :: as, s, h, ha, es, s', hr => by
    obtain ⟨e, t, es', hs, ht, rfl⟩ := run_cons hr
    obtain ⟨h1, h2⟩ := low_step h (ha a (by simp)) hs
    obtain ⟨i1, i2⟩ := low_run as t h1 (fun a h => ha a (by simp [h])) es' s' ht
    refine ⟨i1, fun p hp => ?_⟩
    rcases List.mem_cons.1 hp with h | h
    · exact h2 p h.symm
    · exact i2 p h

/-! ## After a signal -/

/-- The thread waits for a byte that nobody sends. -/
def Deaf (s : Sys) : Prop := (∃ n fds, s.pc = .bounce n fds) ∧ s.ctl = .idle ∧ s.toThread = false

/-- The state of the threads. -/
def Same (s s' : Sys) : Prop := s'.pc = s.pc ∧ s'.ctl = s.ctl ∧ s'.toThread = s.toThread

theorem Same.rfl' : Same s s := ⟨rfl, rfl, rfl⟩

/-- A packet is taken from an interface. -/
def Takes (e : Ev) : Prop := (∃ p d, e = .deliver p d) ∨ ∃ p, e = .cut p

theorem attach_same {p : Int} {b fd : Nat} {s' : Sys} (h : s.attach p b fd = some s') : Same s s' := by
  simp only [Sys.attach, Option.bind_eq_bind] at h
  rw [Option.bind_eq_some_iff] at h
  obtain ⟨⟨r, m⟩, _, h⟩ := h
  rw [Option.bind_eq_some_iff] at h
  obtain ⟨a, _, h⟩ := h
  rw [Option.bind_eq_some_iff] at h
  obtain ⟨x, _, h⟩ := h
  rw [Option.bind_eq_some_iff] at h
  obtain ⟨fds, _, h⟩ := h
  cases h
  exact .rfl'

theorem add_same {p : Int} {os : Option (Nat × Nat)} {e : Ev} {s' : Sys} (h : s.add p os = some (e, s')) :
    Same s s' ∧ ¬ Takes e := by
  simp only [Sys.add, Option.bind_eq_bind] at h
  rw [Option.bind_eq_some_iff] at h
  obtain ⟨r, _, h⟩ := h
  split at h
  · cases h; exact ⟨.rfl', by rintro (⟨_, _, h⟩ | ⟨_, h⟩) <;> cases h⟩
  · split at h
    · cases h; exact ⟨.rfl', by rintro (⟨_, _, h⟩ | ⟨_, h⟩) <;> cases h⟩
    · split at h
      · cases h; exact ⟨.rfl', by rintro (⟨_, _, h⟩ | ⟨_, h⟩) <;> cases h⟩
      · rw [Option.bind_eq_some_iff] at h
        obtain ⟨t, ht, h⟩ := h
        cases h
        exact ⟨attach_same ht, by rintro (⟨_, _, h⟩ | ⟨_, h⟩) <;> cases h⟩

theorem send_same {p : Int} {d : Bytes} {net : Bool} {e : Ev} {s' : Sys} (h : s.send p d net = some (e, s')) :
    Same s s' ∧ ¬ Takes e := by
  simp only [Sys.send, Option.bind_eq_bind] at h
  rw [Option.bind_eq_some_iff] at h
  obtain ⟨r, _, h⟩ := h
  split at h
  · cases h; exact ⟨.rfl', by rintro (⟨_, _, h⟩ | ⟨_, h⟩) <;> cases h⟩
  · rw [Option.bind_eq_some_iff] at h
    obtain ⟨x, _, h⟩ := h
    rw [Option.bind_eq_some_iff] at h
    obtain ⟨b, _, h⟩ := h
    rw [Option.bind_eq_some_iff] at h
    obtain ⟨fd, _, h⟩ := h
    rw [Option.bind_eq_some_iff] at h
    obtain ⟨f, _, h⟩ := h
    split at h
    · cases h; exact ⟨.rfl', by rintro (⟨_, _, h⟩ | ⟨_, h⟩) <;> cases h⟩
    · cases h; exact ⟨.rfl', by rintro (⟨_, _, h⟩ | ⟨_, h⟩) <;> cases h⟩

theorem stats_same {p : Int} {e : Ev} {s' : Sys} (h : s.stats p = some (e, s')) : Same s s' ∧ ¬ Takes e := by
  simp only [Sys.stats, Option.bind_eq_bind] at h
  rw [Option.bind_eq_some_iff] at h
  obtain ⟨r, _, h⟩ := h
  split at h
  · cases h; exact ⟨.rfl', by rintro (⟨_, _, h⟩ | ⟨_, h⟩) <;> cases h⟩
  · rw [Option.bind_eq_some_iff] at h
    obtain ⟨x, _, h⟩ := h
    cases h; exact ⟨.rfl', by rintro (⟨_, _, h⟩ | ⟨_, h⟩) <;> cases h⟩

theorem clear_same {p : Int} {e : Ev} {s' : Sys} (h : s.clear p = some (e, s')) : Same s s' ∧ ¬ Takes e := by
  simp only [Sys.clear, Option.bind_eq_bind] at h
  rw [Option.bind_eq_some_iff] at h
  obtain ⟨r, _, h⟩ := h
  split at h
  · cases h; exact ⟨.rfl', by rintro (⟨_, _, h⟩ | ⟨_, h⟩) <;> cases h⟩
  · rw [Option.bind_eq_some_iff] at h
    obtain ⟨x, _, h⟩ := h
    cases h; exact ⟨.rfl', by rintro (⟨_, _, h⟩ | ⟨_, h⟩) <;> cases h⟩

/-- Requests other than removing and destroying. -/
def Lets : Act → Prop
  | .removeBegin _ => False
  | .destroyBegin => False
  | _ => True

theorem deaf_step (h : Deaf s) {a : Act} (ha : Lets a) {e : Ev} {s' : Sys} (hs : s.step a = .ok e s') :
    Deaf s' ∧ ¬ Takes e := by
  obtain ⟨⟨n, fds, hp⟩, hi, ht⟩ := h
  have key : Same s s' → Deaf s' := by
    rintro ⟨h1, h2, h3⟩
    exact ⟨⟨n, fds, h1.trans hp⟩, h2.trans hi, h3.trans ht⟩
  cases a with
  | arrive fd x =>
    obtain ⟨net, rfl, rfl⟩ := arrive_step hs
    exact ⟨⟨⟨n, fds, hp⟩, hi, ht⟩, by rintro (⟨_, _, h⟩ | ⟨_, h⟩) <;> cases h⟩
  | add p os =>
    simp only [Sys.step] at hs
    split at hs
    · exact (add_same (of_ok hs)).imp_left key
    · cases hs
  | send p d net =>
    simp only [Sys.step] at hs
    split at hs
    · exact (send_same (of_ok hs)).imp_left key
    · cases hs
  | stats p =>
    simp only [Sys.step] at hs
    split at hs
    · exact (stats_same (of_ok hs)).imp_left key
    · cases hs
  | clear p =>
    simp only [Sys.step] at hs
    split at hs
    · exact (clear_same (of_ok hs)).imp_left key
    · cases hs
  | setHandler =>
    simp only [Sys.step] at hs
    split at hs
    · cases hs
      exact ⟨⟨⟨n, fds, hp⟩, hi, ht⟩, by rintro (⟨_, _, h⟩ | ⟨_, h⟩) <;> cases h⟩
    · cases hs
  | removeBegin p => exact ha.elim
  | destroyBegin => exact ha.elim
  | removeEnd => simp [Sys.step, hi] at hs
  | destroyNext => simp [Sys.step, hi] at hs
  | destroyEnd => simp [Sys.step, hi] at hs
  | copy => simp [Sys.step, hp] at hs
  | select => simp [Sys.step, hp] at hs
  | interrupt => simp [Sys.step, hp] at hs
  | bounce => simp [Sys.step, hp, ht] at hs
  | relock => simp [Sys.step, hp] at hs
  | iter => simp [Sys.step, hp] at hs

theorem deaf_run : ∀ (as : List Act) (s : Sys), Deaf s → (∀ a ∈ as, Lets a) → ∀ es s', s.run as = .ok es s' →
    Deaf s' ∧ ∀ e ∈ es, ¬ Takes e
  | [], s, h, _, es, s', hr => by
    simp only [Sys.run] at hr
    cases hr
    exact ⟨h, by simp⟩
  | a :: as, s, h, ha, es, s', hr => by
    obtain ⟨e, t, es', hs, ht, rfl⟩ := run_cons hr
    obtain ⟨h1, h2⟩ := deaf_step h (ha a (by simp)) hs
    obtain ⟨i1, i2⟩ := deaf_run as t h1 (fun a h => ha a (by simp [h])) es' s' ht
    refine ⟨i1, fun e' he' => ?_⟩
    rcases List.mem_cons.1 he' with h | h
    · exact h ▸ h2
    · exact i2 e' h

/-! ## Destroying -/

theorem tab_delete {m m' : Mgr} (ht : Tab m) {k : Nat} (hk : k < m.count) (h : m.deletePort k = some m') :
    Tab { m' with count := m'.count - 1 } ∧ m'.count = m.count := by
  obtain ⟨ports, d1, d2, d3, d4⟩ := deletePort_ok ht hk
  rw [d1] at h
  cases h
  refine ⟨⟨d2, ?_, ?_⟩, rfl⟩
  · have := ht.cnt
    show m.count - 1 ≤ m.max; omega
  · intro i j a c hij hj ha hc
    simp only [] at hj ha hc
    have key : ∀ i, i < m.count - 1 → ports[i]? = m.ports[if i < k then i else i + 1]? := by
      intro i hi
      split
      · rename_i h; exact d3 i h
      · exact d4 i (by omega) (by omega)
    rw [key i (by omega)] at ha
    rw [key j (by omega)] at hc
    refine ht.sorted _ _ a c ?_ ?_ ha hc
    · split <;> split <;> omega
    · split <;> omega

/-- While the loop of `bmi_port_destroy_mgr` runs. -/
theorem destroy_step {i : Nat} (hk : s.ctl = .destroy i) {a : Act} {e : Ev} {s' : Sys} (h : s.step a = .ok e s') :
    (∃ fd x, a = .arrive fd x) ∨ a = .destroyNext ∨ (a = .select ∧ ∃ fds mf, s.pc = .select fds mf) ∨
    (a = .interrupt ∧ ∃ fds mf, s.pc = .select fds mf) ∨ (a = .bounce ∧ s.toThread = true ∧ ∃ n fds, s.pc = .bounce n fds) ∨
    (a = .iter ∧ ∃ n fds i, s.pc = .loop n fds i) := by
  cases a with
  | arrive fd x => exact .inl ⟨fd, x, rfl⟩
  | destroyNext => exact .inr (.inl rfl)
  | select =>
    simp only [Sys.step] at h
    split at h
    · rename_i fds mf hp; exact .inr (.inr (.inl ⟨rfl, fds, mf, hp⟩))
    · cases h
  | interrupt =>
    simp only [Sys.step] at h
    split at h
    · rename_i fds mf hp; exact .inr (.inr (.inr (.inl ⟨rfl, fds, mf, hp⟩)))
    · cases h
  | bounce =>
    simp only [Sys.step] at h
    split at h
    · rename_i n fds hp
      split at h
      · rename_i ht; exact .inr (.inr (.inr (.inr (.inl ⟨rfl, ht, n, fds, hp⟩))))
      · cases h
    · cases h
  | iter =>
    simp only [Sys.step] at h
    split at h
    · rename_i n fds i hp; exact .inr (.inr (.inr (.inr (.inr ⟨rfl, n, fds, i, hp⟩))))
    · cases h
  | removeEnd => simp [Sys.step, hk] at h
  | add p os => simp [Sys.step, Sys.canWrite, hk] at h
  | removeBegin p => simp [Sys.step, Sys.canWrite, hk] at h
  | setHandler => simp [Sys.step, Sys.canWrite, hk] at h
  | send p d net => simp [Sys.step, Sys.free, hk] at h
  | stats p => simp [Sys.step, Sys.free, hk] at h
  | clear p => simp [Sys.step, Sys.free, hk] at h
  | destroyBegin => simp [Sys.step, Sys.canWrite, hk] at h
  | destroyEnd => simp [Sys.step, hk] at h
  | copy =>
    simp only [Sys.step] at h
    split at h
    · simp [Sys.canRead, hk] at h
    · cases h
  | relock =>
    simp only [Sys.step] at h
    split at h
    · simp [Sys.canRead, hk] at h
    · cases h

/-- The manager with three ports is being destroyed. -/
inductive Doomed : Sys → Prop
  | first s : Tab s.m → s.ctl = .destroy 0 → 3 ≤ s.m.count → s.toThread = false → s.toCtl = false →
    (∀ n fds i, s.pc ≠ .loop n fds i) → Doomed s
  | wait s k : Tab s.m → s.ctl = .wait k (some 0) → k < s.m.count → 3 ≤ s.m.count → (s.toCtl = false ∨ AtLock s) →
    (∀ n fds i, s.pc ≠ .loop n fds i) → Doomed s
  | second s : Tab s.m → s.ctl = .destroy 1 → 2 ≤ s.m.count → s.toCtl = false → AtLock s → Doomed s
  | stuck s : Stuck s → Doomed s

theorem destroyNext_shape (ht : Tab s.m) {i : Nat} (hi : i < s.m.count) {e : Ev} {s' : Sys} (hk : s.ctl = .destroy i)
    (hs : s.step .destroyNext = .ok e s') : ∃ k fds, k < s.m.count ∧ e = .tau ∧
      s' = { s with
        m := { s.m with fds := fds }
        toThread := true
        ctl := .wait k (some i) } := by
  simp only [Sys.step, hk, if_pos hi] at hs
  have hl : i < s.m.ports.length := by have := ht.len; have := ht.cnt; omega
  rw [List.getElem?_eq_getElem hl] at hs
  simp only [] at hs
  have hx : s.m.ports[i]? = some s.m.ports[i] := List.getElem?_eq_getElem hl
  generalize s.m.ports[i] = x at hs hx
  have hs := of_ok hs
  rcases getPort_ok ht x.port with ⟨k, y, h1, h2, h3, h4⟩ | ⟨h1, h2⟩
  · simp only [Sys.removeBegin, h1, h3, Option.bind_eq_bind, Option.bind_some, Option.isNone_some, Bool.false_eq_true,
      if_false] at hs
    cases hs
    exact ⟨k, _, h2, rfl, rfl⟩
  · exact absurd rfl (h2 i x hi hx)

theorem after_noLoop {mf n : Int} {r : Nat → Bool} : ∀ n' fds i, (s.afterSelect mf n r).pc ≠ .loop n' fds i := by
  intro n' fds i e
  simp only [Sys.afterSelect, Pc.go] at e
  repeat' split at e
  all_goals cases e

theorem atLock_not {fds : Nat → Bool} {mf : Int} (h : AtLock s) (h' : s.pc = .select fds mf) : False := by
  rcases h with h | ⟨_, _, h⟩ <;> rw [h'] at h <;> cases h

/-- A step of the thread in `select`. -/
theorem select_shape {a : Act} (ha : a = .select ∨ a = .interrupt) {fds : Nat → Bool} {mf : Int} (hp : s.pc = .select fds mf)
    {e : Ev} {s' : Sys} (hs : s.step a = .ok e s') : e = .tau ∧ ∃ n r, s' = s.afterSelect mf n r := by
  rcases ha with rfl | rfl
  · simp only [Sys.step, hp] at hs
    cases hsel : s.select fds (mf + 1).toNat with
    | none => rw [hsel] at hs; cases hs
    | some y => rw [hsel] at hs; cases hs; exact ⟨rfl, _, _, rfl⟩
  · simp only [Sys.step, hp] at hs
    cases hs; exact ⟨rfl, _, _, rfl⟩

theorem doomed_step (h : Doomed s) {a : Act} {e : Ev} {s' : Sys} (hs : s.step a = .ok e s') :
    Doomed s' ∧ e ≠ .destroyEnd := by
  cases h with
  | first ht hk hc h1 h2 hp =>
    rcases destroy_step hk hs with ⟨fd, x, rfl⟩ | rfl | ⟨rfl, fds, mf, h⟩ | ⟨rfl, fds, mf, h⟩ | ⟨_, h, _⟩ | ⟨_, n, fds, i, h⟩
    · obtain ⟨net, rfl, rfl⟩ := arrive_step hs
      exact ⟨.first _ ht hk hc h1 h2 hp, nofun⟩
    · obtain ⟨k, fds, e1, rfl, rfl⟩ := destroyNext_shape ht (by omega) hk hs
      exact ⟨.wait _ k ⟨ht.len, ht.cnt, ht.sorted⟩ rfl e1 hc (.inl h2) hp, nofun⟩
    · obtain ⟨rfl, n, r, rfl⟩ := select_shape (.inl rfl) h hs
      exact ⟨.first _ ht hk hc h1 h2 after_noLoop, nofun⟩
    · obtain ⟨rfl, n, r, rfl⟩ := select_shape (.inr rfl) h hs
      exact ⟨.first _ ht hk hc h1 h2 after_noLoop, nofun⟩
    · rw [h1] at h; cases h
    · exact absurd h (hp n fds i)
  | wait k ht hk hkc hc h1 hp =>
    rcases wait_step hk hs with ⟨fd, x, rfl⟩ | ⟨rfl, h⟩ | ⟨rfl, fds, mf, h⟩ | ⟨rfl, fds, mf, h⟩ | ⟨rfl, h, n, fds, h'⟩ |
      ⟨_, n, fds, i, h⟩
    · obtain ⟨net, rfl, rfl⟩ := arrive_step hs
      exact ⟨.wait _ k ht hk hkc hc h1 hp, nofun⟩
    · have hat : AtLock s := by
        rcases h1 with h1 | h1
        · rw [h1] at h; cases h
        · exact h1
      simp only [Sys.step, hk, h, if_true] at hs
      have hs := of_ok hs
      simp only [Sys.removeEnd, Option.bind_eq_bind] at hs
      rw [Option.bind_eq_some_iff] at hs
      obtain ⟨x, _, hs⟩ := hs
      rw [Option.bind_eq_some_iff] at hs
      obtain ⟨b, hb, hs⟩ := hs
      rw [Option.bind_eq_some_iff] at hs
      obtain ⟨fd, hfd, hs⟩ := hs
      rw [Option.bind_eq_some_iff] at hs
      obtain ⟨f, hf, hs⟩ := hs
      have hsel : s.pc.selects fd = false := by
        rcases hat with h | ⟨n, fds, h⟩ <;> rw [h] <;> rfl
      simp only [hsel, Bool.false_eq_true, if_false] at hs
      rw [Option.bind_eq_some_iff] at hs
      obtain ⟨m, hm, hs⟩ := hs
      simp only [Option.isNone_some, Bool.false_eq_true, if_false] at hs
      cases hs
      obtain ⟨t1, t2⟩ := tab_delete ht hkc hm
      refine ⟨.second _ t1 rfl ?_ rfl hat, nofun⟩
      show 2 ≤ m.count - 1
      omega
    · obtain ⟨rfl, n, r, rfl⟩ := select_shape (.inl rfl) h hs
      refine ⟨.wait _ k ht hk hkc hc (.inl ?_) after_noLoop, nofun⟩
      rcases h1 with h1 | h1
      · exact h1
      · exact (atLock_not h1 h).elim
    · obtain ⟨rfl, n, r, rfl⟩ := select_shape (.inr rfl) h hs
      refine ⟨.wait _ k ht hk hkc hc (.inl ?_) after_noLoop, nofun⟩
      rcases h1 with h1 | h1
      · exact h1
      · exact (atLock_not h1 h).elim
    · simp only [Sys.step, h', h, if_true] at hs
      cases hs
      have := go_atLock (n - 1) fds
      refine ⟨.wait _ k ht hk hkc hc (.inr this) ?_, nofun⟩
      intro n' fds' i e
      simp only [] at e
      rcases this with h | ⟨_, _, h⟩ <;> rw [h] at e <;> cases e
    · exact absurd h (hp n fds i)
  | second ht hk hc h1 hp =>
    rcases destroy_step hk hs with ⟨fd, x, rfl⟩ | rfl | ⟨rfl, fds, mf, h⟩ | ⟨rfl, fds, mf, h⟩ | ⟨_, _, n, fds, h⟩ | ⟨_, n, fds, i, h⟩
    · obtain ⟨net, rfl, rfl⟩ := arrive_step hs
      exact ⟨.second _ ht hk hc h1 hp, nofun⟩
    · obtain ⟨k, fds, e1, rfl, rfl⟩ := destroyNext_shape ht (by omega) hk hs
      exact ⟨.stuck _ ⟨⟨k, some 1, rfl⟩, h1, hp⟩, nofun⟩
    all_goals rcases hp with hp | ⟨_, _, hp⟩ <;> rw [hp] at h <;> cases h
  | stuck h =>
    obtain ⟨h1, fd, x, rfl⟩ := stuck_step h hs
    exact ⟨.stuck _ h1, nofun⟩

theorem doomed_run : ∀ (as : List Act) (s : Sys), Doomed s → ∀ es s', s.run as = .ok es s' → Doomed s' ∧ .destroyEnd ∉ es
  | [], s, h, es, s', hr => by
    simp only [Sys.run] at hr
    cases hr
    exact ⟨h, by simp⟩
  | a :: as, s, h, es, s', hr => by
    obtain ⟨e, t, es', hs, ht, rfl⟩ := run_cons hr
    obtain ⟨h1, h2⟩ := doomed_step h hs
    obtain ⟨i1, i2⟩ := doomed_run as t h1 es' s' ht
    refine ⟨i1, fun hp => ?_⟩
    rcases List.mem_cons.1 hp with h | h
    · exact h2 h.symm
    · exact i2 h

end Bm.Bmi
