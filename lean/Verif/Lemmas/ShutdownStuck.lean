import Verif.Lemmas.ShutdownRun

/-!
# Lemmas for C107: what steps keep
-/

namespace Bm.Shutdown
open Bm.Shutdown.Spec

/-- A queue that gets an element changes nothing but the queues. -/
theorem enqueue_keeps {c : Cfg} {s : St} {q : Nat × Nat} {x : Option Nat} : ∃ l, s.enqueue c q x = { s with eq := l } := by
  unfold St.enqueue
  split
  · exact ⟨_, rfl⟩
  · exact ⟨s.eq, rfl⟩

/-- Nor do copies to several queues. -/
theorem foldl_keeps {c : Cfg} {qs : List (Nat × Nat)} {p : Nat} {s : St} :
    ∃ l, qs.foldl (fun s q => s.enqueue c q (some p)) s = { s with eq := l } := by
  induction qs generalizing s with
  | nil => exact ⟨s.eq, rfl⟩
  | cons q qs ih =>
    obtain ⟨l, h⟩ := enqueue_keeps (c := c) (s := s) (q := q) (x := some p)
    rw [List.foldl_cons, h]
    obtain ⟨l', h'⟩ := ih (s := { s with eq := l })
    exact ⟨l', h'⟩

/-- Only the destructor's own steps change what the destructor does next. -/
theorem main_step {c : Cfg} {s s' : St} {l : Label} (hs : s.step c l = some s') :
    s'.main = s.main ∨ (l = .destroy ∧ s.main = .run ∧ s'.main = .input) ∨ (l = .mainIn ∧ s.main = .input ∧ s'.main = .egress 0) ∨
    (l = .mainEgr ∧ ∃ i, s.main = .egress i ∧ ((i < c.n ∧ s'.main = .egress (i + 1)) ∨ (¬ i < c.n ∧ s'.main = .output))) ∨
    (l = .mainOut ∧ s.main = .output ∧ s'.main = .join) ∨ (l = .mainJoin ∧ s.main = .join ∧ s'.main = .fin) := by
  cases l <;> simp only [St.step] at hs
  case ingDone qs =>
    split at hs
    · rename_i p _
      obtain ⟨l, h⟩ := foldl_keeps (c := c) (qs := qs) (p := p) (s := s)
      rw [h] at hs
      cases hs; exact .inl rfl
    · cases hs
  case egrClone w q =>
    split at hs
    · rename_i p _
      split at hs
      · obtain ⟨l, h⟩ := enqueue_keeps (c := c) (s := s) (q := q) (x := some p)
        rw [h] at hs
        cases hs; exact .inl rfl
      · cases hs
    · cases hs
  case mainEgr =>
    split at hs
    · rename_i i hm
      split at hs
      · rename_i hi
        split at hs
        · cases hs; simp [hm, hi]
        · split at hs
          · cases hs
          · cases hs; simp [hm, hi]
      · rename_i hi
        cases hs; exact .inr (.inr (.inr (.inl ⟨rfl, i, hm, .inr ⟨hi, rfl⟩⟩)))
    · cases hs
  case destroy =>
    split at hs
    · rename_i hm; cases hs; simp [hm]
    · cases hs
  case mainIn =>
    split at hs
    · rename_i hm
      split at hs
      · split at hs
        · cases hs; simp [hm]
        · cases hs
      · split at hs
        · cases hs; simp [hm]
        · cases hs
    · cases hs
  case mainOut =>
    split at hs
    · rename_i hm; cases hs; simp [hm.1]
    · cases hs
  case mainJoin =>
    split at hs
    · rename_i hm; cases hs; simp [hm.1]
    · cases hs
  all_goals
    left
    repeat' split at hs
    all_goals first
      | (cases hs; done)
      | (cases hs; rfl)

/-- A thread that has ended stays ended. -/
theorem over_step {c : Cfg} {s s' : St} {l : Label} (h : s.main = .fin → Over c s) (hs : s.step c l = some s') :
    s'.main = .fin → Over c s' := by
  intro hf
  by_cases hm : s.main = .fin
  · obtain ⟨-, h1, h2, h3⟩ := h hm
    have he : ∀ w p, w < c.n → s.egr w ≠ .busy p ∧ s.egr w ≠ .out p ∧ s.egr w ≠ .back p := by
      intro w p hw; rw [h2 w hw]; simp
    cases l <;> simp only [St.step, h1, h3, hm] at hs
    case arrive p => split at hs <;> cases hs; exact ⟨rfl, rfl, h2, rfl⟩
    case egrPop w q =>
      split at hs
      · rename_i hc; rw [h2 w hc.1] at hc; cases hc.2.2
      · cases hs
    all_goals first
      | cases hs
      | (split at hs
         · rename_i w p hp
           split at hs
           · rename_i hw
             first
              | exact absurd hp (he _ _ hw).1
              | exact absurd hp (he _ _ hw.1).2.1
              | exact absurd hp (he _ _ hw.1).2.2
           · cases hs
         · cases hs)
  · rcases main_step hs with h1 | ⟨-, -, h1⟩ | ⟨-, -, h1⟩ | ⟨-, i, -, ⟨-, h1⟩ | ⟨-, h1⟩⟩ | ⟨-, -, h1⟩ | ⟨rfl, -, -⟩
    · rw [h1] at hf; exact absurd hf hm
    · rw [hf] at h1; cases h1
    · rw [hf] at h1; cases h1
    · rw [hf] at h1; cases h1
    · rw [hf] at h1; cases h1
    · rw [hf] at h1; cases h1
    · simp only [St.step] at hs
      split at hs
      · rename_i hc; cases hs; exact ⟨rfl, hc.2.1, hc.2.2.1, hc.2.2.2⟩
      · cases hs

/-- Predicates that all steps keep hold after all runs. -/
theorem run_keeps {c : Cfg} {P : St → Prop} (hP : ∀ s s' l, P s → s.step c l = some s' → P s') {ls : List Label} {s s' : St}
    (h : P s) (hs : s.run c ls = some s') : P s' := by
  induction ls generalizing s with
  | nil => cases hs; exact h
  | cons l ls ih =>
    rw [St.run, Option.bind_eq_some_iff] at hs
    obtain ⟨t, ht, hs⟩ := hs
    exact ih (hP _ _ _ h ht) hs

/-- An egress thread waits for room in the output buffer, and the transmit thread has ended. -/
def Hung (c : Cfg) (w p : Nat) (s : St) : Prop :=
  s.tx = true ∧ c.capOut ≤ s.out.length ∧ w < c.n ∧ s.egr w = .out p ∧ s.main ≠ .fin

theorem hung_step {c : Cfg} {w p : Nat} {s s' : St} {l : Label} (h : Hung c w p s) (hs : s.step c l = some s') :
    Hung c w p s' := by
  obtain ⟨h1, h2, h3, h4, h5⟩ := h
  have hmain : s'.main ≠ .fin := by
    rcases main_step hs with h1 | ⟨-, -, h1⟩ | ⟨-, -, h1⟩ | ⟨-, i, -, ⟨-, h1⟩ | ⟨-, h1⟩⟩ | ⟨-, -, h1⟩ | ⟨rfl, -, -⟩
    · rw [h1]; exact h5
    · rw [h1]; simp
    · rw [h1]; simp
    · rw [h1]; simp
    · rw [h1]; simp
    · rw [h1]; simp
    · simp only [St.step] at hs
      split at hs
      · rename_i hc
        have := hc.2.2.1 w h3
        rw [h4] at this; cases this
      · cases hs
  refine ⟨?_, ?_, h3, ?_, hmain⟩ <;> clear hmain
  all_goals
    cases l <;> simp only [St.step] at hs
    case ingDone qs =>
      split at hs
      · rename_i p' _
        obtain ⟨l, h⟩ := foldl_keeps (c := c) (qs := qs) (p := p') (s := s)
        rw [h] at hs
        cases hs; assumption
      · cases hs
    case egrClone w' q =>
      split at hs
      · rename_i p' _
        split at hs
        · obtain ⟨l, h⟩ := enqueue_keeps (c := c) (s := s) (q := q) (x := some p')
          rw [h] at hs
          cases hs; assumption
        · cases hs
      · cases hs
    case mainEgr =>
      split at hs
      · rename_i i hm
        split at hs
        · split at hs
          · obtain ⟨l, h⟩ := enqueue_keeps (c := c) (s := s) (q := (i, 0)) (x := none)
            rw [h] at hs
            cases hs; assumption
          · split at hs
            · cases hs
            · cases hs; assumption
        · cases hs; assumption
      · cases hs
    all_goals
      repeat' split at hs
      all_goals first
        | (cases hs; done)
        | (cases hs; assumption)
        | (cases hs; simp only [List.length_append]; omega)
        | (rename_i hh _; rw [h1] at hh; cases hh)
        | (rename_i hh; omega)
        | (cases hs; rename_i hh; simp only [St.setEgr]; split
           · rename_i e; subst e; simp_all
           · exact h4)

/-! ## Other ways to get stuck -/

/-- The destructor waits for room in a queue that has none. -/
theorem full_step {c : Cfg} (hr : c.retry = true) (hn : 0 < c.n) (hd : c.depth (0, 0) = 0) {s s' : St} {l : Label}
    (h : s.main = .egress 0) (hs : s.step c l = some s') : s'.main = .egress 0 := by
  rcases main_step hs with h1 | ⟨-, h1, -⟩ | ⟨-, h1, -⟩ | ⟨rfl, i, -, -⟩ | ⟨-, h1, -⟩ | ⟨-, h1, -⟩
  · rw [h1]; exact h
  · rw [h] at h1; cases h1
  · rw [h] at h1; cases h1
  · simp only [St.step, h, if_pos hn, hd, hr, Nat.not_lt_zero, if_false, if_true] at hs
    cases hs
  · rw [h] at h1; cases h1
  · rw [h] at h1; cases h1

/-- The ingress thread waits for room in the buffer from which only it takes packets. -/
theorem back_step {c : Cfg} {p : Nat} {s s' : St} {l : Label} (h1 : s.ing = .back p) (h2 : c.capLo ≤ s.lo.length)
    (hs : s.step c l = some s') : s'.ing = .back p ∧ c.capLo ≤ s'.lo.length := by
  cases l <;> simp only [St.step, h1] at hs
  case egrClone w' q =>
    split at hs
    · rename_i p' _
      split at hs
      · obtain ⟨l, h⟩ := enqueue_keeps (c := c) (s := s) (q := q) (x := some p')
        rw [h] at hs
        cases hs; exact ⟨h1, h2⟩
      · cases hs
    · cases hs
  case mainEgr =>
    split at hs
    · rename_i i hm
      split at hs
      · split at hs
        · obtain ⟨l, h⟩ := enqueue_keeps (c := c) (s := s) (q := (i, 0)) (x := none)
          rw [h] at hs
          cases hs; exact ⟨h1, h2⟩
        · split at hs
          · cases hs
          · cases hs; exact ⟨rfl, h2⟩
      · cases hs; exact ⟨rfl, h2⟩
    · cases hs
  all_goals
    repeat' split at hs
    all_goals first
      | (cases hs; done)
      | (cases hs; exact ⟨h1, h2⟩)
      | (cases hs; exact ⟨rfl, h2⟩)
      | (rename_i hh; omega)

/-- There is no null pointer for egress thread 0, and there will be none. -/
def Forgot (c : Cfg) (s : St) : Prop :=
  0 < c.n ∧ s.egr 0 ≠ .done ∧ (∀ x ∈ s.eq, x.2 = none → x.1.1 % c.n ≠ 0) ∧
  ((∃ i, 0 < i ∧ s.main = .egress i) ∨ s.main = .output ∨ s.main = .join)

theorem enqueue_mem {c : Cfg} {s : St} {q : Nat × Nat} {x : Option Nat} {y} (h : y ∈ (s.enqueue c q x).eq) :
    y ∈ s.eq ∨ y = (q, x) := by
  unfold St.enqueue at h
  split at h
  · simpa using h
  · exact .inl h

theorem foldl_mem {c : Cfg} {qs : List (Nat × Nat)} {p : Nat} {s : St} {y}
    (h : y ∈ (qs.foldl (fun s q => s.enqueue c q (some p)) s).eq) : y ∈ s.eq ∨ y.2 = some p := by
  induction qs generalizing s with
  | nil => exact .inl h
  | cons q qs ih =>
    rcases ih h with h | h
    · rcases enqueue_mem h with h | rfl
      · exact .inl h
      · exact .inr rfl
    · exact .inr h

theorem forgot_step {c : Cfg} {s s' : St} {l : Label} (h : Forgot c s) (hs : s.step c l = some s') : Forgot c s' := by
  obtain ⟨h1, h2, h3, h4⟩ := h
  have hmain : (∃ i, 0 < i ∧ s'.main = .egress i) ∨ s'.main = .output ∨ s'.main = .join := by
    rcases main_step hs with e | ⟨-, e, -⟩ | ⟨-, e, -⟩ | ⟨-, i, -, ⟨-, e⟩ | ⟨-, e⟩⟩ | ⟨-, -, e⟩ | ⟨rfl, -, -⟩
    · rw [e]; exact h4
    · rcases h4 with ⟨i, -, h⟩ | h | h <;> rw [h] at e <;> cases e
    · rcases h4 with ⟨i, -, h⟩ | h | h <;> rw [h] at e <;> cases e
    · exact .inl ⟨i + 1, Nat.succ_pos i, e⟩
    · exact .inr (.inl e)
    · exact .inr (.inr e)
    · simp only [St.step] at hs
      split at hs
      · rename_i hc; exact absurd (hc.2.2.1 0 h1) h2
      · cases hs
  refine ⟨h1, ?_, ?_, hmain⟩ <;> clear hmain
  all_goals
    cases l <;> simp only [St.step] at hs
    case ingDone qs =>
      split at hs
      · rename_i p' _
        obtain ⟨l, h⟩ := foldl_keeps (c := c) (qs := qs) (p := p') (s := s)
        have hm : ∀ y ∈ l, y ∈ s.eq ∨ y.2 = some p' := by
          intro y hy
          exact foldl_mem (c := c) (qs := qs) (by rw [h]; exact hy)
        rw [h] at hs
        cases hs
        first
          | exact h2
          | (intro x hx hn
             rcases hm x hx with h | h
             · exact h3 x h hn
             · rw [hn] at h; cases h)
      · cases hs
    case egrClone w' q =>
      split at hs
      · rename_i p' _
        split at hs
        · obtain ⟨l, h⟩ := enqueue_keeps (c := c) (s := s) (q := q) (x := some p')
          have hm : ∀ y ∈ l, y ∈ s.eq ∨ y = (q, some p') := by
            intro y hy
            exact enqueue_mem (c := c) (by rw [h]; exact hy)
          rw [h] at hs
          cases hs
          first
            | exact h2
            | (intro x hx hn
               rcases hm x hx with h | h
               · exact h3 x h hn
               · rw [h] at hn; cases hn)
        · cases hs
      · cases hs
    case mainEgr =>
      split at hs
      · rename_i i hm
        have hi0 : 0 < i := by
          rcases h4 with ⟨j, hj, h⟩ | h | h <;> rw [h] at hm <;> cases hm
          exact hj
        split at hs
        · rename_i hi
          split at hs
          · obtain ⟨l, h⟩ := enqueue_keeps (c := c) (s := s) (q := (i, 0)) (x := none)
            have hm : ∀ y ∈ l, y ∈ s.eq ∨ y = ((i, 0), none) := by
              intro y hy
              exact enqueue_mem (c := c) (by rw [h]; exact hy)
            rw [h] at hs
            cases hs
            first
              | exact h2
              | (intro x hx hn
                 rcases hm x hx with h | h
                 · exact h3 x h hn
                 · rw [h, Nat.mod_eq_of_lt hi]; omega)
          · split at hs
            · cases hs
            · cases hs; assumption
        · cases hs; assumption
      · cases hs
    case egrPop w q =>
      split at hs
      · rename_i hc
        split at hs
        · rename_i p l ht
          obtain ⟨a, b, e1, e2⟩ := takeFirst_some ht
          cases hs
          first
            | (intro x hx hn
               have hx' : x ∈ l := hx
               refine h3 x ?_ hn
               rw [e2] at hx'; rw [e1]
               simp only [List.mem_append, List.mem_cons] at hx' ⊢
               rcases hx' with h | h
               · exact .inl h
               · exact .inr (.inr h))
            | (simp only [St.setEgr]
               split
               · simp
               · exact h2)
        · rename_i l ht
          obtain ⟨a, b, e1, e2⟩ := takeFirst_some ht
          have hq : q.1 % c.n ≠ 0 := h3 (q, none) (by rw [e1]; simp) rfl
          cases hs
          first
            | (intro x hx hn
               have hx' : x ∈ l := hx
               refine h3 x ?_ hn
               rw [e2] at hx'; rw [e1]
               simp only [List.mem_append, List.mem_cons] at hx' ⊢
               rcases hx' with h | h
               · exact .inl h
               · exact .inr (.inr h))
            | (simp only [St.setEgr]
               rw [if_neg (by rw [← hc.2.1]; exact fun h => hq h.symm)]
               exact h2)
        · cases hs
      · cases hs
    all_goals
      repeat' split at hs
      all_goals first
        | (cases hs; done)
        | (cases hs; assumption)
        | (cases hs; simp only [St.setEgr]; split
           · simp
           · exact h2)

theorem arrive_run {c : Cfg} (ps : List Nat) {s : St} (h : s.lo.length + ps.length ≤ c.capLo) :
    s.run c (ps.map .arrive) = some { s with lo := s.lo ++ ps.map some } := by
  induction ps generalizing s with
  | nil => simp [St.run]
  | cons p ps ih =>
    rw [List.length_cons] at h
    have h1 : s.step c (.arrive p) = some { s with lo := s.lo ++ [some p] } := by
      simp only [St.step]; rw [if_pos (by omega)]
    rw [List.map_cons, St.run, h1, Option.bind_some, ih (by simp only [List.length_append, List.length_singleton]; omega)]
    simp

end Bm.Shutdown
