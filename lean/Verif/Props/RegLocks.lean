import Verif.Lemmas.RegLocks

/-!
# C108: exclusive access to registers

Full statement: an action, a parse state and the deparser have exclusive access to the register arrays they read or write; so
what threads do with registers, together with requests of the control plane and conditions of the program, is what they would
do one after the other.

This does not hold for `register_reset`, which takes no mutex (`C108_refuted_reset`), for conditions that read registers
(`C108_refuted_condition`), and for `verify` and `advance` of parse states (`C108_refuted_verify`, `C108_refuted_advance`).
-/

namespace Bm.RegLocks
open Bm.RegLocks.Spec

/-! ## The mutexes -/

/-- C108: an action takes the mutexes of exactly the register arrays its parameters refer to, each once; so does the deparser. -/
theorem C108_locks (ps : List Param) (calls : List (List Param)) :
    ((Kind.action ps).locks.Nodup ∧ ∀ a, a ∈ (Kind.action ps).locks ↔ a ∈ touches (.action ps)) ∧
    ((Kind.deparse calls).locks.Nodup ∧ ∀ a, a ∈ (Kind.deparse calls).locks ↔ a ∈ touches (.deparse calls)) :=
  ⟨⟨locks_nodup _, fun a => ⟨locks_sub _ a, touches_sub (k := .action ps) trivial a⟩⟩,
   ⟨locks_nodup _, fun a => ⟨locks_sub _ a, touches_sub (k := .deparse calls) trivial a⟩⟩⟩

example : (Kind.action [.regRef 3 0, .other, .regGen 1 [.regRef 2 0, .other], .expr [.regGen 3], .regArray 1]).locks = [3, 2, 1] := by
  decide

/-- C108 (partial: no `verify` or `advance` reads a register): so does a parse state. -/
theorem C108_state_partial (ops : List POp) (hq : Quiet (.state ops)) :
    (Kind.state ops).locks.Nodup ∧ ∀ a, a ∈ (Kind.state ops).locks ↔ a ∈ touches (.state ops) :=
  ⟨locks_nodup _, fun a => ⟨locks_sub _ a, touches_sub hq a⟩⟩

example : Quiet (.state [.setExpr [.regRef 3 0], .call [.regArray 1], .verify [.other] []]) ∧
    (Kind.state [.setExpr [.regRef 3 0], .call [.regArray 1], .verify [.other] []]).locks = [3, 1] := by
  refine ⟨?_, by decide⟩
  intro o ho
  simp only [List.mem_cons, List.not_mem_nil, or_false] at ho
  rcases ho with rfl | rfl | rfl
  · trivial
  · trivial
  · exact ⟨rfl, rfl⟩

/-! ## One after the other -/

/-- C108 (partial: tasks that take mutexes): however threads are scheduled, the finished tasks have found out what they would have
found out one after the other in the order in which they finished, and left the arrays that nobody uses now as they would have
left them. -/
theorem C108_serial_partial {σ : Type} (T : Nat → Task σ) (hh : ∀ t, Honest (T t)) (hq : ∀ t, Quiet (T t).kind) (S₀ : Store)
    (ls : List Label) (s : Sys σ) (hs : Sys.run T { store := S₀ } ls = some s) :
    (∃ S', Serial T s.log S₀ S' ∧ (∀ a, s.owner a = none → s.store a = S' a) ∧
      ((∀ t l, s.phase t ≠ .run l) → s.store = S')) ∧
    ∀ t r, s.phase t = .fin r ↔ (t, r) ∈ s.log := by
  have hT : ∀ t l a f, (T t).next l = some (a, f) → a ∈ (T t).kind.locks :=
    fun t l a f h => touches_sub (hq t) a (hh t l a f h)
  obtain ⟨S', h⟩ := inv_run hT (inv_init T S₀) hs
  refine ⟨⟨S', h.serial, h.rest, ?_⟩, h.fin⟩
  intro hnone
  funext a
  refine h.rest a ?_
  cases ho : s.owner a with
  | none => rfl
  | some t =>
    obtain ⟨-, l, hl⟩ := h.own a t ho
    exact absurd hl (hnone t l)

/-- C108 (partial: tasks that take mutexes): a task that runs has a next step; a task that does not run yet can start, or waits for
a mutex that another task that runs holds. -/
theorem C108_progress_partial {σ : Type} (T : Nat → Task σ) (hh : ∀ t, Honest (T t)) (hq : ∀ t, Quiet (T t).kind) (S₀ : Store)
    (ls : List Label) (s : Sys σ) (hs : Sys.run T { store := S₀ } ls = some s) :
    (∀ t l, s.phase t = .run l → ∃ s', s.step T (.access t) = some s' ∨ s.step T (.finish t) = some s') ∧
    (∀ t, s.phase t = .wait → (∃ s', s.step T (.start t) = some s') ∨
      ∃ a ∈ (T t).kind.locks, ∃ u l, s.owner a = some u ∧ s.phase u = .run l ∧ u ≠ t) := by
  have hT : ∀ t l a f, (T t).next l = some (a, f) → a ∈ (T t).kind.locks :=
    fun t l a f h => touches_sub (hq t) a (hh t l a f h)
  obtain ⟨S', h⟩ := inv_run hT (inv_init T S₀) hs
  constructor
  · intro t l hl
    cases hn : (T t).next l with
    | none => exact ⟨_, .inr (by simp only [Sys.step, hl, hn]; rfl)⟩
    | some x => exact ⟨_, .inl (by simp only [Sys.step, hl, hn]; rfl)⟩
  · intro t hw
    by_cases hfree : ∀ a ∈ (T t).kind.locks, s.owner a = none
    · exact .inl ⟨_, by simp only [Sys.step, hw]; rw [if_pos ⟨locks_nodup _, hfree⟩]⟩
    · right
      simp only [Classical.not_forall] at hfree
      obtain ⟨a, ha, ho⟩ := hfree
      cases hu : s.owner a with
      | none => exact absurd hu ho
      | some u =>
        obtain ⟨-, l, hl⟩ := h.own a u hu
        refine ⟨a, ha, u, l, hu, hl, ?_⟩
        rintro rfl
        rw [hw] at hl; cases hl

/-! ### A concrete case -/

/-- Reads the first register of array `a`, then writes one more. -/
def increment (k : Kind) (a : Nat) : Task (List Nat) :=
  { kind := k, init := []
    next := fun
      | [] => some (a, fun v => (v, [v.headD 0]))
      | [x] => some (a, fun v => (v.set 0 (x + 1), [x, x + 1]))
      | _ => none }

/-- Two actions increment register 0 of array 7, one of array 8. -/
def exTasks : Nat → Task (List Nat)
  | 0 => increment (.action [.regRef 7 0]) 7
  | 1 => increment (.action [.regGen 7 []]) 7
  | _ => increment (.action [.regRef 8 0]) 8

example : ∀ t, Honest (exTasks t) ∧ Quiet (exTasks t).kind := by
  have key : ∀ k a, a ∈ touches k → Honest (increment k a) := by
    intro k a ha l b f h
    match l with
    | [] => simp [increment] at h; exact h.1 ▸ ha
    | [x] => simp [increment] at h; exact h.1 ▸ ha
    | _ :: _ :: _ => simp [increment] at h
  intro t
  match t with
  | 0 => exact ⟨key _ _ (by decide), trivial⟩
  | 1 => exact ⟨key _ _ (by decide), trivial⟩
  | _ + 2 => exact ⟨key _ _ (by decide), trivial⟩

/-- The second action has to wait for the first, not for the third. -/
example : ((Sys.run exTasks { store := fun _ => [5] } [.start 0, .access 0, .start 2, .access 2, .access 0, .finish 0, .start 1,
      .access 1, .access 2, .access 1, .finish 2, .finish 1]).map fun s => (s.store 7, s.store 8, s.log)) =
      some ([7], [6], [(0, [5, 6]), (2, [5, 6]), (1, [6, 7])]) ∧
    (Sys.run exTasks { store := fun _ => [5] } [.start 0, .access 0, .start 1]).isNone := by
  decide

/-! ## What is not exclusive -/

/-- Clears array `a`. -/
def clear (a : Nat) : Task (List Nat) :=
  { kind := .reset a, init := []
    next := fun
      | [] => some (a, fun v => (v.map fun _ => 0, [0]))
      | _ => none }

/-- An action that increments, and `register_reset` of the same array. -/
def resetTasks : Nat → Task (List Nat)
  | 0 => increment (.action [.regRef 7 0]) 7
  | _ => clear 7

/-- C108 refuted: `register_reset` while an action increments a register.  The result is neither that of the action before the
reset nor after it. -/
theorem C108_refuted_reset : ∃ s, Sys.run resetTasks { store := fun _ => [5] }
      [.start 0, .access 0, .start 1, .access 1, .finish 1, .access 0, .finish 0] = some s ∧ s.store 7 = [6] ∧
    (∀ t, Honest (resetTasks t)) ∧
    (∀ r r' S', Serial resetTasks [(0, r), (1, r')] (fun _ => [5]) S' → S' 7 = [0]) ∧
    (∀ r r' S', Serial resetTasks [(1, r), (0, r')] (fun _ => [5]) S' → S' 7 = [1]) := by
  have key : (Sys.run resetTasks { store := fun _ => [5] }
      [.start 0, .access 0, .start 1, .access 1, .finish 1, .access 0, .finish 0]).map (fun s => s.store 7) = some [6] := by decide
  rw [Option.map_eq_some_iff] at key
  obtain ⟨s, hs, hk⟩ := key
  refine ⟨s, hs, hk, ?_, ?_, ?_⟩
  · intro t l a f h
    match t, l with
    | 0, [] => simp [resetTasks, increment] at h; rw [← h.1]; decide
    | 0, [x] => simp [resetTasks, increment] at h; rw [← h.1]; decide
    | 0, _ :: _ :: _ => simp [resetTasks, increment] at h
    | _ + 1, [] => simp [resetTasks, clear] at h; rw [← h.1]; simp [resetTasks, clear, touches]
    | _ + 1, _ :: _ => simp [resetTasks, clear] at h
  · intro r r' S' h
    obtain ⟨S1, h1, h2⟩ := serial_two h
    have e1 := alone_unique (n := 3) (x := ([5, 6], _)) rfl h1
    cases e1
    have e2 := alone_unique (n := 2) (x := ([0], _)) rfl h2
    cases e2
    rfl
  · intro r r' S' h
    obtain ⟨S1, h1, h2⟩ := serial_two h
    have e1 := alone_unique (n := 2) (x := ([0], _)) rfl h1
    cases e1
    have e2 := alone_unique (n := 3) (x := ([0, 1], _)) rfl h2
    cases e2
    rfl

/-- Writes 1 to registers of arrays 7 and 8. -/
def writeBoth : Task (List Nat) :=
  { kind := .action [.regRef 7 0, .regRef 8 0], init := []
    next := fun
      | [] => some (7, fun _ => ([1], [1]))
      | [_] => some (8, fun _ => ([1], [1, 1]))
      | _ => none }

/-- Reads registers of arrays 7 and 8. -/
def readBoth (k : Kind) : Task (List Nat) :=
  { kind := k, init := []
    next := fun
      | [] => some (7, fun v => (v, [v.headD 0]))
      | [x] => some (8, fun v => (v, [x, v.headD 0]))
      | _ => none }

/-- An action that writes both, and a task that reads both. -/
def bothTasks (k : Kind) : Nat → Task (List Nat)
  | 0 => writeBoth
  | _ => readBoth k

/-- A task that takes no mutex finds values that it would not find before the action nor after it. -/
theorem both_mixed (k : Kind) (hk : k.locks = []) : (∃ s, Sys.run (bothTasks k) { store := fun _ => [0] }
      [.start 1, .access 1, .start 0, .access 0, .access 0, .finish 0, .access 1, .finish 1] = some s ∧ (1, [0, 1]) ∈ s.log) ∧
    (∀ r r' S', Serial (bothTasks k) [(0, r), (1, r')] (fun _ => [0]) S' → r' = [1, 1]) ∧
    (∀ r r' S', Serial (bothTasks k) [(1, r), (0, r')] (fun _ => [0]) S' → r = [0, 0]) := by
  refine ⟨?_, ?_, ?_⟩
  · refine ⟨{ store := fun b => if b = 8 then [1] else if b = 7 then [1] else [0]
              owner := fun _ => none
              phase := fun u => if u = 1 then .fin [0, 1] else if u = 0 then .fin [1, 1] else .wait
              log := [(0, [1, 1]), (1, [0, 1])] }, ?_, by simp⟩
    have hw : (Kind.action [.regRef 7 0, .regRef 8 0]).locks = [7, 8] := by decide
    simp only [Sys.run, Sys.step, bothTasks, readBoth, writeBoth, hk, hw, Option.bind_some, List.nodup_nil, List.not_mem_nil,
      false_imp_iff, implies_true, and_self, if_true, if_false, List.nodup_cons, List.mem_cons, List.mem_singleton]
    simp
    refine ⟨?_, ?_, ?_⟩ <;> funext b <;> (repeat' split) <;> rfl
  · intro r r' S' h
    obtain ⟨S1, h1, h2⟩ := serial_two h
    have e1 := alone_unique (n := 3) (x := ([1, 1], _)) rfl h1
    cases e1
    have e2 := alone_unique (n := 3) (x := ([1, 1], _)) rfl h2
    cases e2
    rfl
  · intro r r' S' h
    obtain ⟨S1, h1, h2⟩ := serial_two h
    have e1 := alone_unique (n := 3) (x := ([0, 0], _)) rfl h1
    cases e1
    rfl

/-- C108 refuted: a condition that reads two registers, while an action writes them. -/
theorem C108_refuted_condition : touches (.condition [.regRef 7 0, .regRef 8 0]) = [7, 8] ∧
    (∃ s, Sys.run (bothTasks (.condition [.regRef 7 0, .regRef 8 0])) { store := fun _ => [0] }
      [.start 1, .access 1, .start 0, .access 0, .access 0, .finish 0, .access 1, .finish 1] = some s ∧ (1, [0, 1]) ∈ s.log) ∧
    (∀ r r' S', Serial (bothTasks (.condition [.regRef 7 0, .regRef 8 0])) [(0, r), (1, r')] (fun _ => [0]) S' → r' = [1, 1]) ∧
    (∀ r r' S', Serial (bothTasks (.condition [.regRef 7 0, .regRef 8 0])) [(1, r), (0, r')] (fun _ => [0]) S' → r = [0, 0]) :=
  ⟨rfl, both_mixed _ rfl⟩

/-- C108 refuted: `verify` in a parse state. -/
theorem C108_refuted_verify : touches (.state [.verify [.regRef 7 0, .regRef 8 0] []]) = [7, 8] ∧
    (∃ s, Sys.run (bothTasks (.state [.verify [.regRef 7 0, .regRef 8 0] []])) { store := fun _ => [0] }
      [.start 1, .access 1, .start 0, .access 0, .access 0, .finish 0, .access 1, .finish 1] = some s ∧ (1, [0, 1]) ∈ s.log) ∧
    (∀ r r' S', Serial (bothTasks (.state [.verify [.regRef 7 0, .regRef 8 0] []])) [(0, r), (1, r')] (fun _ => [0]) S' →
      r' = [1, 1]) ∧
    (∀ r r' S', Serial (bothTasks (.state [.verify [.regRef 7 0, .regRef 8 0] []])) [(1, r), (0, r')] (fun _ => [0]) S' →
      r = [0, 0]) :=
  ⟨rfl, both_mixed _ rfl⟩

/-- C108 refuted: `advance` in a parse state. -/
theorem C108_refuted_advance : touches (.state [.advanceExpr [.regRef 7 0, .regRef 8 0]]) = [7, 8] ∧
    (∃ s, Sys.run (bothTasks (.state [.advanceExpr [.regRef 7 0, .regRef 8 0]])) { store := fun _ => [0] }
      [.start 1, .access 1, .start 0, .access 0, .access 0, .finish 0, .access 1, .finish 1] = some s ∧ (1, [0, 1]) ∈ s.log) ∧
    (∀ r r' S', Serial (bothTasks (.state [.advanceExpr [.regRef 7 0, .regRef 8 0]])) [(0, r), (1, r')] (fun _ => [0]) S' →
      r' = [1, 1]) ∧
    (∀ r r' S', Serial (bothTasks (.state [.advanceExpr [.regRef 7 0, .regRef 8 0]])) [(1, r), (0, r')] (fun _ => [0]) S' →
      r = [0, 0]) :=
  ⟨rfl, both_mixed _ rfl⟩

end Bm.RegLocks
