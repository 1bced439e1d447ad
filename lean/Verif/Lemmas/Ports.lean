import Mathlib.Tactic.ByContra
import Verif.Spec.Ports

/-!
# Lemmas about the port monitor
-/

namespace Bm.Ports

open Spec

/-! ## The table of ports -/

/-- No port is in the table twice. -/
def Keys (l : Table) : Prop := (l.map Prod.fst).Nodup

theorem lookup_none {l : Table} {p : Nat} : l.lookup p = none ↔ p ∉ l.map Prod.fst := by
  induction l with
  | nil => simp
  | cons x l ih =>
    obtain ⟨q, b⟩ := x
    by_cases h : p = q
    · subst h
      simp [List.lookup]
    · have hb : (p == q) = false := by simpa using h
      simp only [List.lookup, hb, List.map_cons, List.mem_cons, h, false_or]
      exact ih

theorem lookup_mem {l : Table} (hk : Keys l) {p : Nat} {b : Bool} : l.lookup p = some b ↔ (p, b) ∈ l := by
  induction l with
  | nil => simp
  | cons x l ih =>
    obtain ⟨q, c⟩ := x
    simp only [Keys, List.map_cons, List.nodup_cons] at hk
    by_cases h : p = q
    · subst h
      simp only [List.lookup, beq_self_eq_true, Option.some.injEq, List.mem_cons, Prod.mk.injEq, true_and]
      constructor
      · rintro rfl
        exact .inl rfl
      · rintro (rfl | hm)
        · rfl
        · exact absurd (List.mem_map.2 ⟨_, hm, rfl⟩) hk.1
    · have hb : (p == q) = false := by simpa using h
      simp only [List.lookup, hb, List.mem_cons, Prod.mk.injEq, h, false_and, false_or]
      exact ih hk.2

theorem keys_setUp (l : Table) (p : Nat) (b : Bool) : (setUp l p b).map Prod.fst = l.map Prod.fst := by
  simp only [setUp, List.map_map]
  apply List.map_congr_left
  intro x _
  by_cases h : x.1 = p
  · simp [h]
  · simp [h]

theorem lookup_setUp (l : Table) (p : Nat) (b : Bool) (q : Nat) :
    (setUp l p b).lookup q = if q = p then (l.lookup p).map (fun _ => b) else l.lookup q := by
  induction l with
  | nil => simp [setUp]
  | cons x l ih =>
    obtain ⟨r, c⟩ := x
    simp only [setUp, List.map_cons] at ih ⊢
    by_cases hr : r = p
    · subst hr
      rw [if_pos rfl]
      by_cases hq : q = r
      · subst hq
        simp [List.lookup]
      · have hb : (q == r) = false := by simpa using hq
        simp only [List.lookup, hb, ih, hq, if_false]
    · rw [if_neg hr]
      by_cases hq : q = r
      · subst hq
        simp [List.lookup, hr]
      · have hb : (q == r) = false := by simpa using hq
        have hb' : (p == r) = false := by simpa using Ne.symm hr
        simp only [List.lookup, hb, hb', ih]

theorem lookup_filter (l : Table) (p q : Nat) :
    (l.filter fun x => x.1 ≠ p).lookup q = if q = p then none else l.lookup q := by
  induction l with
  | nil => simp
  | cons x l ih =>
    obtain ⟨r, c⟩ := x
    by_cases hr : r = p
    · subst hr
      simp only [List.filter_cons, ne_eq, not_true_eq_false, decide_false, Bool.false_eq_true, if_false]
      have ih' := ih
      simp only [ne_eq] at ih'
      rw [ih']
      by_cases hq : q = r
      · simp [hq]
      · have hb : (q == r) = false := by simpa using hq
        simp [hq, List.lookup, hb]
    · have ih' := ih
      simp only [ne_eq] at ih'
      simp only [List.filter_cons, ne_eq, hr, not_false_eq_true, decide_true, if_true]
      by_cases hq : q = r
      · subst hq
        simp [List.lookup, hr]
      · have hb : (q == r) = false := by simpa using hq
        simp only [List.lookup, hb, ih']

/-- An event is accepted if and only if it may happen next. -/
theorem accept_iff {l : Table} (hk : Keys l) (p : Nat) (e : Ev) :
    (∃ l', accept l p e = some l') ↔ ∃ s, Life (l.lookup p) [e] s := by
  have key : ∀ {a s}, Life a [e] s → (a = none ∧ e = .added) ∨ (a = some false ∧ e = .up) ∨
      (a = some true ∧ e = .down) ∨ ((∃ b, a = some b) ∧ e = .removed) := by
    intro a s h
    generalize hes : [e] = es at h
    cases h with
    | nil => cases hes
    | added h =>
      have h2 := List.append_inj_right' (s₁ := []) hes rfl
      have h1 := List.append_inj_left' (s₁ := []) hes rfl
      cases h2
      subst h1
      generalize hn : (none : Option Bool) = o at h
      generalize hz : ([] : List Ev) = z at h
      cases h with
      | nil => exact .inl ⟨rfl, rfl⟩
      | _ => simp at hz
    | up h =>
      have h2 := List.append_inj_right' (s₁ := []) hes rfl
      have h1 := List.append_inj_left' (s₁ := []) hes rfl
      cases h2
      subst h1
      generalize hz : ([] : List Ev) = z at h
      generalize hn : some false = o at h
      cases h with
      | nil => exact .inr (.inl ⟨rfl, rfl⟩)
      | _ => simp at hz
    | down h =>
      have h2 := List.append_inj_right' (s₁ := []) hes rfl
      have h1 := List.append_inj_left' (s₁ := []) hes rfl
      cases h2
      subst h1
      generalize hz : ([] : List Ev) = z at h
      generalize hn : some true = o at h
      cases h with
      | nil => exact .inr (.inr (.inl ⟨rfl, rfl⟩))
      | _ => simp at hz
    | @removed _ b h =>
      have h2 := List.append_inj_right' (s₁ := []) hes rfl
      have h1 := List.append_inj_left' (s₁ := []) hes rfl
      cases h2
      subst h1
      generalize hz : ([] : List Ev) = z at h
      generalize hn : some b = o at h
      cases h with
      | nil => exact .inr (.inr (.inr ⟨⟨b, hn.symm⟩, rfl⟩))
      | _ => simp at hz
  constructor
  · rintro ⟨l', h⟩
    unfold accept at h
    split at h
    · rename_i h1
      rw [h1]
      exact ⟨_, .added (es := []) (.nil _)⟩
    · rename_i h1
      rw [h1]
      exact ⟨_, .removed (es := []) (.nil _)⟩
    · rename_i h1
      rw [h1]
      exact ⟨_, .up (es := []) (.nil _)⟩
    · rename_i h1
      rw [h1]
      exact ⟨_, .down (es := []) (.nil _)⟩
    · cases h
  · rintro ⟨s, h⟩
    rcases key h with ⟨h1, rfl⟩ | ⟨h1, rfl⟩ | ⟨h1, rfl⟩ | ⟨⟨b, h1⟩, rfl⟩ <;> simp [accept, h1]

theorem life_trans {a b c : Option Bool} {es fs : List Ev} (h : Life a es b) (h' : Life b fs c) :
    Life a (es ++ fs) c := by
  induction h' with
  | nil => simpa using h
  | added _ ih => rw [← List.append_assoc]; exact .added ih
  | up _ ih => rw [← List.append_assoc]; exact .up ih
  | down _ ih => rw [← List.append_assoc]; exact .down ih
  | removed _ ih => rw [← List.append_assoc]; exact .removed ih

/-- The next state of a port. -/
def lifeStep : Option (Option Bool) → Ev → Option (Option Bool)
  | some none, .added => some (some false)
  | some (some false), .up => some (some true)
  | some (some true), .down => some (some false)
  | some (some _), .removed => some none
  | _, _ => none

theorem life_fold {a s : Option Bool} {es : List Ev} (h : Life a es s) : es.foldl lifeStep (some a) = some s := by
  induction h with
  | nil => rfl
  | added _ ih => rw [List.foldl_append, ih]; rfl
  | up _ ih => rw [List.foldl_append, ih]; rfl
  | down _ ih => rw [List.foldl_append, ih]; rfl
  | @removed es b _ ih => rw [List.foldl_append, ih]; cases b <;> rfl

/-- What the event does to the table. -/
theorem accept_some {l l' : Table} {p : Nat} {e : Ev} (hk : Keys l) (h : accept l p e = some l') :
    Keys l' ∧ Life (l.lookup p) [e] (l'.lookup p) ∧ ∀ q, q ≠ p → l'.lookup q = l.lookup q := by
  unfold accept at h
  split at h
  · rename_i h1
    cases h
    refine ⟨?_, ?_, ?_⟩
    · simp only [Keys, List.map_cons, List.nodup_cons]
      exact ⟨lookup_none.1 h1, hk⟩
    · rw [h1]
      simp only [List.lookup, beq_self_eq_true]
      exact .added (es := []) (.nil _)
    · intro q hq
      have hb : (q == p) = false := by simpa using hq
      simp [List.lookup, hb]
  · rename_i b h1
    cases h
    refine ⟨?_, ?_, ?_⟩
    · exact List.Nodup.sublist ((List.filter_sublist (l := l)).map Prod.fst) hk
    · rw [h1, lookup_filter, if_pos rfl]
      exact .removed (es := []) (.nil _)
    · intro q hq
      rw [lookup_filter, if_neg hq]
  · rename_i h1
    cases h
    refine ⟨by rw [Keys, keys_setUp]; exact hk, ?_, ?_⟩
    · rw [lookup_setUp, if_pos rfl, h1]
      exact .up (es := []) (.nil _)
    · intro q hq
      rw [lookup_setUp, if_neg hq]
  · rename_i h1
    cases h
    refine ⟨by rw [Keys, keys_setUp]; exact hk, ?_, ?_⟩
    · rw [lookup_setUp, if_pos rfl, h1]
      exact .down (es := []) (.nil _)
    · intro q hq
      rw [lookup_setUp, if_neg hq]
  · cases h

/-! ## The active monitor -/

theorem todoInsert_mem {p : Nat} {e : Ev} {l : List (Nat × Ev)} (h : p ∉ l.map Prod.fst) (x : Nat × Ev) :
    x ∈ todoInsert p e l ↔ x = (p, e) ∨ x ∈ l := by
  induction l with
  | nil => simp [todoInsert]
  | cons y l ih =>
    obtain ⟨q, f⟩ := y
    simp only [List.map_cons, List.mem_cons, not_or] at h
    unfold todoInsert
    by_cases h1 : p < q
    · rw [if_pos h1]
      simp
    · rw [if_neg h1, if_neg h.1]
      simp only [List.mem_cons, ih h.2]
      rw [or_left_comm]

theorem todoInsert_sorted {p : Nat} {e : Ev} {l : List (Nat × Ev)} (h : l.Pairwise fun x y => x.1 < y.1) :
    (todoInsert p e l).Pairwise fun x y => x.1 < y.1 := by
  induction l with
  | nil => simp [todoInsert]
  | cons y l ih =>
    obtain ⟨q, f⟩ := y
    rw [List.pairwise_cons] at h
    unfold todoInsert
    by_cases h1 : p < q
    · rw [if_pos h1]
      refine List.pairwise_cons.2 ⟨?_, List.pairwise_cons.2 h⟩
      intro x hx
      rcases List.mem_cons.1 hx with rfl | hx
      · exact h1
      · have := h.1 x hx
        simp only at this ⊢
        omega
    · rw [if_neg h1]
      by_cases h2 : p = q
      · rw [if_pos h2]
        exact List.pairwise_cons.2 h
      · rw [if_neg h2]
        refine List.pairwise_cons.2 ⟨?_, ih h.2⟩
        intro x hx
        by_cases hm : p ∈ l.map Prod.fst
        · have hsub : ∀ l : List (Nat × Ev), ∀ x, x ∈ todoInsert p e l → x = (p, e) ∨ x ∈ l := by
            intro l
            induction l with
            | nil => simp [todoInsert]
            | cons z l ih2 =>
              intro x hx
              unfold todoInsert at hx
              split at hx
              · rcases List.mem_cons.1 hx with rfl | hx
                · exact .inl rfl
                · exact .inr hx
              · split at hx
                · exact .inr hx
                · rcases List.mem_cons.1 hx with rfl | hx
                  · exact .inr (by simp)
                  · rcases ih2 x hx with h3 | h3
                    · exact .inl h3
                    · exact .inr (by simp [h3])
          rcases hsub l x hx with rfl | h3
          · simp only
            omega
          · exact h.1 x h3
        · rcases (todoInsert_mem hm x).1 hx with rfl | h3
          · simp only
            omega
          · exact h.1 x h3

/-- What the active monitor finds: exactly the changes. -/
theorem pollFold {up : Nat → Bool} : ∀ {l : Table} {todo : List (Nat × Ev)}, Keys l →
    (∀ x ∈ l, x.1 ∉ todo.map Prod.fst) → (todo.Pairwise fun x y => x.1 < y.1) →
    ((l.foldl (pollOne up) todo).Pairwise fun x y => x.1 < y.1) ∧
    ∀ q e, (q, e) ∈ l.foldl (pollOne up) todo ↔ (q, e) ∈ todo ∨
      (((q, true) ∈ l ∧ up q = false ∧ e = .down) ∨ ((q, false) ∈ l ∧ up q = true ∧ e = .up))
  | [], todo, hk, hd, hs => ⟨hs, by simp⟩
  | (p, b) :: l, todo, hk, hd, hs => by
    simp only [Keys, List.map_cons, List.nodup_cons] at hk
    have hp : p ∉ todo.map Prod.fst := hd (p, b) (by simp)
    have key : ∃ extra : List (Nat × Ev), (pollOne up todo (p, b)).Pairwise (fun x y => x.1 < y.1) ∧
        (∀ x, x ∈ pollOne up todo (p, b) ↔ x ∈ extra ∨ x ∈ todo) ∧ (∀ x ∈ extra, x.1 = p) ∧
        (∀ q e, (q, e) ∈ extra ↔ q = p ∧ ((b = true ∧ up q = false ∧ e = .down) ∨
          (b = false ∧ up q = true ∧ e = .up))) := by
      unfold pollOne
      cases hu : up p <;> cases b
      · refine ⟨[], by simpa using hs, by simp, by simp, ?_⟩
        intro q e
        constructor
        · simp
        · rintro ⟨rfl, h⟩
          simp [hu] at h
      · refine ⟨[(p, .down)], by simpa using todoInsert_sorted hs, ?_, by simp, ?_⟩
        · intro x
          simp only [Bool.not_false, Bool.and_true, if_true, todoInsert_mem hp, List.mem_singleton]
        · intro q e
          constructor
          · intro h
            simp only [List.mem_singleton, Prod.mk.injEq] at h
            obtain ⟨rfl, rfl⟩ := h
            exact ⟨rfl, .inl ⟨rfl, hu, rfl⟩⟩
          · rintro ⟨rfl, h⟩
            simp [hu] at h ⊢
            exact h
      · refine ⟨[(p, .up)], by simpa using todoInsert_sorted hs, ?_, by simp, ?_⟩
        · intro x
          simp [todoInsert_mem hp]
        · intro q e
          constructor
          · intro h
            simp only [List.mem_singleton, Prod.mk.injEq] at h
            obtain ⟨rfl, rfl⟩ := h
            exact ⟨rfl, .inr ⟨rfl, hu, rfl⟩⟩
          · rintro ⟨rfl, h⟩
            simp [hu] at h ⊢
            exact h
      · refine ⟨[], by simpa using hs, by simp, by simp, ?_⟩
        intro q e
        constructor
        · simp
        · rintro ⟨rfl, h⟩
          simp [hu] at h
    obtain ⟨extra, k1, k2, k3, k4⟩ := key
    have hd' : ∀ x ∈ l, x.1 ∉ (pollOne up todo (p, b)).map Prod.fst := by
      intro x hx hm
      obtain ⟨y, hy, e⟩ := List.mem_map.1 hm
      rcases (k2 y).1 hy with h1 | h1
      · have := k3 y h1
        exact hk.1 (List.mem_map.2 ⟨x, hx, by rw [← e, this]⟩)
      · exact hd x (by simp [hx]) (List.mem_map.2 ⟨y, h1, e⟩)
    obtain ⟨r1, r2⟩ := pollFold (up := up) hk.2 hd' k1
    refine ⟨r1, ?_⟩
    intro q e
    rw [List.foldl_cons, r2, k2, k4]
    simp only [List.mem_cons, Prod.mk.injEq]
    constructor
    · rintro ((⟨rfl, h | h⟩ | h) | h)
      · exact .inr (.inl ⟨.inl ⟨rfl, h.1.symm⟩, h.2⟩)
      · exact .inr (.inr ⟨.inl ⟨rfl, h.1.symm⟩, h.2⟩)
      · exact .inl h
      · rcases h with h | h
        · exact .inr (.inl ⟨.inr h.1, h.2⟩)
        · exact .inr (.inr ⟨.inr h.1, h.2⟩)
    · rintro (h | ⟨⟨rfl, h1⟩ | h1, h2⟩ | ⟨⟨rfl, h1⟩ | h1, h2⟩)
      · exact .inl (.inr h)
      · exact .inl (.inl ⟨rfl, .inl ⟨h1.symm, h2⟩⟩)
      · exact .inr (.inl ⟨h1, h2⟩)
      · exact .inl (.inl ⟨rfl, .inr ⟨h1.symm, h2⟩⟩)
      · exact .inr (.inr ⟨h1, h2⟩)

theorem pollTodo_spec {l : Table} (hk : Keys l) (up : Nat → Bool) :
    ((pollTodo l up).Pairwise fun x y => x.1 < y.1) ∧ ∀ q e, (q, e) ∈ pollTodo l up ↔
      ((l.lookup q = some true ∧ up q = false ∧ e = .down) ∨ (l.lookup q = some false ∧ up q = true ∧ e = .up)) := by
  obtain ⟨h1, h2⟩ := pollFold (up := up) (todo := []) hk (by simp) (by simp)
  refine ⟨h1, ?_⟩
  intro q e
  rw [lookup_mem hk, lookup_mem hk]
  simpa [pollTodo] using h2 q e

theorem lookup_pollTable (l : Table) (up : Nat → Bool) (q : Nat) :
    (pollTable l up).lookup q = (l.lookup q).map fun _ => up q := by
  induction l with
  | nil => simp [pollTable]
  | cons x l ih =>
    obtain ⟨r, c⟩ := x
    simp only [pollTable, List.map_cons] at ih ⊢
    by_cases hq : q = r
    · subst hq
      simp [List.lookup]
    · have hb : (q == r) = false := by simpa using hq
      simp only [List.lookup, hb, ih]

theorem keys_pollTable {l : Table} (hk : Keys l) (up : Nat → Bool) : Keys (pollTable l up) := by
  simp only [Keys, pollTable, List.map_map]
  exact hk

/-- In a list ordered by port, a port has at most one event. -/
theorem evsOf_sorted {l : List (Nat × Ev)} (h : l.Pairwise fun x y => x.1 < y.1) {p : Nat} {e : Ev}
    (hm : (p, e) ∈ l) : evsOf p l = [e] := by
  induction l with
  | nil => simp at hm
  | cons x l ih =>
    obtain ⟨q, f⟩ := x
    rw [List.pairwise_cons] at h
    rcases List.mem_cons.1 hm with h1 | h1
    · cases h1
      have : l.filter (fun x => decide (x.1 = p)) = [] := by
        rw [List.filter_eq_nil_iff]
        intro y hy
        have := h.1 y hy
        simp only at this
        simp
        omega
      simp [evsOf, this]
    · have h2 := h.1 _ h1
      simp only at h2
      have h3 : q ≠ p := by omega
      simpa [evsOf, h3] using ih h.2 h1

theorem evsOf_none {l : List (Nat × Ev)} {p : Nat} (h : ∀ e, (p, e) ∉ l) : evsOf p l = [] := by
  simp only [evsOf, List.map_eq_nil_iff, List.filter_eq_nil_iff]
  intro x hx
  simp only [decide_eq_true_eq]
  rintro rfl
  exact h x.2 hx

theorem evsOf_append (p : Nat) (a b : List (Nat × Ev)) : evsOf p (a ++ b) = evsOf p a ++ evsOf p b := by
  simp [evsOf]

/-- A poll takes every port along its life. -/
theorem poll_life {l : Table} (hk : Keys l) (up : Nat → Bool) (p : Nat) :
    Life (l.lookup p) (evsOf p (pollTodo l up)) ((pollTable l up).lookup p) := by
  obtain ⟨h1, h2⟩ := pollTodo_spec hk up
  rw [lookup_pollTable]
  cases hl : l.lookup p with
  | none =>
    rw [evsOf_none (by intro e he; simpa [hl] using (h2 p e).1 he)]
    exact .nil _
  | some b =>
    cases b with
    | true =>
      cases hu : up p with
      | true =>
        rw [evsOf_none (by intro e he; simpa [hl, hu] using (h2 p e).1 he)]
        simp only [Option.map_some, hu]
        exact .nil _
      | false =>
        rw [evsOf_sorted h1 ((h2 p .down).2 (.inl ⟨hl, hu, rfl⟩))]
        simp only [Option.map_some, hu]
        exact .down (es := []) (.nil _)
    | false =>
      cases hu : up p with
      | false =>
        rw [evsOf_none (by intro e he; simpa [hl, hu] using (h2 p e).1 he)]
        simp only [Option.map_some, hu]
        exact .nil _
      | true =>
        rw [evsOf_sorted h1 ((h2 p .up).2 (.inr ⟨hl, hu, rfl⟩))]
        simp only [Option.map_some, hu]
        exact .up (es := []) (.nil _)


/-! ## Runs -/

theorem mon_run_ind {P : Mon → Prop} {Q : Label → Prop} (hstep : ∀ m l m', P m → Q l → m.step l = some m' → P m') :
    ∀ (ls : List Label) (m m' : Mon), P m → (∀ l ∈ ls, Q l) → m.run ls = some m' → P m'
  | [], m, m', hP, _, h => by
    cases h
    exact hP
  | l :: ls, m, m', hP, hQ, h => by
    obtain ⟨m1, h1, h2⟩ := Option.bind_eq_some_iff.1 h
    exact mon_run_ind hstep ls m1 m' (hstep m l m1 hP (hQ l (by simp)) h1) (fun x hx => hQ x (by simp [hx])) h2

/-- What a step is. -/
theorem step_inv {m m' : Mon} {l : Label} (h : m.step l = some m') :
    (∃ e id, l = .register e id ∧ m' = { m with subs := m.subs ++ [(e, id)] }) ∨
    (∃ t p e, l = .notify t p e ∧ m.jobs[t]? = some [] ∧ accept m.ports p e = none ∧ m' = m) ∨
    (∃ t p e ports, l = .notify t p e ∧ m.jobs[t]? = some [] ∧ accept m.ports p e = some ports ∧
      m' = { m with ports := ports, acc := m.acc ++ [(p, e)], jobs := m.jobs.set t (notifyJobs p e) }) ∨
    (∃ t up, l = .poll t up ∧ m.jobs[t]? = some [] ∧
      m' = { m with ports := pollTable m.ports up, acc := m.acc ++ pollTodo m.ports up,
                    jobs := m.jobs.set t (pollJobs (pollTodo m.ports up)) }) ∨
    (∃ t j js, l = .go t ∧ m.jobs[t]? = some (j :: js) ∧ m' = ({ m with jobs := m.jobs.set t js }.work j)) := by
  cases l with
  | register e id =>
    cases h
    exact .inl ⟨e, id, rfl, rfl⟩
  | notify t p e =>
    simp only [Mon.step] at h
    split at h
    · rename_i hj
      split at h
      · rename_i ha
        cases h
        exact .inr (.inl ⟨t, p, e, rfl, hj, ha, rfl⟩)
      · rename_i ports ha
        cases h
        exact .inr (.inr (.inl ⟨t, p, e, ports, rfl, hj, ha, rfl⟩))
    · cases h
  | poll t up =>
    simp only [Mon.step] at h
    split at h
    · rename_i hj
      cases h
      exact .inr (.inr (.inr (.inl ⟨t, up, rfl, hj, rfl⟩)))
    · cases h
  | go t =>
    simp only [Mon.step] at h
    split at h
    · rename_i j js hj
      cases h
      exact .inr (.inr (.inr (.inr ⟨t, j, js, rfl, hj, rfl⟩)))
    · cases h

theorem work_same (m : Mon) (j : Job) : (m.work j).ports = m.ports ∧ (m.work j).acc = m.acc ∧
    (m.work j).subs = m.subs ∧ (m.work j).writer = m.writer ∧ (m.work j).jobs = m.jobs := by
  cases j with
  | call p e => exact ⟨rfl, rfl, rfl, rfl, rfl⟩
  | send s =>
    simp only [Mon.work]
    split
    · exact ⟨rfl, rfl, rfl, rfl, rfl⟩
    · exact ⟨rfl, rfl, rfl, rfl, rfl⟩

/-- Ports follow their lives. -/
structure LifeInv (m : Mon) : Prop where
  keys : Keys m.ports
  life : ∀ p, Life none (evsOf p m.acc) (m.ports.lookup p)

theorem accept_life {m : Mon} (h : LifeInv m) {p : Nat} {e : Ev} {ports : Table}
    (ha : accept m.ports p e = some ports) : Keys ports ∧
    ∀ q, Life none (evsOf q (m.acc ++ [(p, e)])) (ports.lookup q) := by
  obtain ⟨h1, h2, h3⟩ := accept_some h.keys ha
  refine ⟨h1, ?_⟩
  intro q
  rw [evsOf_append]
  by_cases hq : q = p
  · subst hq
    have : evsOf q [(q, e)] = [e] := by simp [evsOf]
    rw [this]
    exact life_trans (h.life q) h2
  · have : evsOf q [(p, e)] = [] := by simp [evsOf, Ne.symm hq]
    rw [this, List.append_nil, h3 q hq]
    exact h.life q

theorem lifeInv_step {m m' : Mon} {l : Label} (h : LifeInv m) (hs : m.step l = some m') : LifeInv m' := by
  rcases step_inv hs with ⟨e, id, rfl, rfl⟩ | ⟨t, p, e, rfl, hj, ha, rfl⟩ | ⟨t, p, e, ports, rfl, hj, ha, rfl⟩ |
    ⟨t, up, rfl, hj, rfl⟩ | ⟨t, j, js, rfl, hj, rfl⟩
  · exact ⟨h.keys, h.life⟩
  · exact h
  · obtain ⟨h1, h2⟩ := accept_life h ha
    exact ⟨h1, h2⟩
  · refine ⟨keys_pollTable h.keys up, ?_⟩
    intro p
    show Life none (evsOf p (m.acc ++ pollTodo m.ports up)) ((pollTable m.ports up).lookup p)
    rw [evsOf_append]
    exact life_trans (h.life p) (poll_life h.keys up p)
  · obtain ⟨e1, e2, _⟩ := work_same { m with jobs := m.jobs.set t js } j
    constructor
    · rw [e1]
      exact h.keys
    · rw [e1, e2]
      exact h.life

theorem lifeInv_new (w : Bool) (n : Nat) (subs : List (Ev × Nat)) : LifeInv (newWith w subs n) :=
  ⟨by simp [newWith, Mon.new, Keys], fun p => .nil none⟩

/-! ## Deliveries -/

/-- The calls a job will make. -/
def Job.calls (subs : List (Ev × Nat)) : Job → List (Nat × Nat × Ev)
  | .call p e => handlerCalls subs p e
  | .send _ => []

/-- The statuses a job will send. -/
def Job.statuses : Job → List (Nat × Bool)
  | .call _ _ => []
  | .send m => m

/-- The calls events cause. -/
def callsFor (subs : List (Ev × Nat)) (l : List (Nat × Ev)) : List (Nat × Nat × Ev) :=
  l.flatMap fun x => handlerCalls subs x.1 x.2

theorem notifyJobs_calls (subs : List (Ev × Nat)) (p : Nat) (e : Ev) :
    (notifyJobs p e).flatMap (Job.calls subs) = callsFor subs [(p, e)] := by
  unfold notifyJobs
  split <;> simp [Job.calls, callsFor]

theorem notifyJobs_statuses (p : Nat) (e : Ev) :
    (notifyJobs p e).flatMap Job.statuses = ([(p, e)].filter told).map oneStatus := by
  unfold notifyJobs
  cases h : told (p, e) <;> simp [Job.statuses, h]

theorem pollJobs_calls (subs : List (Ev × Nat)) (todo : List (Nat × Ev)) :
    (pollJobs todo).flatMap (Job.calls subs) = callsFor subs todo := by
  simp [pollJobs, Job.calls, callsFor, List.flatMap_map]

theorem pollJobs_statuses (todo : List (Nat × Ev)) :
    (pollJobs todo).flatMap Job.statuses = (todo.filter told).map oneStatus := by
  simp [pollJobs, Job.statuses, List.flatMap_map]

/-- What was done and what is left to do is what the accepted events ask for, up to order. -/
structure Sent (w : Bool) (subs : List (Ev × Nat)) (m : Mon) : Prop where
  sub : m.subs = subs
  writer : m.writer = w
  calls : (callsFor subs m.acc).Perm (m.calls ++ m.jobs.flatten.flatMap (Job.calls subs))
  statuses : w = true → ((m.acc.filter told).map oneStatus).Perm (m.msgs.flatten ++ m.jobs.flatten.flatMap Job.statuses)
  silent : w = false → m.msgs = []
  full : [] ∉ m.msgs

theorem flatten_set {α : Type} {l : List (List α)} {t : Nat} {a : List α} (h : l[t]? = some a) (b : List α) :
    ∃ r, l.flatten.Perm (a ++ r) ∧ (l.set t b).flatten.Perm (b ++ r) := by
  induction l generalizing t with
  | nil => simp at h
  | cons x l ih =>
    cases t with
    | zero =>
      simp only [List.getElem?_cons_zero, Option.some.injEq] at h
      subst h
      exact ⟨l.flatten, by simp, by simp⟩
    | succ t =>
      simp only [List.getElem?_cons_succ] at h
      obtain ⟨r, h1, h2⟩ := ih h
      refine ⟨x ++ r, ?_, ?_⟩
      · simp only [List.flatten_cons]
        refine (List.Perm.append_left x h1).trans ?_
        rw [← List.append_assoc, ← List.append_assoc]
        exact List.Perm.append_right r List.perm_append_comm
      · simp only [List.set_cons_succ, List.flatten_cons]
        refine (List.Perm.append_left x h2).trans ?_
        rw [← List.append_assoc, ← List.append_assoc]
        exact List.Perm.append_right r List.perm_append_comm

/-- Replacing the jobs of a thread that had none. -/
theorem jobs_new {α : Type} (f : Job → List α) {jobs : List (List Job)} {t : Nat} (h : jobs[t]? = some [])
    {done xs new : List α} {js : List Job} (hp : xs.Perm (done ++ jobs.flatten.flatMap f))
    (hj : js.flatMap f = new) : (xs ++ new).Perm (done ++ (jobs.set t js).flatten.flatMap f) := by
  obtain ⟨r, h1, h2⟩ := flatten_set h js
  have h1' := h1.flatMap_right f
  have h2' := h2.flatMap_right f
  rw [List.flatMap_append] at h1' h2'
  simp only [List.flatMap_nil, List.nil_append] at h1'
  rw [hj] at h2'
  refine (List.Perm.append_right new hp).trans ?_
  rw [List.append_assoc]
  refine List.Perm.append_left done ?_
  refine (List.Perm.append_right new h1').trans ?_
  exact List.perm_append_comm.trans h2'.symm

/-- A thread does the first of its jobs. -/
theorem jobs_go {α : Type} (f : Job → List α) {jobs : List (List Job)} {t : Nat} {j : Job} {js : List Job}
    (h : jobs[t]? = some (j :: js)) {done xs : List α} (hp : xs.Perm (done ++ jobs.flatten.flatMap f)) :
    xs.Perm ((done ++ f j) ++ (jobs.set t js).flatten.flatMap f) := by
  obtain ⟨r, h1, h2⟩ := flatten_set h js
  have h1' := h1.flatMap_right f
  have h2' := h2.flatMap_right f
  rw [List.flatMap_append] at h1' h2'
  simp only [List.flatMap_cons] at h1'
  refine hp.trans ?_
  rw [List.append_assoc]
  refine List.Perm.append_left done ?_
  refine h1'.trans ?_
  rw [List.append_assoc]
  exact List.Perm.append_left (f j) h2'.symm

theorem sent_step {w : Bool} {subs : List (Ev × Nat)} {m m' : Mon} {l : Label} (h : Sent w subs m)
    (hl : NoRegister l) (hs : m.step l = some m') : Sent w subs m' := by
  rcases step_inv hs with ⟨e, id, rfl, rfl⟩ | ⟨t, p, e, rfl, hj, ha, rfl⟩ | ⟨t, p, e, ports, rfl, hj, ha, rfl⟩ |
    ⟨t, up, rfl, hj, rfl⟩ | ⟨t, j, js, rfl, hj, rfl⟩
  · exact hl.elim
  · exact h
  · refine ⟨h.sub, h.writer, ?_, ?_, h.silent, h.full⟩
    · show (callsFor subs (m.acc ++ [(p, e)])).Perm _
      unfold callsFor
      rw [List.flatMap_append]
      exact jobs_new (Job.calls subs) hj h.calls (notifyJobs_calls subs p e)
    · intro hw
      show (((m.acc ++ [(p, e)]).filter told).map oneStatus).Perm _
      rw [List.filter_append, List.map_append]
      exact jobs_new Job.statuses hj (h.statuses hw) (notifyJobs_statuses p e)
  · refine ⟨h.sub, h.writer, ?_, ?_, h.silent, h.full⟩
    · show (callsFor subs (m.acc ++ pollTodo m.ports up)).Perm _
      unfold callsFor
      rw [List.flatMap_append]
      exact jobs_new (Job.calls subs) hj h.calls (pollJobs_calls subs _)
    · intro hw
      show (((m.acc ++ pollTodo m.ports up).filter told).map oneStatus).Perm _
      rw [List.filter_append, List.map_append]
      exact jobs_new Job.statuses hj (h.statuses hw) (pollJobs_statuses _)
  · have hc := jobs_go (Job.calls subs) hj h.calls
    cases j with
    | call p e =>
      refine ⟨h.sub, h.writer, ?_, ?_, h.silent, h.full⟩
      · show (callsFor subs m.acc).Perm (m.calls ++ handlerCalls m.subs p e ++ _)
        rw [h.sub]
        exact hc
      · intro hw
        have := jobs_go Job.statuses hj (h.statuses hw)
        simpa [Job.statuses, Mon.work] using this
    | send s =>
      have hc' : (callsFor subs m.acc).Perm (m.calls ++ (m.jobs.set t js).flatten.flatMap (Job.calls subs)) := by
        simpa [Job.calls] using hc
      simp only [Mon.work]
      by_cases hz : (!m.writer || s.isEmpty) = true
      · rw [if_pos hz]
        refine ⟨h.sub, h.writer, hc', ?_, h.silent, h.full⟩
        intro hw
        have := jobs_go Job.statuses hj (h.statuses hw)
        rw [h.writer, hw] at hz
        have hs0 : s = [] := by simpa using hz
        subst hs0
        simpa [Job.statuses, Mon.work] using this
      · rw [if_neg hz]
        refine ⟨h.sub, h.writer, hc', ?_, ?_, ?_⟩
        · intro hw
          have := jobs_go Job.statuses hj (h.statuses hw)
          simpa [Job.statuses, Mon.work] using this
        · intro hw
          rw [h.writer, hw] at hz
          simp at hz
        · intro hm
          rcases List.mem_append.1 hm with hm | hm
          · exact h.full hm
          · have hs0 := List.mem_singleton.1 hm
            subst hs0
            simp at hz

theorem flatten_replicate_nil {α : Type} (n : Nat) : (List.replicate n ([] : List α)).flatten = [] := by
  induction n with
  | zero => rfl
  | succ n ih => simp [List.replicate_succ]

theorem sent_new (w : Bool) (subs : List (Ev × Nat)) (n : Nat) : Sent w subs (newWith w subs n) := by
  refine ⟨rfl, rfl, ?_, ?_, fun _ => rfl, by simp [newWith, Mon.new]⟩
  · simp [newWith, Mon.new, flatten_replicate_nil, callsFor]
  · simp [newWith, Mon.new, flatten_replicate_nil]

/-- With one thread the order is kept too. -/
structure Order (w : Bool) (subs : List (Ev × Nat)) (m : Mon) : Prop where
  sub : m.subs = subs
  writer : m.writer = w
  one : ∃ js, m.jobs = [js] ∧ callsFor subs m.acc = m.calls ++ js.flatMap (Job.calls subs) ∧
    (w = true → (m.acc.filter told).map oneStatus = m.msgs.flatten ++ js.flatMap Job.statuses)

theorem order_step {w : Bool} {subs : List (Ev × Nat)} {m m' : Mon} {l : Label} (h : Order w subs m)
    (hl : NoRegister l) (hs : m.step l = some m') : Order w subs m' := by
  obtain ⟨js0, hjs, hcalls, hst⟩ := h.one
  have first : ∀ {t x}, m.jobs[t]? = some x → t = 0 ∧ js0 = x := by
    intro t x hx
    rw [hjs] at hx
    cases t with
    | zero => simpa using hx
    | succ t => simp at hx
  rcases step_inv hs with ⟨e, id, rfl, rfl⟩ | ⟨t, p, e, rfl, hj, ha, rfl⟩ | ⟨t, p, e, ports, rfl, hj, ha, rfl⟩ |
    ⟨t, up, rfl, hj, rfl⟩ | ⟨t, j, js, rfl, hj, rfl⟩
  · exact hl.elim
  · exact h
  · obtain ⟨rfl, rfl⟩ := first hj
    refine ⟨h.sub, h.writer, notifyJobs p e, ?_, ?_, ?_⟩
    · show m.jobs.set 0 _ = _
      rw [hjs]
      rfl
    · show callsFor subs (m.acc ++ [(p, e)]) = m.calls ++ _
      rw [notifyJobs_calls]
      unfold callsFor at hcalls ⊢
      rw [List.flatMap_append, hcalls]
      simp
    · intro hw
      show ((m.acc ++ [(p, e)]).filter told).map oneStatus = m.msgs.flatten ++ _
      rw [notifyJobs_statuses, List.filter_append, List.map_append, hst hw]
      simp
  · obtain ⟨rfl, rfl⟩ := first hj
    refine ⟨h.sub, h.writer, pollJobs (pollTodo m.ports up), ?_, ?_, ?_⟩
    · show m.jobs.set 0 _ = _
      rw [hjs]
      rfl
    · show callsFor subs (m.acc ++ pollTodo m.ports up) = m.calls ++ _
      rw [pollJobs_calls]
      unfold callsFor at hcalls ⊢
      rw [List.flatMap_append, hcalls]
      simp
    · intro hw
      show ((m.acc ++ pollTodo m.ports up).filter told).map oneStatus = m.msgs.flatten ++ _
      rw [pollJobs_statuses, List.filter_append, List.map_append, hst hw]
      simp
  · obtain ⟨rfl, rfl⟩ := first hj
    have hset : m.jobs.set 0 js = [js] := by rw [hjs]; rfl
    cases j with
    | call p e =>
      refine ⟨h.sub, h.writer, js, hset, ?_, ?_⟩
      · show callsFor subs m.acc = m.calls ++ handlerCalls m.subs p e ++ _
        rw [hcalls, h.sub]
        simp [Job.calls]
      · intro hw
        have := hst hw
        simpa [Job.statuses, Mon.work] using this
    | send s =>
      have hc' : callsFor subs m.acc = m.calls ++ js.flatMap (Job.calls subs) := by
        simpa [Job.calls] using hcalls
      simp only [Mon.work]
      by_cases hz : (!m.writer || s.isEmpty) = true
      · rw [if_pos hz]
        refine ⟨h.sub, h.writer, js, hset, hc', ?_⟩
        intro hw
        have := hst hw
        rw [h.writer, hw] at hz
        have hs0 : s = [] := by simpa using hz
        subst hs0
        simpa [Job.statuses, Mon.work] using this
      · rw [if_neg hz]
        refine ⟨h.sub, h.writer, js, hset, hc', ?_⟩
        intro hw
        have := hst hw
        simpa [Job.statuses, Mon.work] using this

theorem order_new (w : Bool) (subs : List (Ev × Nat)) : Order w subs (newWith w subs 1) :=
  ⟨rfl, rfl, [], rfl, by simp [newWith, Mon.new, callsFor], by simp [newWith, Mon.new]⟩


/-! ## Statuses told to subscribers -/

/-- The statuses among events. -/
def evStatuses (es : List Ev) : List Bool := (es.filter fun e => e == .up || e == .down).map (· == .up)

theorem statusesOf_told (p : Nat) (l : List (Nat × Ev)) :
    statusesOf p ((l.filter told).map oneStatus) = evStatuses (evsOf p l) := by
  induction l with
  | nil => rfl
  | cons x l ih =>
    obtain ⟨q, e⟩ := x
    unfold statusesOf evStatuses evsOf at ih ⊢
    by_cases hq : q = p
    · subst hq
      cases e <;> simp [told, oneStatus] at ih ⊢ <;> exact ih
    · cases e <;> simp [told, oneStatus, hq] at ih ⊢ <;> exact ih

/-- A port that is never removed goes up and down alternately. -/
theorem life_alternates {s : Option Bool} {es : List Ev} (h : Life none es s) (hr : .removed ∉ es) :
    (s = none → es = []) ∧ (∀ b, s = some b → (evStatuses es).length % 2 = if b then 1 else 0) ∧
    ∀ (i : Nat) (b : Bool), (evStatuses es)[i]? = some b → (b = true ↔ i % 2 = 0) := by
  induction h with
  | nil => simp [evStatuses]
  | added h ih =>
    obtain ⟨h1, h2, h3⟩ := ih (by intro hm; exact hr (by simp [hm]))
    have := h1 rfl
    subst this
    simp [evStatuses]
  | @up es h ih =>
    obtain ⟨h1, h2, h3⟩ := ih (by intro hm; exact hr (by simp [hm]))
    have hl := h2 false rfl
    have e : evStatuses (es ++ [.up]) = evStatuses es ++ [true] := by simp [evStatuses]
    rw [e]
    refine ⟨by simp, ?_, ?_⟩
    · intro b hb
      cases hb
      simp at hl ⊢
      omega
    · intro i b hi
      by_cases hlt : i < (evStatuses es).length
      · rw [List.getElem?_append_left hlt] at hi
        exact h3 i b hi
      · rw [List.getElem?_append_right (by omega)] at hi
        have h0 : i - (evStatuses es).length = 0 := by
          by_contra hne
          rw [List.getElem?_eq_none (by simp; omega)] at hi
          cases hi
        rw [h0] at hi
        simp at hi hl
        subst hi
        simp
        omega
  | @down es h ih =>
    obtain ⟨h1, h2, h3⟩ := ih (by intro hm; exact hr (by simp [hm]))
    have hl := h2 true rfl
    have e : evStatuses (es ++ [.down]) = evStatuses es ++ [false] := by simp [evStatuses]
    rw [e]
    refine ⟨by simp, ?_, ?_⟩
    · intro b hb
      cases hb
      simp at hl ⊢
      omega
    · intro i b hi
      by_cases hlt : i < (evStatuses es).length
      · rw [List.getElem?_append_left hlt] at hi
        exact h3 i b hi
      · rw [List.getElem?_append_right (by omega)] at hi
        have h0 : i - (evStatuses es).length = 0 := by
          by_contra hne
          rw [List.getElem?_eq_none (by simp; omega)] at hi
          cases hi
        rw [h0] at hi
        simp at hi hl
        subst hi
        simp
        omega
  | removed h ih => exact absurd (by simp) hr

/-! ## The device manager that receives messages -/

/-- The state of a port after an event that may be refused. -/
def next : Option Bool → Ev → Option Bool
  | none, .added => some false
  | some _, .removed => none
  | some _, .up => some true
  | some _, .down => some false
  | s, _ => s

theorem foldl_work_ports (js : List Job) (m : Mon) : (js.foldl Mon.work m).ports = m.ports := by
  induction js generalizing m with
  | nil => rfl
  | cons j js ih => rw [List.foldl_cons, ih, (work_same m j).1]

theorem notifyNow_ports {m : Mon} (hk : Keys m.ports) (p : Nat) (e : Ev) :
    Keys (m.notifyNow p e).ports ∧
    ∀ q, (m.notifyNow p e).ports.lookup q = if q = p then next (m.ports.lookup p) e else m.ports.lookup q := by
  unfold Mon.notifyNow
  cases ha : accept m.ports p e with
  | none =>
    refine ⟨hk, ?_⟩
    intro q
    by_cases hq : q = p
    · subst hq
      rw [if_pos rfl]
      cases hl : m.ports.lookup q with
      | none => cases e <;> simp [accept, hl] at ha <;> rfl
      | some b => cases b <;> cases e <;> simp [accept, hl] at ha <;> rfl
    · rw [if_neg hq]
  | some ports =>
    obtain ⟨h1, h2, h3⟩ := accept_some hk ha
    simp only [foldl_work_ports]
    refine ⟨h1, ?_⟩
    intro q
    by_cases hq : q = p
    · subst hq
      rw [if_pos rfl]
      cases hl : m.ports.lookup q with
      | none =>
        cases e <;> simp [accept, hl] at ha
        subst ha
        simp [List.lookup, next]
      | some b =>
        cases b <;> cases e <;> simp [accept, hl] at ha <;> subst ha
        · have := lookup_filter m.ports q q
          simpa [next] using this
        · simp [lookup_setUp, hl, next]
        · have := lookup_filter m.ports q q
          simpa [next] using this
        · simp [lookup_setUp, hl, next]
    · rw [if_neg hq, h3 q hq]

theorem word_enc (a b c : Nat) (r : Bytes) (ha : a < 2 ^ 32) (hb : b < 2 ^ 32) (hc : c < 2 ^ 32) :
    word (le32 a ++ le32 b ++ le32 c ++ r) 0 = a ∧ word (le32 a ++ le32 b ++ le32 c ++ r) 1 = b ∧
    word (le32 a ++ le32 b ++ le32 c ++ r) 2 = c ∧ (le32 a ++ le32 b ++ le32 c ++ r).drop 12 = r ∧
    (le32 a ++ le32 b ++ le32 c ++ r).length = 12 + r.length := by
  refine ⟨?_, ?_, ?_, rfl, ?_⟩
  · simp only [word, le32, List.cons_append, List.nil_append, List.getD_eq_getElem?_getD, Nat.mul_zero, Nat.zero_add,
      List.getElem?_cons_zero, List.getElem?_cons_succ, Option.getD_some, UInt8.toNat_ofNat']
    omega
  · simp only [word, le32, List.cons_append, List.nil_append, List.getD_eq_getElem?_getD, Nat.mul_one, Nat.reduceAdd,
      List.getElem?_cons_zero, List.getElem?_cons_succ, Option.getD_some, UInt8.toNat_ofNat']
    omega
  · simp only [word, le32, List.cons_append, List.nil_append, List.getD_eq_getElem?_getD, Nat.reduceMul, Nat.reduceAdd,
      List.getElem?_cons_zero, List.getElem?_cons_succ, Option.getD_some, UInt8.toNat_ofNat']
    omega
  · simp [le32]
    omega

/-- What a message does. -/
def Dev.apply (d : Dev) : Req → Dev
  | .add p => d.portAdd p
  | .remove p => d.portRemove p
  | .status p b => d.setStatus p b
  | .packet p data => if d.lets p then { d with packets := d.packets ++ [(p, data)] } else d
  | .other => d

theorem handle_encode (d : Dev) {r : Req} (hf : r.Fits) (x : Bytes) : d.handle (encode r ++ x) = some (d.apply r) := by
  cases r with
  | add p =>
    obtain ⟨h0, h1, h2, h3, h4⟩ := word_enc 0 p 0 x (by omega) hf (by omega)
    simp only [encode, Dev.handle, h0, h1, h4]
    rw [if_neg (by omega)]
    simp [Dev.apply]
  | remove p =>
    obtain ⟨h0, h1, h2, h3, h4⟩ := word_enc 1 p 0 x (by omega) hf (by omega)
    simp only [encode, Dev.handle, h0, h1, h4]
    rw [if_neg (by omega)]
    simp [Dev.apply]
  | status p b =>
    cases b with
    | true =>
      obtain ⟨h0, h1, h2, h3, h4⟩ := word_enc 2 p 1 x (by omega) hf (by omega)
      simp only [encode, Dev.handle, if_true, h0, h1, h2, h4]
      rw [if_neg (by omega)]
      simp [Dev.apply]
    | false =>
      obtain ⟨h0, h1, h2, h3, h4⟩ := word_enc 2 p 0 x (by omega) hf (by omega)
      simp only [encode, Dev.handle, Bool.false_eq_true, if_false, h0, h1, h2, h4]
      rw [if_neg (by omega)]
      simp [Dev.apply]
  | packet p data =>
    obtain ⟨hp, hd⟩ := hf
    obtain ⟨h0, h1, h2, h3, h4⟩ := word_enc 3 p data.length (data ++ x) (by omega) hp (by omega)
    rw [← List.append_assoc] at h0 h1 h2 h3 h4
    rw [List.length_append (as := data)] at h4
    simp only [encode, Dev.handle, h0, h1, h2, h3, h4]
    rw [if_neg (by omega)]
    by_cases hl : d.lets p = true
    · rw [if_pos hl, if_neg (by omega)]
      simp [Dev.apply, hl]
    · rw [if_neg hl]
      simp [Dev.apply, hl]
  | other =>
    obtain ⟨h0, h1, h2, h3, h4⟩ := word_enc 4 0 0 x (by omega) (by omega) (by omega)
    simp only [encode, Dev.handle, h0, h4]
    rw [if_neg (by omega)]
    simp [Dev.apply]

/-- What the device manager knows, from the messages (the last one first). -/
structure DevInv (en : Bool) (hist : List Req) (d : Dev) : Prop where
  enforce : d.enforce = en
  keys : Keys d.info
  info : ∀ p, d.info.lookup p = if known p hist then some (lastUp p hist) else none
  packets : d.packets = packetsIn en hist
  mkeys : Keys d.mon.ports
  mon : en = true → ∀ p, d.mon.ports.lookup p = d.info.lookup p

theorem devInv_step {en : Bool} {hist : List Req} {d : Dev} (h : DevInv en hist d) (r : Req) :
    DevInv en (r :: hist) (d.apply r) := by
  cases r with
  | add p =>
    have hknown : ∀ q, known q (.add p :: hist) = (p == q || known q hist) := fun q => rfl
    simp only [Dev.apply, Dev.portAdd]
    cases hl : d.info.lookup p with
    | some b =>
      have hi := h.info p
      rw [hl] at hi
      have hkp : known p hist = true := by
        by_contra hne
        rw [if_neg hne] at hi
        cases hi
      refine ⟨h.enforce, h.keys, ?_, h.packets, h.mkeys, h.mon⟩
      intro q
      rw [h.info q, hknown]
      by_cases hq : p = q
      · subst hq
        simp [hkp, lastUp]
      · simp [lastUp, hq]
    | none =>
      have hi := h.info p
      rw [hl] at hi
      have hkp : known p hist = false := by
        by_contra hne
        rw [if_pos (by simpa using hne)] at hi
        cases hi
      have hkeys : Keys ((p, true) :: d.info) := by
        simp only [Keys, List.map_cons, List.nodup_cons]
        exact ⟨lookup_none.1 hl, h.keys⟩
      have hinfo : ∀ q, ((p, true) :: d.info).lookup q =
          if known q (.add p :: hist) then some (lastUp q (.add p :: hist)) else none := by
        intro q
        by_cases hq : p = q
        · subst hq
          simp [List.lookup, known, lastUp, hkp]
        · have hb : (q == p) = false := by simpa using Ne.symm hq
          simp only [List.lookup, hb, known, lastUp, hq, false_and, if_false]
          have hb' : (p == q) = false := by simpa using hq
          rw [hb', Bool.false_or]
          exact h.info q
      by_cases he : (!d.enforce) = true
      · simp only [he, if_true]
        refine ⟨h.enforce, hkeys, hinfo, h.packets, h.mkeys, ?_⟩
        intro hen
        rw [h.enforce, hen] at he
        cases he
      · simp only [he]
        obtain ⟨k1, l1⟩ := notifyNow_ports h.mkeys p .added
        obtain ⟨k2, l2⟩ := notifyNow_ports k1 p .up
        refine ⟨h.enforce, hkeys, hinfo, h.packets, k2, ?_⟩
        intro hen q
        have hm := h.mon hen
        show ((d.mon.notifyNow p .added).notifyNow p .up).ports.lookup q = ((p, true) :: d.info).lookup q
        rw [l2, l1, if_pos rfl, l1, hm p, hl]
        by_cases hq : q = p
        · subst hq
          simp [next, List.lookup]
        · have hb : (q == p) = false := by simpa using hq
          rw [if_neg hq, if_neg hq, hm q]
          simp [List.lookup, hb]
  | remove p =>
    simp only [Dev.apply, Dev.portRemove]
    cases hl : d.info.lookup p with
    | none =>
      have hi := h.info p
      rw [hl] at hi
      have hkp : known p hist = false := by
        by_contra hne
        rw [if_pos (by simpa using hne)] at hi
        cases hi
      refine ⟨h.enforce, h.keys, ?_, h.packets, h.mkeys, h.mon⟩
      intro q
      rw [h.info q]
      by_cases hq : p = q
      · subst hq
        simp [known, hkp]
      · simp [known, lastUp, hq]
    | some b =>
      have hkeys : Keys (d.info.filter fun x => x.1 ≠ p) :=
        List.Nodup.sublist ((List.filter_sublist (l := d.info)).map Prod.fst) h.keys
      have hinfo : ∀ q, (d.info.filter fun x => x.1 ≠ p).lookup q =
          if known q (.remove p :: hist) then some (lastUp q (.remove p :: hist)) else none := by
        intro q
        rw [lookup_filter]
        by_cases hq : q = p
        · subst hq
          simp [known]
        · rw [if_neg hq, h.info q]
          have : (p != q) = true := by simpa using Ne.symm hq
          simp [known, lastUp, this]
      by_cases he : (!d.enforce) = true
      · simp only [he, if_true]
        refine ⟨h.enforce, hkeys, hinfo, h.packets, h.mkeys, ?_⟩
        intro hen
        rw [h.enforce, hen] at he
        cases he
      · simp only [he]
        obtain ⟨k1, l1⟩ := notifyNow_ports h.mkeys p .removed
        refine ⟨h.enforce, hkeys, hinfo, h.packets, k1, ?_⟩
        intro hen q
        have hm := h.mon hen
        show (d.mon.notifyNow p .removed).ports.lookup q = (d.info.filter fun x => x.1 ≠ p).lookup q
        rw [l1, lookup_filter, hm p, hl, hm q]
        rfl
  | status p b =>
    simp only [Dev.apply, Dev.setStatus]
    cases hl : d.info.lookup p with
    | none =>
      have hi := h.info p
      rw [hl] at hi
      have hkp : known p hist = false := by
        by_contra hne
        rw [if_pos (by simpa using hne)] at hi
        cases hi
      refine ⟨h.enforce, h.keys, ?_, h.packets, h.mkeys, h.mon⟩
      intro q
      rw [h.info q]
      by_cases hq : p = q
      · subst hq
        simp [known, hkp]
      · simp [known, lastUp, hq]
    | some c =>
      have hi := h.info p
      rw [hl] at hi
      have hkp : known p hist = true := by
        by_contra hne
        rw [if_neg hne] at hi
        cases hi
      have hkeys : Keys (setUp d.info p b) := by
        rw [Keys, keys_setUp]
        exact h.keys
      have hinfo : ∀ q, (setUp d.info p b).lookup q =
          if known q (.status p b :: hist) then some (lastUp q (.status p b :: hist)) else none := by
        intro q
        rw [lookup_setUp]
        by_cases hq : q = p
        · subst hq
          simp [known, lastUp, hkp, hl]
        · rw [if_neg hq, h.info q]
          simp [known, lastUp, Ne.symm hq]
      by_cases he : (!d.enforce) = true
      · simp only [he, if_true]
        refine ⟨h.enforce, hkeys, hinfo, h.packets, h.mkeys, ?_⟩
        intro hen
        rw [h.enforce, hen] at he
        cases he
      · simp only [he]
        obtain ⟨k1, l1⟩ := notifyNow_ports h.mkeys p (if b then .up else .down)
        refine ⟨h.enforce, hkeys, hinfo, h.packets, k1, ?_⟩
        intro hen q
        have hm := h.mon hen
        show (d.mon.notifyNow p (if b then .up else .down)).ports.lookup q = (setUp d.info p b).lookup q
        rw [l1, lookup_setUp, hm p, hl, hm q]
        cases b <;> rfl
  | packet p data =>
    have hlets : d.lets p = letIn en p hist := by
      unfold Dev.lets letIn
      rw [h.enforce, h.info p]
      cases known p hist <;> cases lastUp p hist <;> rfl
    simp only [Dev.apply, hlets]
    by_cases hl : letIn en p hist = true
    · rw [if_pos hl]
      refine ⟨h.enforce, h.keys, h.info, ?_, h.mkeys, h.mon⟩
      show d.packets ++ [(p, data)] = packetsIn en (.packet p data :: hist)
      simp [packetsIn, hl, h.packets]
    · rw [if_neg hl]
      refine ⟨h.enforce, h.keys, h.info, ?_, h.mkeys, h.mon⟩
      simp [packetsIn, hl, h.packets]
  | other => exact ⟨h.enforce, h.keys, h.info, h.packets, h.mkeys, h.mon⟩

theorem devInv_new (en w : Bool) : DevInv en [] (Dev.new en w) :=
  ⟨rfl, by simp [Dev.new, Keys], fun p => rfl, rfl, by simp [Dev.new, Mon.new, Keys], fun _ _ => rfl⟩

theorem receive_inv {en : Bool} : ∀ (rs : List (Req × Bytes)) (hist : List Req) (d : Dev), DevInv en hist d →
    (∀ r ∈ rs, r.1.Fits) → ∃ d', d.receive (rs.map fun r => encode r.1 ++ r.2) = some d' ∧
      DevInv en ((rs.map Prod.fst).reverse ++ hist) d'
  | [], hist, d, h, _ => ⟨d, rfl, h⟩
  | r :: rs, hist, d, h, hf => by
    obtain ⟨d', h1, h2⟩ := receive_inv rs (r.1 :: hist) (d.apply r.1) (devInv_step h r.1) (fun x hx => hf x (by simp [hx]))
    refine ⟨d', ?_, by simpa using h2⟩
    simp only [List.map_cons, Dev.receive, handle_encode d (hf r (by simp)), Option.bind_some]
    exact h1

end Bm.Ports
