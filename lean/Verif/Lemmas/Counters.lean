import Verif.Spec.Counters

/-!
# Lemmas about counters
-/

namespace Bm.Counters

open Bm.Counters.Spec

/-- The operations whose step for variable `h` this is. -/
def sel (h : Half) (x : Half × Op) : Option Op := if x.1 = h then some x.2 else none

theorem interleave_filterMap {α β : Type} (f : α → Option β) {ls : List (List α)} {m : List α} (h : Interleave ls m) :
    Interleave (ls.map (List.filterMap f)) (m.filterMap f) := by
  induction h with
  | nil n => simp only [List.map_replicate, List.filterMap_nil]; exact .nil n
  | cons pre a l post m _ ih =>
    simp only [List.map_append, List.map_cons] at ih ⊢
    cases ha : f a with
    | none => rw [List.filterMap_cons_none ha, List.filterMap_cons_none ha]; exact ih
    | some b => rw [List.filterMap_cons_some ha, List.filterMap_cons_some ha]; exact .cons _ _ _ _ _ ih

theorem sel_steps (h : Half) (os : List Op) : (os.flatMap Op.steps).filterMap (sel h) = os := by
  induction os with
  | nil => rfl
  | cons o os ih =>
    rw [List.flatMap_cons, List.filterMap_append, ih]
    cases h <;> simp [Op.steps, sel]

theorem interleave_ops (h : Half) (conv : Int → Nat) (n : Nat) (ths : List (List Call)) (ms : List (Half × Op))
    (hi : Interleave (ths.map (threadSteps conv n)) ms) :
    Interleave (ths.map (threadOps conv n)) (ms.filterMap (sel h)) := by
  have := interleave_filterMap (sel h) hi
  rw [List.map_map] at this
  have he : ths.map (List.filterMap (sel h) ∘ threadSteps conv n) = ths.map (threadOps conv n) := by
    apply List.map_congr_left
    intro cs _
    exact sel_steps h _
  rwa [he] at this

theorem interleave_mem {α : Type} {ls : List (List α)} {m : List α} (h : Interleave ls m) :
    ∀ a ∈ m, ∃ l ∈ ls, a ∈ l := by
  induction h with
  | nil n => intro a ha; cases ha
  | cons pre b l post m _ ih =>
    intro a ha
    rcases List.mem_cons.mp ha with rfl | ha
    · exact ⟨a :: l, by simp, List.mem_cons_self⟩
    · obtain ⟨l', hl', hal⟩ := ih a ha
      rcases List.mem_append.mp hl' with h1 | h1
      · exact ⟨l', List.mem_append_left _ h1, hal⟩
      · rcases List.mem_cons.mp h1 with rfl | h1
        · exact ⟨b :: l', by simp, List.mem_cons_of_mem _ hal⟩
        · exact ⟨l', by simp [h1], hal⟩

theorem ops_lt (conv : Int → Nat) (n : Nat) (c : Call) : ∀ o ∈ c.ops conv n, o.idx < n := by
  intro o ho
  cases c with
  | count idx len =>
    simp only [Call.ops] at ho
    split at ho
    · simp only [List.mem_singleton] at ho; subst ho; assumption
    · cases ho
  | read q idx =>
    simp only [Call.ops] at ho
    split at ho
    · simp only [List.mem_singleton] at ho; subst ho; assumption
    · cases ho
  | write idx b p =>
    simp only [Call.ops] at ho
    split at ho
    · simp only [List.mem_singleton] at ho; subst ho; assumption
    · cases ho
  | reset =>
    simp only [Call.ops, List.mem_map, List.mem_range] at ho
    obtain ⟨i, hi, rfl⟩ := ho
    exact hi

theorem steps_lt (conv : Int → Nat) (n : Nat) (cs : List Call) : ∀ x ∈ threadSteps conv n cs, x.2.idx < n := by
  intro x hx
  simp only [threadSteps, threadOps, List.mem_flatMap] at hx
  obtain ⟨o, ⟨c, _, ho⟩, hx⟩ := hx
  have := ops_lt conv n c o ho
  simp only [Op.steps, List.mem_cons, List.not_mem_nil, or_false] at hx
  rcases hx with rfl | rfl <;> exact this

theorem half_step (h h' : Half) (c : Counter) (o : Op) :
    half h (c.step h' o) = if h' = h then value h o.idx (half h c) [o] else half h c := by
  cases h <;> cases h' <;> cases o <;> simp [Counter.step, half, value, Op.idx]

theorem value_cons (h : Half) (i v : Nat) (o : Op) (os : List Op) :
    value h i v (o :: os) = value h i (value h i v [o]) os := by
  cases o <;> simp [value]

theorem value_ne (h : Half) (i v : Nat) (o : Op) (hne : o.idx ≠ i) : value h i v [o] = v := by
  cases o <;> simp_all [value, Op.idx]

/-- What a run does to one variable of all counters, and what it reads. -/
theorem run_half (h : Half) : ∀ (ms : List (Half × Op)) (cs : List Counter), (∀ x ∈ ms, x.2.idx < cs.length) →
    ∃ cs' rd, run cs ms = some (cs', rd) ∧ cs'.length = cs.length ∧
      (∀ i (c c' : Counter), cs[i]? = some c → cs'[i]? = some c' →
        half h c' = value h i (half h c) (ms.filterMap (sel h))) ∧
      ∀ v : Nat → Nat, (∀ i (c : Counter), cs[i]? = some c → half h c = v i) →
        (rd.filterMap fun x => if x.2.1 = h then some (x.1, x.2.2) else none) = reads h v (ms.filterMap (sel h)) := by
  intro ms
  induction ms with
  | nil =>
    intro cs _
    refine ⟨cs, [], rfl, rfl, ?_, ?_⟩
    · intro i c c' h1 h2; rw [h1] at h2; cases h2; rfl
    · intro v _; rfl
  | cons x ms ih =>
    intro cs hlt
    obtain ⟨h', o⟩ := x
    have ho : o.idx < cs.length := hlt (h', o) List.mem_cons_self
    have hget : cs[o.idx]? = some cs[o.idx] := List.getElem?_eq_getElem ho
    obtain ⟨cs', rd, hr, hlen, hval, hrd⟩ := ih (cs.set o.idx (cs[o.idx].step h' o))
      (by intro x hx; rw [List.length_set]; exact hlt x (List.mem_cons_of_mem _ hx))
    refine ⟨cs', cs[o.idx].read h' o ++ rd, ?_, by rw [hlen, List.length_set], ?_, ?_⟩
    · simp only [run, hget, hr]
    · intro i c c' h1 h2
      by_cases hi : o.idx = i
      · subst hi
        rw [hget] at h1; cases h1
        have h3 := hval o.idx _ c' (by rw [List.getElem?_set_self ho]) h2
        rw [half_step] at h3
        by_cases hh : h' = h
        · subst hh
          rw [if_pos rfl] at h3
          rw [List.filterMap_cons_some (b := o) (by simp [sel]), value_cons, h3]
        · rw [if_neg hh] at h3
          rw [List.filterMap_cons_none (by simp [sel, hh]), h3]
      · have h3 := hval i c c' (by rw [List.getElem?_set_ne hi]; exact h1) h2
        by_cases hh : h' = h
        · subst hh
          rw [List.filterMap_cons_some (b := o) (by simp [sel]), value_cons, value_ne _ _ _ _ hi, h3]
        · rw [List.filterMap_cons_none (by simp [sel, hh]), h3]
    · intro v hv
      rw [List.filterMap_append]
      by_cases hh : h' = h
      · subst hh
        rw [List.filterMap_cons_some (b := o) (by simp [sel])]
        have hv' : ∀ i (c : Counter), (cs.set o.idx (cs[o.idx].step h' o))[i]? = some c →
            half h' c = value h' i (v i) [o] := by
          intro i c hc
          by_cases hi : o.idx = i
          · subst hi
            rw [List.getElem?_set_self ho, Option.some.injEq] at hc
            subst hc
            rw [half_step, if_pos rfl, hv _ _ hget]
          · rw [List.getElem?_set_ne hi] at hc
            rw [value_ne _ _ _ _ hi, hv _ _ hc]
        have h3 := hrd _ hv'
        rw [h3]
        cases o with
        | get q i =>
          have hvi := hv i cs[i] hget
          have hfun : (fun j => value h' j (v j) [Op.get q i]) = v := by funext j; rfl
          rw [hfun]
          rw [show reads h' v (Op.get q i :: List.filterMap (sel h') ms) = (q, v i) ::
            reads h' v (List.filterMap (sel h') ms) from rfl]
          rw [← hvi]
          cases h' <;> simp [Counter.read, half, Op.idx] <;> rfl
        | inc i len => simp [Counter.read, reads]
        | set i b p => simp [Counter.read, reads]
      · rw [List.filterMap_cons_none (by simp [sel, hh])]
        have hv' : ∀ i (c : Counter), (cs.set o.idx (cs[o.idx].step h' o))[i]? = some c → half h c = v i := by
          intro i c hc
          by_cases hi : o.idx = i
          · subst hi
            rw [List.getElem?_set_self ho, Option.some.injEq] at hc
            subst hc
            rw [half_step, if_neg hh, hv _ _ hget]
          · rw [List.getElem?_set_ne hi] at hc
            exact hv _ _ hc
        rw [hrd v hv']
        cases o <;> simp [Counter.read, hh]

/-- What operations that only count add to a variable. -/
def opSum (h : Half) (i : Nat) : List Op → Nat
  | [] => 0
  | .inc j len :: os => (if j = i then (match h with | .bytes => len | .packets => 1) else 0) + opSum h i os
  | _ :: os => opSum h i os

theorem opSum_append (h : Half) (i : Nat) (a b : List Op) : opSum h i (a ++ b) = opSum h i a + opSum h i b := by
  induction a with
  | nil => simp [opSum]
  | cons o a ih => cases o <;> simp [opSum, ih] <;> omega

theorem opSum_interleave (h : Half) (i : Nat) {ls : List (List Op)} {m : List Op} (hi : Interleave ls m) :
    opSum h i m = (ls.map (opSum h i)).sum := by
  induction hi with
  | nil n => simp [opSum]
  | cons pre a l post m _ ih =>
    simp only [List.map_append, List.map_cons, List.sum_append, List.sum_cons] at ih ⊢
    have : opSum h i (a :: l) = opSum h i [a] + opSum h i l := opSum_append h i [a] l
    have h2 : opSum h i (a :: m) = opSum h i [a] + opSum h i m := opSum_append h i [a] m
    omega

theorem value_counts (h : Half) (i : Nat) : ∀ (os : List Op) (v : Nat), v < 2 ^ 64 →
    (∀ o ∈ os, (∃ j len, o = .inc j len) ∨ ∃ q j, o = .get q j) → value h i v os = (v + opSum h i os) % 2 ^ 64 := by
  intro os
  induction os with
  | nil => intro v hv _; simp only [value, opSum, Nat.add_zero]; exact (Nat.mod_eq_of_lt hv).symm
  | cons o os ih =>
    intro v hv ho
    have ih' := fun v hv => ih v hv (fun o' ho' => ho o' (List.mem_cons_of_mem _ ho'))
    rcases ho o List.mem_cons_self with ⟨j, len, rfl⟩ | ⟨q, j, rfl⟩
    · simp only [value, opSum]
      by_cases hj : j = i
      · rw [if_pos hj, if_pos hj, ih' _ (Nat.mod_lt _ (by decide))]
        cases h <;> simp only <;> omega
      · rw [if_neg hj, if_neg hj, ih' _ hv]
        simp
    · exact ih' _ hv

theorem countsOnly_ops (conv : Int → Nat) (n : Nat) (cs : List Call) (h : CountsOnly cs) :
    ∀ o ∈ threadOps conv n cs, (∃ j len, o = .inc j len) ∨ ∃ q j, o = .get q j := by
  intro o ho
  simp only [threadOps, List.mem_flatMap] at ho
  obtain ⟨c, hc, ho⟩ := ho
  rcases h c hc with ⟨idx, len, rfl, _⟩ | ⟨q, idx, rfl⟩
  · simp only [Call.ops] at ho
    split at ho
    · simp only [List.mem_singleton] at ho; exact .inl ⟨_, _, ho⟩
    · cases ho
  · simp only [Call.ops] at ho
    split at ho
    · simp only [List.mem_singleton] at ho; exact .inr ⟨_, _, ho⟩
    · cases ho

theorem opSum_total (conv : Int → Nat) (hconv : ConvOk conv) (n i : Nat) (hi : i < n) (cs : List Call)
    (h : CountsOnly cs) : opSum .bytes i (threadOps conv n cs) = (total i cs).1 ∧
      opSum .packets i (threadOps conv n cs) = (total i cs).2 := by
  induction cs with
  | nil => exact ⟨rfl, rfl⟩
  | cons c cs ih =>
    obtain ⟨ih1, ih2⟩ := ih (fun c' hc' => h c' (List.mem_cons_of_mem _ hc'))
    have hsplit : threadOps conv n (c :: cs) = c.ops conv n ++ threadOps conv n cs := rfl
    rw [hsplit, opSum_append, opSum_append, ih1, ih2]
    rcases h c List.mem_cons_self with ⟨idx, len, rfl, h0, h1⟩ | ⟨q, idx, rfl⟩
    · have hk := hconv.keeps idx h0 h1
      simp only [Call.ops, total]
      by_cases he : idx = i
      · have hc : conv idx = i := by omega
        rw [if_pos (by omega), if_pos he]
        simp [opSum, hc]
        omega
      · have hc : conv idx ≠ i := by omega
        rw [if_neg he]
        split <;> simp [opSum, hc]
    · simp only [Call.ops, total]
      split <;> simp [opSum]

end Bm.Counters
