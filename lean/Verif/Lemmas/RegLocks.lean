import Verif.Spec.RegLocks

/-!
# Lemmas for C108
-/

namespace Bm.RegLocks
open Bm.RegLocks.Spec

/-! ## Which mutexes are taken -/

/-- The list of mutexes is that of the set. -/
def Good (s : Sync) : Prop := s.mutexes = s.arrays ∧ s.mutexes.Nodup

/-- `s'` has the arrays `l` in addition. -/
def Ext (s s' : Sync) (l : List Nat) : Prop := Good s → Good s' ∧ ∀ a, a ∈ s'.mutexes ↔ a ∈ s.mutexes ∨ a ∈ l

theorem Ext.nil (s : Sync) : Ext s s [] := fun h => ⟨h, by simp⟩

theorem Ext.trans {s s' s'' : Sync} {l l' : List Nat} (h : Ext s s' l) (h' : Ext s' s'' l') : Ext s s'' (l ++ l') := by
  intro g
  obtain ⟨g1, m1⟩ := h g
  obtain ⟨g2, m2⟩ := h' g1
  refine ⟨g2, ?_⟩
  intro a
  rw [m2, m1, List.mem_append, or_assoc]

theorem Ext.congr {s s' : Sync} {l l' : List Nat} (h : Ext s s' l) (hl : ∀ a, a ∈ l ↔ a ∈ l') : Ext s s' l' := by
  intro g
  obtain ⟨g1, m1⟩ := h g
  exact ⟨g1, fun a => by rw [m1, hl]⟩

theorem ext_add (s : Sync) (a : Nat) : Ext s (s.add a) [a] := by
  rintro ⟨h1, h2⟩
  unfold Sync.add
  split
  · rename_i h
    refine ⟨⟨h1, h2⟩, ?_⟩
    intro b
    simp only [List.mem_singleton]
    constructor
    · exact .inl
    · rintro (h' | rfl)
      · exact h'
      · rw [h1]; exact h
  · rename_i h
    refine ⟨⟨by rw [h1], ?_⟩, by simp⟩
    show (s.mutexes ++ [a]).Nodup
    rw [List.nodup_append]
    refine ⟨h2, by simp, ?_⟩
    intro x hx y hy
    rw [List.mem_singleton] at hy
    subst hy
    intro e
    subst e
    rw [h1] at hx
    exact h hx

theorem ext_foldl {α : Type} (f : Sync → α → Sync) (g : α → List Nat) (hf : ∀ s x, Ext s (f s x) (g x)) (xs : List α) (s : Sync) :
    Ext s (xs.foldl f s) (xs.flatMap g) := by
  induction xs generalizing s with
  | nil => exact Ext.nil s
  | cons x xs ih =>
    rw [List.foldl_cons, List.flatMap_cons]
    exact (hf s x).trans (ih _)

theorem ext_merge (s o : Sync) : Ext s (s.merge o) o.arrays := by
  have := ext_foldl Sync.add (fun a => [a]) ext_add o.arrays s
  refine this.congr ?_
  intro a
  simp

theorem ext_grab (s : Sync) (ops : List Op) : Ext s (s.grab ops) (exprTouches ops) := by
  apply ext_foldl
  intro s o
  cases o with
  | regRef a i => exact ext_add s a
  | regGen a => exact ext_add s a
  | other => exact Ext.nil s

theorem ext_param (s : Sync) (p : Param) : Ext s (s.param p) (paramTouches p) := by
  cases p with
  | regRef a i => exact ext_add s a
  | regGen a idx => exact (ext_grab s idx).trans (ext_add _ a)
  | regArray a => exact ext_add s a
  | expr ops => exact ext_grab s ops
  | other => exact Ext.nil s

theorem good_empty : Good {} := ⟨rfl, List.nodup_nil⟩

theorem action_spec (ps : List Param) : Good (actionSync ps) ∧ ∀ a, a ∈ (actionSync ps).mutexes ↔ a ∈ ps.flatMap paramTouches := by
  obtain ⟨h1, h2⟩ := ext_foldl Sync.param paramTouches ext_param ps {} good_empty
  exact ⟨h1, fun a => by rw [actionSync, h2]; simp⟩

theorem ext_call (s : Sync) (ps : List Param) : Ext s (s.merge (actionSync ps)) (ps.flatMap paramTouches) := by
  obtain ⟨h1, h2⟩ := action_spec ps
  refine (ext_merge s (actionSync ps)).congr ?_
  intro a
  rw [← h1.1]; exact h2 a

theorem deparser_spec (calls : List (List Param)) : Good (deparserSync calls) ∧
    ∀ a, a ∈ (deparserSync calls).mutexes ↔ a ∈ calls.flatMap fun ps => ps.flatMap paramTouches := by
  obtain ⟨h1, h2⟩ := ext_foldl (fun s ps => s.merge (actionSync ps)) (fun ps => ps.flatMap paramTouches) ext_call calls {}
    good_empty
  exact ⟨h1, fun a => by rw [deparserSync, h2]; simp⟩

/-- What a parse state takes mutexes for. -/
def grabbed : POp → List Nat
  | .setExpr ops => exprTouches ops
  | .call ps => ps.flatMap paramTouches
  | _ => []

theorem state_spec (ops : List POp) : Good (stateSync ops) ∧ ∀ a, a ∈ (stateSync ops).mutexes ↔ a ∈ ops.flatMap grabbed := by
  obtain ⟨h1, h2⟩ := ext_foldl (fun s o => match o with
    | .setExpr ops => s.grab ops
    | .call ps => s.merge (actionSync ps)
    | .advanceExpr _ | .verify _ _ | .other => s) grabbed (by
      intro s o
      cases o with
      | setExpr ops => exact ext_grab s ops
      | call ps => exact ext_call s ps
      | advanceExpr ops => exact Ext.nil s
      | verify c e => exact Ext.nil s
      | other => exact Ext.nil s) ops {} good_empty
  exact ⟨h1, fun a => (h2 a).trans (by simp)⟩

theorem locks_nodup (k : Kind) : k.locks.Nodup := by
  cases k with
  | action ps => exact (action_spec ps).1.2
  | state ops => exact (state_spec ops).1.2
  | deparse calls => exact (deparser_spec calls).1.2
  | request a => simp [Kind.locks]
  | condition ops => simp [Kind.locks]
  | reset a => simp [Kind.locks]

theorem locks_sub (k : Kind) : ∀ a ∈ k.locks, a ∈ touches k := by
  intro a ha
  cases k with
  | action ps => exact ((action_spec ps).2 a).1 ha
  | state ops =>
    have := ((state_spec ops).2 a).1 ha
    rw [List.mem_flatMap] at this
    obtain ⟨o, ho, h⟩ := this
    refine List.mem_flatMap.2 ⟨o, ho, ?_⟩
    cases o with
    | setExpr ops => exact h
    | call ps => exact h
    | advanceExpr ops => simp [grabbed] at h
    | verify c e => simp [grabbed] at h
    | other => simp [grabbed] at h
  | deparse calls => exact ((deparser_spec calls).2 a).1 ha
  | request b => exact ha
  | condition ops => simp [Kind.locks] at ha
  | reset b => simp [Kind.locks] at ha

theorem touches_sub {k : Kind} (hq : Quiet k) : ∀ a ∈ touches k, a ∈ k.locks := by
  intro a ha
  cases k with
  | action ps => exact ((action_spec ps).2 a).2 ha
  | state ops =>
    refine ((state_spec ops).2 a).2 ?_
    have ha' : a ∈ ops.flatMap opTouches := ha
    rw [List.mem_flatMap] at ha' ⊢
    obtain ⟨o, ho, h⟩ := ha'
    refine ⟨o, ho, ?_⟩
    have hqo := hq o ho
    cases o with
    | setExpr ops => exact h
    | call ps => exact h
    | advanceExpr ops =>
      have hqo' : exprTouches ops = [] := hqo
      simp [opTouches, hqo'] at h
    | verify c e =>
      have hqo' : exprTouches c = [] ∧ exprTouches e = [] := hqo
      simp [opTouches, hqo'.1, hqo'.2] at h
    | other => simp [opTouches] at h
  | deparse calls => exact ((deparser_spec calls).2 a).2 ha
  | request b => exact ha
  | condition ops =>
    have : exprTouches ops = [] := hq
    simp [touches, this] at ha
  | reset b => exact hq.elim

/-! ## Executions -/

/-- A task has been executed from here to there. -/
inductive Part {σ : Type} (t : Task σ) (l₀ : σ) (S₀ : Store) : σ → Store → Prop
  | refl : Part t l₀ S₀ l₀ S₀
  | snoc {l S a f} : Part t l₀ S₀ l S → t.next l = some (a, f) →
      Part t l₀ S₀ (f (S a)).2 (fun b => if b = a then (f (S a)).1 else S b)

theorem Part.alone {σ : Type} {t : Task σ} {l₀ l r : σ} {S₀ S S' : Store} (h : Part t l₀ S₀ l S) (h' : Alone t l S r S') :
    Alone t l₀ S₀ r S' := by
  induction h with
  | refl => exact h'
  | snoc h1 h2 ih => exact ih (.access h2 h')

/-- A task that accesses only the arrays in `A` leaves the others alone. -/
theorem Part.outside {σ : Type} {t : Task σ} {A : List Nat} (hA : ∀ l a f, t.next l = some (a, f) → a ∈ A) {l₀ l : σ}
    {S₀ S : Store} (h : Part t l₀ S₀ l S) : ∀ b, b ∉ A → S b = S₀ b := by
  induction h with
  | refl => intros; rfl
  | snoc h1 h2 ih =>
    intro b hb
    have hne : b ≠ _ := fun e => hb (e ▸ hA _ _ _ h2)
    simp only [if_neg hne]
    exact ih b hb

/-- And does not depend on the others. -/
theorem Part.transfer {σ : Type} {t : Task σ} {A : List Nat} (hA : ∀ l a f, t.next l = some (a, f) → a ∈ A) {l₀ l : σ}
    {S₀ S S₁ : Store} (h : Part t l₀ S₀ l S) (h1 : ∀ b ∈ A, S₁ b = S₀ b) : ∃ S', Part t l₀ S₁ l S' ∧ ∀ b ∈ A, S' b = S b := by
  induction h with
  | refl => exact ⟨S₁, .refl, h1⟩
  | @snoc l S a f h2 h3 ih =>
    obtain ⟨S', p, e⟩ := ih
    have ha := hA _ _ _ h3
    have := Part.snoc p h3
    rw [e a ha] at this
    refine ⟨_, this, ?_⟩
    intro b hb
    dsimp only
    split
    · rfl
    · exact e b hb

/-- What holds in every state: `S'` are the arrays as the finished tasks left them. -/
structure Inv {σ : Type} (T : Nat → Task σ) (S₀ S' : Store) (s : Sys σ) : Prop where
  serial : Serial T s.log S₀ S'
  own : ∀ a t, s.owner a = some t → a ∈ (T t).kind.locks ∧ ∃ l, s.phase t = .run l
  held : ∀ t l, s.phase t = .run l → ∀ a ∈ (T t).kind.locks, s.owner a = some t
  part : ∀ t l, s.phase t = .run l → ∃ S, Part (T t) (T t).init S' l S ∧ ∀ a ∈ (T t).kind.locks, S a = s.store a
  rest : ∀ a, s.owner a = none → s.store a = S' a
  fin : ∀ t l, s.phase t = .fin l ↔ (t, l) ∈ s.log

theorem inv_init {σ : Type} (T : Nat → Task σ) (S₀ : Store) : Inv T S₀ S₀ { store := S₀ } :=
  ⟨.nil, by simp, by simp, by simp, by simp, by simp⟩

theorem inv_step {σ : Type} {T : Nat → Task σ} (hT : ∀ t l a f, (T t).next l = some (a, f) → a ∈ (T t).kind.locks) {S₀ S' : Store}
    {s s' : Sys σ} {l : Label} (h : Inv T S₀ S' s) (hs : s.step T l = some s') : ∃ S'', Inv T S₀ S'' s' := by
  cases l with
  | start t =>
    simp only [Sys.step] at hs
    split at hs
    · rename_i hw
      split at hs
      · rename_i hc
        cases hs
        refine ⟨S', h.serial, ?_, ?_, ?_, ?_, ?_⟩
        · intro a u hu
          dsimp only at hu ⊢
          split at hu
          · rename_i ha
            injection hu with e
            subst e
            exact ⟨ha, _, by rw [if_pos rfl]⟩
          · obtain ⟨h1, l, h2⟩ := h.own a u hu
            refine ⟨h1, l, ?_⟩
            rw [if_neg]
            · exact h2
            · rintro rfl; rw [hw] at h2; cases h2
        · intro u l hu a ha
          dsimp only at hu ⊢
          split at hu
          · rename_i e; subst e; rw [if_pos ha]
          · have := h.held u l hu a ha
            rw [if_neg]
            · exact this
            · intro ht; rw [hc.2 a ht] at this; cases this
        · intro u l hu
          dsimp only at hu ⊢
          split at hu
          · rename_i e; subst e
            cases hu
            exact ⟨S', .refl, fun a ha => (h.rest a (hc.2 a ha)).symm⟩
          · exact h.part u l hu
        · intro a ha
          dsimp only at ha ⊢
          split at ha
          · cases ha
          · exact h.rest a ha
        · intro u l
          dsimp only
          split
          · rename_i e; subst e
            constructor
            · intro e; cases e
            · intro e
              rw [← h.fin, hw] at e; cases e
          · exact h.fin u l
      · cases hs
    · cases hs
  | access t =>
    simp only [Sys.step] at hs
    split at hs
    · rename_i l hl
      split at hs
      · rename_i a f hn
        cases hs
        have ha := hT t l a f hn
        have hown := h.held t l hl a ha
        refine ⟨S', h.serial, ?_, ?_, ?_, ?_, ?_⟩
        · intro b u hu
          obtain ⟨h1, l', h2⟩ := h.own b u hu
          refine ⟨h1, ?_⟩
          dsimp only
          split
          · exact ⟨_, rfl⟩
          · exact ⟨l', h2⟩
        · intro u l' hu b hb
          dsimp only at hu ⊢
          split at hu
          · rename_i e; subst e; exact h.held u l hl b hb
          · exact h.held u l' hu b hb
        · intro u l' hu
          dsimp only at hu ⊢
          split at hu
          · rename_i e; subst e
            cases hu
            obtain ⟨S, p, e⟩ := h.part u l hl
            have p' := Part.snoc p hn
            rw [e a ha] at p'
            refine ⟨_, p', ?_⟩
            intro b hb
            split
            · rfl
            · exact e b hb
          · rename_i hne
            obtain ⟨S, p, e⟩ := h.part u l' hu
            refine ⟨S, p, ?_⟩
            intro b hb
            rw [if_neg]
            · exact e b hb
            · rintro rfl
              rw [h.held u l' hu b hb] at hown
              injection hown with e'
              exact hne e'
        · intro b hb
          dsimp only
          rw [if_neg]
          · exact h.rest b hb
          · rintro rfl
            have hb' : s.owner b = none := hb
            rw [hown] at hb'; cases hb'
        · intro u l'
          dsimp only
          split
          · rename_i e; subst e
            constructor
            · intro e; cases e
            · intro e
              rw [← h.fin, hl] at e; cases e
          · exact h.fin u l'
      · cases hs
    · cases hs
  | finish t =>
    simp only [Sys.step] at hs
    split at hs
    · rename_i l hl
      split at hs
      · cases hs
      · rename_i hn
        cases hs
        obtain ⟨S, p, e⟩ := h.part t l hl
        have hout := p.outside (hT t)
        refine ⟨S, .snoc h.serial (p.alone (.done hn)), ?_, ?_, ?_, ?_, ?_⟩
        · intro b u hu
          dsimp only at hu ⊢
          split at hu
          · cases hu
          · rename_i hb
            obtain ⟨h1, l', h2⟩ := h.own b u hu
            refine ⟨h1, l', ?_⟩
            rw [if_neg]
            · exact h2
            · rintro rfl; exact hb h1
        · intro u l' hu b hb
          dsimp only at hu ⊢
          split at hu
          · cases hu
          · rename_i hne
            have h1 := h.held u l' hu b hb
            rw [if_neg]
            · exact h1
            · intro hb'
              rw [h.held t l hl b hb'] at h1
              injection h1 with e'
              exact hne e'.symm
        · intro u l' hu
          dsimp only at hu ⊢
          split at hu
          · cases hu
          · rename_i hne
            obtain ⟨S1, p1, e1⟩ := h.part u l' hu
            obtain ⟨S2, p2, e2⟩ := p1.transfer (hT u) (S₁ := S) (by
              intro b hb
              refine hout b ?_
              intro hb'
              have h1 := h.held u l' hu b hb
              rw [h.held t l hl b hb'] at h1
              injection h1 with e'
              exact hne e'.symm)
            exact ⟨S2, p2, fun b hb => (e2 b hb).trans (e1 b hb)⟩
        · intro b hb
          dsimp only at hb ⊢
          split at hb
          · rename_i hb'; exact (e b hb').symm
          · rename_i hb'; rw [h.rest b hb, hout b hb']
        · intro u l'
          dsimp only
          rw [List.mem_append, List.mem_singleton]
          split
          · rename_i e'; subst e'
            constructor
            · intro e'; cases e'; exact .inr rfl
            · rintro (e' | e')
              · rw [← h.fin, hl] at e'; cases e'
              · cases e'; rfl
          · rename_i hne
            rw [h.fin]
            constructor
            · exact .inl
            · rintro (e' | e')
              · exact e'
              · cases e'; exact absurd rfl hne
    · cases hs

theorem inv_run {σ : Type} {T : Nat → Task σ} (hT : ∀ t l a f, (T t).next l = some (a, f) → a ∈ (T t).kind.locks) {S₀ : Store}
    {ls : List Label} {s s' : Sys σ} {S' : Store} (h : Inv T S₀ S' s) (hs : s.run T ls = some s') : ∃ S'', Inv T S₀ S'' s' := by
  induction ls generalizing s S' with
  | nil => cases hs; exact ⟨_, h⟩
  | cons l ls ih =>
    rw [Sys.run, Option.bind_eq_some_iff] at hs
    obtain ⟨t, ht, hs⟩ := hs
    obtain ⟨S1, h1⟩ := inv_step hT h ht
    exact ih h1 hs

/-! ## Executing one after the other -/

/-- A task executed alone, with a bound on the number of accesses. -/
def runAlone {σ : Type} (t : Task σ) : Nat → σ → Store → Option (σ × Store)
  | 0, _, _ => none
  | n + 1, l, S =>
    match t.next l with
    | none => some (l, S)
    | some (a, f) => runAlone t n (f (S a)).2 (fun b => if b = a then (f (S a)).1 else S b)

theorem alone_unique {σ : Type} {t : Task σ} {n : Nat} {l r : σ} {S S' : Store} {x : σ × Store} (h : runAlone t n l S = some x)
    (h' : Alone t l S r S') : x = (r, S') := by
  induction n generalizing l S with
  | zero => cases h
  | succ n ih =>
    simp only [runAlone] at h
    cases h' with
    | done hn => rw [hn] at h; cases h; rfl
    | access hn h' => rw [hn] at h; exact ih h h'

theorem serial_two {σ : Type} {T : Nat → Task σ} {t u : Nat} {r r' : σ} {S S' : Store} (h : Serial T [(t, r), (u, r')] S S') :
    ∃ S1, Alone (T t) (T t).init S r S1 ∧ Alone (T u) (T u).init S1 r' S' := by
  generalize hl : [(t, r), (u, r')] = log at h
  cases h with
  | nil => cases hl
  | @snoc log _ S1 t' r1 _ h1 h2 =>
    have hl' : [(t, r)] ++ [(u, r')] = log ++ [(t', r1)] := hl
    obtain ⟨e1, e2⟩ := List.append_inj' hl' rfl
    cases e2
    generalize hl2 : [(t, r)] = log2 at e1
    subst e1
    cases h1 with
    | nil => cases hl2
    | @snoc log3 _ S2 t2 r2 _ h3 h4 =>
      have hl3 : [] ++ [(t, r)] = log3 ++ [(t2, r2)] := hl2
      obtain ⟨e1, e2⟩ := List.append_inj' hl3 rfl
      cases e2
      subst e1
      generalize hl4 : ([] : List (Nat × σ)) = log5 at h3
      cases h3 with
      | nil => exact ⟨_, h4, h2⟩
      | snoc _ _ => simp at hl4

end Bm.RegLocks
