import Verif.Model.PiSel
import Verif.Lemmas.ProfileRun

/-!
# Lemmas about the selector of PI
-/

namespace Bm.PiSel

open Bm.PiSel.Spec

/-- What the selector knows about one group. -/
def InfoOk (i : Option Info) (M Act : Finset Nat) : Prop :=
  match i with
  | none => M = ∅ ∧ Act = ∅
  | some i => M ≠ ∅ ∧ (∀ m, m ∈ i.members ↔ m ∈ M) ∧ i.activated.Pairwise (· < ·) ∧ (∀ m, m ∈ i.activated ↔ m ∈ Act)

/-- The selector agrees with the sets. -/
def SelOk (s : Sel) (x : Sets) : Prop := ∀ g, InfoOk (s.find? g) (x.mbrs g) (x.active g) ∧ x.active g ⊆ x.mbrs g

theorem at1_self (f : Nat → Finset Nat) (g : Nat) (x : Finset Nat) : at1 f g x g = x := by simp [at1]

theorem at1_ne (f : Nat → Finset Nat) {g y : Nat} (x : Finset Nat) (h : y ≠ g) : at1 f g x y = f y := by simp [at1, h]

theorem selOk_at {s : Sel} {x : Sets} (h : SelOk s x) {s' : Sel} {g : Nat} {M Act : Finset Nat}
    (h1 : ∀ y, y ≠ g → s'.find? y = s.find? y) (h2 : InfoOk (s'.find? g) M Act) (h3 : Act ⊆ M) :
    SelOk s' ⟨at1 x.mbrs g M, at1 x.active g Act⟩ := by
  intro y
  by_cases hy : y = g
  · subst hy
    simp only [at1_self]
    exact ⟨h2, h3⟩
  · simp only [at1_ne _ _ hy, h1 y hy]
    exact h y

theorem infoOk_addMember {o : Option Info} {M Act : Finset Nat} (h : InfoOk o M Act) (m : Nat) :
    InfoOk (some ((o.getD {}).addMember m)) (insert m M) (insert m Act) := by
  have key : (∀ y, y ∈ (o.getD {}).members ↔ y ∈ M) ∧ (o.getD {}).activated.Pairwise (· < ·) ∧
      (∀ y, y ∈ (o.getD {}).activated ↔ y ∈ Act) := by
    cases o with
    | none => obtain ⟨rfl, rfl⟩ := h; simp
    | some i => exact h.2
  obtain ⟨k1, k2, k3⟩ := key
  obtain ⟨_, a2, a3⟩ := Ras.add_spec _ m k2
  refine ⟨Finset.insert_ne_empty _ _, ?_, a2, ?_⟩
  · intro y
    simp only [Info.addMember, Finset.mem_insert]
    split
    · rename_i hc
      have hm : m ∈ (o.getD {}).members := by simpa using hc
      rw [k1]
      constructor
      · exact .inr
      · rintro (rfl | h)
        · exact (k1 _).1 hm
        · exact h
    · simp [k1]
  · intro y
    simp only [Info.addMember, a3, k3, Finset.mem_insert]

theorem selOk_add {s : Sel} {x : Sets} (h : SelOk s x) (g m : Nat) :
    SelOk (s.addMemberToGroup g m) ⟨at1 x.mbrs g (insert m (x.mbrs g)), at1 x.active g (insert m (x.active g))⟩ := by
  refine selOk_at h ?_ ?_ (Finset.insert_subset_insert _ (h g).2)
  · intro y hy
    simp [Sel.addMemberToGroup, UMap.find_assign, hy]
  · simp only [Sel.addMemberToGroup, UMap.find_assign, if_true]
    exact infoOk_addMember (h g).1 m

theorem selOk_remove {s : Sel} {x : Sets} (h : SelOk s x) (g m : Nat) :
    SelOk (s.removeMemberFromGroup g m)
      ⟨at1 x.mbrs g ((x.mbrs g).erase m), at1 x.active g ((x.active g).erase m)⟩ := by
  refine selOk_at h ?_ ?_ (Finset.erase_subset_erase _ (h g).2)
  · intro y hy
    simp only [Sel.removeMemberFromGroup]
    split <;> simp [UMap.find_assign, UMap.find_erase, hy]
  · have key : (∀ y, y ∈ ((s.find? g).getD {}).members ↔ y ∈ x.mbrs g) ∧
        ((s.find? g).getD {}).activated.Pairwise (· < ·) ∧
        (∀ y, y ∈ ((s.find? g).getD {}).activated ↔ y ∈ x.active g) := by
      have h1 := (h g).1
      cases ho : s.find? g with
      | none => rw [ho] at h1; obtain ⟨e1, e2⟩ := h1; simp [e1, e2]
      | some i => rw [ho] at h1; exact h1.2
    obtain ⟨k1, k2, k3⟩ := key
    obtain ⟨_, a2, a3⟩ := Ras.remove_spec _ m k2
    have hm : ∀ y, y ∈ (((s.find? g).getD {}).removeMember m).members ↔ y ∈ (x.mbrs g).erase m := by
      intro y
      simp only [Info.removeMember, List.mem_filter, k1, Finset.mem_erase, ne_eq, decide_eq_true_eq]
      exact and_comm
    have ha : ∀ y, y ∈ (((s.find? g).getD {}).removeMember m).activated ↔ y ∈ (x.active g).erase m := by
      intro y
      simp only [Info.removeMember, a3, k3, Finset.mem_erase]
    simp only [Sel.removeMemberFromGroup]
    split
    · rename_i hl
      rw [List.length_eq_zero_iff] at hl
      simp only [UMap.find_erase, if_true]
      have e : (x.mbrs g).erase m = ∅ := by
        refine Finset.eq_empty_of_forall_notMem fun y hy => ?_
        have := (hm y).2 hy
        rw [hl] at this
        cases this
      exact ⟨e, Finset.subset_empty.1 (e ▸ Finset.erase_subset_erase _ (h g).2)⟩
    · rename_i hl
      simp only [UMap.find_assign, if_true]
      refine ⟨?_, hm, a2, ha⟩
      intro e
      apply hl
      rw [List.length_eq_zero_iff]
      refine List.eq_nil_iff_forall_not_mem.2 fun y hy => ?_
      have := (hm y).1 hy
      rw [e] at this
      cases this

theorem at1_at1 (f : Nat → Finset Nat) (g : Nat) (a b : Finset Nat) : at1 (at1 f g a) g b = at1 f g b := by
  funext y; simp only [at1]; split <;> rfl

theorem at1_id (f : Nat → Finset Nat) (g : Nat) : at1 f g (f g) = f := by
  funext y; simp only [at1]; split
  · rename_i h; rw [h]
  · rfl

/-- Removal of members one after the other. -/
theorem selOk_removeAll (g : Nat) (l : List Nat) : ∀ {s : Sel} {x : Sets}, SelOk s x →
    SelOk (State.removeAll s g l) ⟨at1 x.mbrs g (x.mbrs g \ l.toFinset), at1 x.active g (x.active g \ l.toFinset)⟩ := by
  induction l with
  | nil => intro s x h; simpa [State.removeAll, at1_id] using h
  | cons m l ih =>
    intro s x h
    have := ih (selOk_remove h g m)
    simp only [State.removeAll]
    simp only [at1_self, at1_at1] at this
    have e : ∀ S : Finset Nat, S.erase m \ l.toFinset = S \ (m :: l).toFinset := by
      intro S; ext y; simp only [Finset.mem_sdiff, Finset.mem_erase, List.mem_toFinset, List.mem_cons]; tauto
    rw [e, e] at this
    exact this

theorem selOk_activate {s : Sel} {x : Sets} (h : SelOk s x) (g m : Nat) :
    State.outS (s.activateMember g m).1 =
      (if m ∉ x.mbrs g then .notIn else if m ∈ x.active g then .refused else .ok) ∧
    SelOk (s.activateMember g m).2
      (if State.outS (s.activateMember g m).1 = .ok then ⟨x.mbrs, at1 x.active g (insert m (x.active g))⟩ else x) := by
  have h1 := (h g).1
  unfold Sel.activateMember
  cases ho : s.find? g with
  | none =>
    rw [ho] at h1
    simp only [h1.1, State.outS]
    exact ⟨by simp, by simpa using h⟩
  | some i =>
    rw [ho] at h1
    obtain ⟨_, k1, k2, k3⟩ := h1
    obtain ⟨a1, a2, a3⟩ := Ras.add_spec _ m k2
    by_cases hm : m ∈ x.mbrs g
    · have hc : i.members.contains m = true := by simpa using (k1 m).2 hm
      simp only [Info.activateMember, hc, Bool.true_eq_false, if_false, hm, not_true_eq_false, a1]
      have hnew : SelOk (s.assign g ({ i with activated := (Ras.add i.activated m).2 } : Info))
          ⟨x.mbrs, at1 x.active g (insert m (x.active g))⟩ := by
        have := selOk_at (s' := s.assign g ({ i with activated := (Ras.add i.activated m).2 } : Info)) (g := g)
          (M := x.mbrs g) (Act := insert m (x.active g)) h
          (fun y hy => by simp [UMap.find_assign, hy])
          (by
            simp only [UMap.find_assign, if_true]
            exact ⟨Finset.ne_empty_of_mem hm, k1, a2, fun y => by rw [a3, k3, Finset.mem_insert]⟩)
          (Finset.insert_subset hm (h g).2)
        rwa [at1_id] at this
      by_cases ha : m ∈ x.active g
      · have hd : decide (m ∉ i.activated) = false := by simpa using (k3 m).2 ha
        simp only [hd, ha, State.outS, if_true, Bool.false_eq_true, if_false]
        refine ⟨trivial, ?_⟩
        rw [Finset.insert_eq_self.2 ha, at1_id] at hnew
        simpa using hnew
      · have hd : decide (m ∉ i.activated) = true := by simpa using fun hh => ha ((k3 m).1 hh)
        simp only [hd, ha, State.outS, if_true, if_false]
        exact ⟨trivial, hnew⟩
    · have hc : i.members.contains m = false := by simpa using fun hh => hm ((k1 m).1 hh)
      simp only [Info.activateMember, hc, if_true, hm, not_false_eq_true, State.outS]
      refine ⟨trivial, ?_⟩
      have := selOk_at (s' := s.assign g i) (g := g) (M := x.mbrs g) (Act := x.active g) h
          (fun y hy => by simp [UMap.find_assign, hy])
          (by
            have := (h g).1
            rw [ho] at this
            simpa only [UMap.find_assign, if_true] using this) (h g).2
      simpa [at1_id] using this

theorem selOk_deactivate {s : Sel} {x : Sets} (h : SelOk s x) (g m : Nat) :
    State.outS (s.deactivateMember g m).1 =
      (if m ∉ x.mbrs g then .notIn else if m ∉ x.active g then .refused else .ok) ∧
    SelOk (s.deactivateMember g m).2
      (if State.outS (s.deactivateMember g m).1 = .ok then ⟨x.mbrs, at1 x.active g ((x.active g).erase m)⟩ else x) := by
  have h1 := (h g).1
  unfold Sel.deactivateMember
  cases ho : s.find? g with
  | none =>
    rw [ho] at h1
    simp only [h1.1, State.outS]
    exact ⟨by simp, by simpa using h⟩
  | some i =>
    rw [ho] at h1
    obtain ⟨hne, k1, k2, k3⟩ := h1
    obtain ⟨a1, a2, a3⟩ := Ras.remove_spec _ m k2
    by_cases hm : m ∈ x.mbrs g
    · have hc : i.members.contains m = true := by simpa using (k1 m).2 hm
      simp only [Info.deactivateMember, hc, Bool.true_eq_false, if_false, hm, not_true_eq_false, a1]
      have hnew : SelOk (s.assign g ({ i with activated := (Ras.remove i.activated m).2 } : Info))
          ⟨x.mbrs, at1 x.active g ((x.active g).erase m)⟩ := by
        have := selOk_at (s' := s.assign g ({ i with activated := (Ras.remove i.activated m).2 } : Info)) (g := g)
          (M := x.mbrs g) (Act := (x.active g).erase m) h
          (fun y hy => by simp [UMap.find_assign, hy])
          (by
            simp only [UMap.find_assign, if_true]
            exact ⟨hne, k1, a2, fun y => by rw [a3, k3, Finset.mem_erase]⟩)
          ((Finset.erase_subset _ _).trans (h g).2)
        rwa [at1_id] at this
      by_cases ha : m ∈ x.active g
      · have hd : decide (m ∈ i.activated) = true := by simpa using (k3 m).2 ha
        simp only [hd, ha, State.outS, if_true, if_false, not_true_eq_false]
        exact ⟨trivial, hnew⟩
      · have hd : decide (m ∈ i.activated) = false := by simpa using fun hh => ha ((k3 m).1 hh)
        simp only [hd, ha, State.outS, if_true, Bool.false_eq_true, if_false, not_false_eq_true]
        refine ⟨trivial, ?_⟩
        rw [Finset.erase_eq_of_notMem ha, at1_id] at hnew
        simpa using hnew
    · have hc : i.members.contains m = false := by simpa using fun hh => hm ((k1 m).1 hh)
      simp only [Info.deactivateMember, hc, if_true, hm, not_false_eq_true, State.outS]
      refine ⟨trivial, ?_⟩
      have := selOk_at (s' := s.assign g i) (g := g) (M := x.mbrs g) (Act := x.active g) h
          (fun y hy => by simp [UMap.find_assign, hy])
          (by
            have := (h g).1
            rw [ho] at this
            simpa only [UMap.find_assign, if_true] using this) (h g).2
      simpa [at1_id] using this

theorem selOk_choose {s : Sel} {x : Sets} (h : SelOk s x) (g hash : Nat) :
    (x.active g = ∅ → s.getFromHash g hash = none) ∧
    (x.active g ≠ ∅ → ∃ m, s.getFromHash g hash = some m ∧ Picks (x.active g) hash m) := by
  have h1 := (h g).1
  unfold Sel.getFromHash
  cases ho : s.find? g with
  | none =>
    rw [ho] at h1
    exact ⟨fun _ => rfl, fun hne => absurd h1.2 hne⟩
  | some i =>
    rw [ho] at h1
    obtain ⟨_, _, k2, k3⟩ := h1
    have he : i.activated.toFinset = x.active g := by ext y; rw [List.mem_toFinset, k3]
    have hlen : i.activated.length = (x.active g).card := by
      rw [← he, List.toFinset_card_of_nodup (k2.imp (fun hab => by omega))]
    simp only [Option.bind_eq_bind, Option.bind_some, Info.getFromHash, hlen, Finset.card_eq_zero]
    refine ⟨fun e => by rw [if_pos e], fun e => ?_⟩
    rw [if_neg e]
    have hpos : 0 < (x.active g).card := Finset.card_pos.2 (Finset.nonempty_iff_ne_empty.2 e)
    obtain ⟨m, e1, e2, e3⟩ := Ras.nth_spec _ k2 (hash % (x.active g).card) (by rw [hlen]; exact Nat.mod_lt _ hpos)
    rw [he] at e3
    exact ⟨m, e1, (k3 m).1 e2, e3⟩

variable {A : Type}

/-- The profile agrees with the sets. -/
structure ProfOk (p : AProf A) (Sg : Finset Nat) (x : Sets) : Prop where
  hg : p.grpH.Rep Sg
  dead : ∀ g, g ∉ Sg → x.mbrs g = ∅
  grp : ∀ g, g ∈ Sg → ((p.groups[g]?).getD []).Pairwise (· < ·) ∧ ((p.groups[g]?).getD []).toFinset = x.mbrs g

/-- Everything agrees. -/
def Inv (s : State A) (x : Sets) : Prop := (∃ Sg, ProfOk s.p Sg x) ∧ SelOk s.sel x

theorem ProfOk.congr {p p' : AProf A} {Sg : Finset Nat} {x : Sets} (h : ProfOk p Sg x) (h1 : p'.grpH = p.grpH)
    (h2 : p'.groups = p.groups) : ProfOk p' Sg x :=
  ⟨h1 ▸ h.hg, h.dead, by rw [h2]; exact h.grp⟩

theorem inv_init : Inv ({} : State A) {} := by
  refine ⟨⟨∅, HandleMgr.Rep.empty, fun _ _ => rfl, by simp⟩, fun g => ⟨⟨rfl, rfl⟩, by simp⟩⟩

theorem setGroups_get (gs : List (List Nat)) (g : Nat) (l : List Nat) (hg : g < gs.length) (y : Nat) :
    ((gs.set g l)[y]?).getD [] = if y = g then l else (gs[y]?).getD [] := by
  rw [List.getElem?_set]
  by_cases h : g = y
  · subst h; simp [hg]
  · rw [if_neg h, if_neg fun e => h e.symm]

theorem addMember_keeps {p p' : AProf A} {a : Option A} {c m} (e : p.addMember a = some ((c, m), p')) :
    p'.grpH = p.grpH ∧ p'.groups = p.groups := by
  cases a with
  | none =>
    simp only [AProf.addMember, Option.some.injEq, Prod.mk.injEq] at e
    rw [← e.2]; exact ⟨rfl, rfl⟩
  | some a =>
    simp only [AProf.addMember, Option.bind_eq_bind, Option.bind_eq_some_iff, Prod.exists, Option.pure_def,
      Option.some.injEq, Prod.mk.injEq, AProf.entriesInsert] at e
    obtain ⟨_, _, _, p1, e1, _, rfl⟩ := e
    split at e1
    · simp only [Option.bind_eq_some_iff, Option.some.injEq] at e1
      obtain ⟨_, _, _, _, rfl⟩ := e1
      exact ⟨rfl, rfl⟩
    · cases e1

theorem delMember_keeps {p p' : AProf A} {m : Nat} {c} (e : p.deleteMember m = some (c, p')) :
    p'.grpH = p.grpH ∧ p'.groups = p.groups := by
  simp only [AProf.deleteMember, Option.bind_eq_bind, Option.bind_eq_some_iff, Prod.exists, Option.pure_def] at e
  obtain ⟨v, _, e⟩ := e
  split at e
  · simp only [Option.some.injEq, Prod.mk.injEq] at e; rw [← e.2]; exact ⟨rfl, rfl⟩
  · simp only [Option.bind_eq_some_iff, Prod.exists] at e
    obtain ⟨_, _, _, _, e⟩ := e
    split at e
    · simp only [Option.some.injEq, Prod.mk.injEq] at e; rw [← e.2]; exact ⟨rfl, rfl⟩
    · simp only [Option.bind_eq_some_iff, Prod.exists] at e
      obtain ⟨_, _, _, e⟩ := e
      split at e
      · simp only [Option.some.injEq, Prod.mk.injEq] at e; rw [← e.2]; exact ⟨rfl, rfl⟩
      · cases e

theorem modMember_keeps {p p' : AProf A} {m : Nat} {a : Option A} {c} (e : p.modifyMember m a = some (c, p')) :
    p'.grpH = p.grpH ∧ p'.groups = p.groups := by
  cases a with
  | none =>
    simp only [AProf.modifyMember, Option.some.injEq, Prod.mk.injEq] at e
    rw [← e.2]; exact ⟨rfl, rfl⟩
  | some a =>
    simp only [AProf.modifyMember, Option.bind_eq_bind, Option.bind_eq_some_iff, Option.pure_def] at e
    obtain ⟨v, _, e⟩ := e
    split at e
    · simp only [Option.some.injEq, Prod.mk.injEq] at e; rw [← e.2]; exact ⟨rfl, rfl⟩
    · split at e
      · simp only [Option.some.injEq, Prod.mk.injEq] at e; rw [← e.2]; exact ⟨rfl, rfl⟩
      · cases e

/-- Calls keep the agreement. -/
theorem step {s s' : State A} {x : Sets} (h : Inv s x) {op : Op A RefCounts} {o : Out} (e : s.exec op = some (o, s')) :
    Inv s' (after1 x op o) := by
  obtain ⟨⟨Sg, hp⟩, hsel⟩ := h
  cases op with
  | addMember a =>
    simp only [State.exec, Option.map_eq_some_iff, Prod.mk.injEq, Prod.exists] at e
    obtain ⟨c, m, p', e1, -, rfl⟩ := e
    have := addMember_keeps e1
    exact ⟨⟨Sg, hp.congr this.1 this.2⟩, hsel⟩
  | delMember m =>
    simp only [State.exec, Option.map_eq_some_iff, Prod.mk.injEq, Prod.exists] at e
    obtain ⟨c, p', e1, -, rfl⟩ := e
    have := delMember_keeps e1
    exact ⟨⟨Sg, hp.congr this.1 this.2⟩, hsel⟩
  | modMember m a =>
    simp only [State.exec, Option.map_eq_some_iff, Prod.mk.injEq, Prod.exists] at e
    obtain ⟨c, p', e1, -, rfl⟩ := e
    have := modMember_keeps e1
    exact ⟨⟨Sg, hp.congr this.1 this.2⟩, hsel⟩
  | newGroup =>
    obtain ⟨gh, e1, hgh⟩ := hp.hg.getHandle
    have hnot := hp.hg.free
    simp only [State.exec, AProf.createGroup, AProf.insertGroup, e1, Option.map_eq_some_iff,
        Option.bind_eq_bind, Option.bind_some, Option.bind_eq_some_iff, Prod.exists, Option.pure_def,
        Option.some.injEq, Prod.mk.injEq] at e
    obtain ⟨g, p, ⟨gs, hgs, w, _, rc, _, rfl, rfl⟩, rfl, rfl⟩ := e
    generalize s.p.grpH.firstUnset = pos at *
    split at hgs
    · rename_i hle
      simp only [Option.some.injEq] at hgs
      subst hgs
      refine ⟨⟨_, hgh, ?_, ?_⟩, hsel⟩
      · intro g hg
        exact hp.dead g fun hh => hg (Finset.mem_insert_of_mem hh)
      · intro g hg
        obtain ⟨_, iv⟩ := PRepL.insertVec s.p.groups pos [] hle
        simp only [iv]
        by_cases hgp : g = pos
        · subst hgp
          simp [after1, hp.dead g hnot]
        · simp only [if_neg hgp]
          exact hp.grp g (Finset.mem_of_mem_insert_of_ne hg hgp)
    · cases hgs
  | delGroup g =>
    simp only [State.exec, State.deleteGroup, AProf.deleteGroup, AProf.isValidGrp, Option.map_eq_some_iff,
      Option.bind_eq_bind, Option.bind_eq_some_iff, Prod.exists, Option.pure_def, Option.some.injEq,
      Prod.mk.injEq, hp.hg.validHandle] at e
    obtain ⟨c, s1, ⟨c', p', ⟨v, rfl, e⟩, rfl, rfl⟩, rfl, rfl⟩ := e
    by_cases hgS : g ∈ Sg
    · simp only [hgS, decide_true, Bool.not_true, Bool.false_eq_true, if_false, Option.bind_eq_some_iff] at e
      obtain ⟨_, _, cc, _, e⟩ := e
      split at e
      · simp only [Option.some.injEq, Prod.mk.injEq] at e
        obtain ⟨rfl, rfl⟩ := e
        exact ⟨⟨Sg, hp⟩, hsel⟩
      · obtain ⟨gh, e2, hgh⟩ := hp.hg.releaseHandle g
        simp only [Option.bind_eq_some_iff, Prod.exists, e2, Option.some.injEq, Prod.mk.injEq] at e
        obtain ⟨info, hinfo, rc, _, ok, gh', ⟨rfl, rfl⟩, e⟩ := e
        simp only [hgS, decide_true, if_true, Option.some.injEq, Prod.mk.injEq] at e
        obtain ⟨rfl, rfl⟩ := e
        have hgrp := hp.grp g hgS
        simp only [hinfo, Option.getD_some, if_true] at hgrp ⊢
        have hra := selOk_removeAll g info hsel
        have e3 : x.mbrs g \ info.toFinset = ∅ := by rw [hgrp.2, Finset.sdiff_self]
        have e4 : x.active g \ info.toFinset = ∅ := by
          rw [hgrp.2]; exact Finset.sdiff_eq_empty_iff_subset.2 (hsel g).2
        rw [e3, e4] at hra
        refine ⟨⟨_, hgh, ?_, ?_⟩, hra⟩
        · intro y hy
          simp only [State.outP, after1]
          by_cases hyg : y = g
          · subst hyg; exact at1_self _ _ _
          · rw [at1_ne _ _ hyg]
            exact hp.dead y fun hh => hy (Finset.mem_erase.2 ⟨hyg, hh⟩)
        · intro y hy
          simp only [State.outP, after1, at1_ne _ _ (Finset.ne_of_mem_erase hy)]
          exact hp.grp y (Finset.mem_of_mem_erase hy)
    · simp only [hgS, decide_false, Bool.not_false, if_true, Option.some.injEq, Prod.mk.injEq] at e
      obtain ⟨rfl, rfl⟩ := e
      exact ⟨⟨Sg, hp⟩, hsel⟩
  | join m g =>
    simp only [State.exec, State.addMemberToGroup, AProf.addMemberToGroup, AProf.isValidGrp, Option.map_eq_some_iff,
      Option.bind_eq_bind, Option.bind_eq_some_iff, Prod.exists, Option.pure_def, Option.some.injEq,
      Prod.mk.injEq, hp.hg.validHandle] at e
    obtain ⟨c, s1, ⟨c', p', ⟨v, _, e⟩, rfl, rfl⟩, rfl, rfl⟩ := e
    split at e
    · simp only [Option.some.injEq, Prod.mk.injEq] at e
      obtain ⟨rfl, rfl⟩ := e
      exact ⟨⟨Sg, hp⟩, hsel⟩
    · by_cases hgS : g ∈ Sg
      · simp only [hgS, decide_true, Bool.not_true, Bool.false_eq_true, if_false, Option.bind_eq_some_iff,
          Option.some.injEq, exists_eq_left'] at e
        obtain ⟨info, hinfo, e⟩ := e
        have hlt : g < s.p.groups.length := by
          by_contra hc
          rw [List.getElem?_eq_none (by omega)] at hinfo; cases hinfo
        have hgrp := hp.grp g hgS
        simp only [hinfo, Option.getD_some] at hgrp
        obtain ⟨a1, a2, a3⟩ := Ras.add_spec info m hgrp.1
        have a4 : (Ras.add info m).2.toFinset = insert m (x.mbrs g) := by
          ext y; rw [List.mem_toFinset, a3, Finset.mem_insert, ← hgrp.2, List.mem_toFinset]
        split at e
        · simp only [Option.bind_eq_some_iff, Option.some.injEq, Prod.mk.injEq] at e
          obtain ⟨w, _, rc, _, rfl, rfl⟩ := e
          simp only [if_true, State.outP, after1]
          refine ⟨⟨Sg, hp.hg, ?_, ?_⟩, selOk_add hsel g m⟩
          · intro y hy
            simp only [at1_ne _ _ (fun e => hy (e ▸ hgS) : y ≠ g)]
            exact hp.dead y hy
          · intro y hy
            simp only [setGroups_get _ _ _ hlt]
            by_cases hyg : y = g
            · subst hyg
              simp only [if_true, at1_self]
              exact ⟨a2, a4⟩
            · simp only [if_neg hyg, at1_ne _ _ hyg]
              exact hp.grp y hy
        · rename_i hf
          simp only [Option.some.injEq, Prod.mk.injEq] at e
          obtain ⟨rfl, rfl⟩ := e
          simp only [State.outP, after1]
          refine ⟨⟨Sg, hp.hg, hp.dead, ?_⟩, by simpa using hsel⟩
          intro y hy
          simp only [setGroups_get _ _ _ hlt]
          by_cases hyg : y = g
          · subst hyg
            simp only [if_true]
            refine ⟨a2, ?_⟩
            rw [a4, Finset.insert_eq_self]
            rw [a1] at hf
            rw [← hgrp.2, List.mem_toFinset]
            simpa using hf
          · simp only [if_neg hyg]
            exact hp.grp y hy
      · simp only [hgS, decide_false, Bool.not_false, if_true, Option.bind_eq_some_iff, Option.some.injEq,
          exists_eq_left', Prod.mk.injEq] at e
        obtain ⟨rfl, rfl⟩ := e
        exact ⟨⟨Sg, hp⟩, hsel⟩
  | leave m g =>
    simp only [State.exec, State.removeMemberFromGroup, AProf.removeMemberFromGroup, AProf.isValidGrp,
      Option.map_eq_some_iff, Option.bind_eq_bind, Option.bind_eq_some_iff, Prod.exists, Option.pure_def,
      Option.some.injEq, Prod.mk.injEq, hp.hg.validHandle] at e
    obtain ⟨c, s1, ⟨c', p', ⟨v, _, e⟩, rfl, rfl⟩, rfl, rfl⟩ := e
    split at e
    · simp only [Option.some.injEq, Prod.mk.injEq] at e
      obtain ⟨rfl, rfl⟩ := e
      exact ⟨⟨Sg, hp⟩, hsel⟩
    · by_cases hgS : g ∈ Sg
      · simp only [hgS, decide_true, Bool.not_true, Bool.false_eq_true, if_false, Option.bind_eq_some_iff,
          Option.some.injEq, exists_eq_left'] at e
        obtain ⟨info, hinfo, e⟩ := e
        have hlt : g < s.p.groups.length := by
          by_contra hc
          rw [List.getElem?_eq_none (by omega)] at hinfo; cases hinfo
        have hgrp := hp.grp g hgS
        simp only [hinfo, Option.getD_some] at hgrp
        obtain ⟨a1, a2, a3⟩ := Ras.remove_spec info m hgrp.1
        have a4 : (Ras.remove info m).2.toFinset = (x.mbrs g).erase m := by
          ext y; rw [List.mem_toFinset, a3, Finset.mem_erase, ← hgrp.2, List.mem_toFinset]
        split at e
        · simp only [Option.bind_eq_some_iff, Option.some.injEq, Prod.mk.injEq] at e
          obtain ⟨w, _, rc, _, rfl, rfl⟩ := e
          simp only [if_true, State.outP, after1]
          refine ⟨⟨Sg, hp.hg, ?_, ?_⟩, selOk_remove hsel g m⟩
          · intro y hy
            simp only [at1_ne _ _ (fun e => hy (e ▸ hgS) : y ≠ g)]
            exact hp.dead y hy
          · intro y hy
            simp only [setGroups_get _ _ _ hlt]
            by_cases hyg : y = g
            · subst hyg
              simp only [if_true, at1_self]
              exact ⟨a2, a4⟩
            · simp only [if_neg hyg, at1_ne _ _ hyg]
              exact hp.grp y hy
        · rename_i hf
          simp only [Option.some.injEq, Prod.mk.injEq] at e
          obtain ⟨rfl, rfl⟩ := e
          simp only [State.outP, after1]
          refine ⟨⟨Sg, hp.hg, hp.dead, ?_⟩, by simpa using hsel⟩
          intro y hy
          simp only [setGroups_get _ _ _ hlt]
          by_cases hyg : y = g
          · subst hyg
            simp only [if_true]
            refine ⟨a2, ?_⟩
            rw [a4, Finset.erase_eq_of_notMem]
            rw [a1] at hf
            rw [← hgrp.2, List.mem_toFinset]
            simpa using hf
          · simp only [if_neg hyg]
            exact hp.grp y hy
      · simp only [hgS, decide_false, Bool.not_false, if_true, Option.bind_eq_some_iff, Option.some.injEq,
          exists_eq_left', Prod.mk.injEq] at e
        obtain ⟨rfl, rfl⟩ := e
        exact ⟨⟨Sg, hp⟩, hsel⟩
  | activate g m =>
    simp only [State.exec, Option.some.injEq, Prod.mk.injEq] at e
    obtain ⟨rfl, rfl⟩ := e
    have hs := (selOk_activate hsel g m).2
    cases ho : State.outS (s.sel.activateMember g m).1 <;> simp only [ho, if_true, reduceCtorEq, if_false] at hs
    · exact ⟨⟨Sg, hp.hg, hp.dead, hp.grp⟩, hs⟩
    all_goals exact ⟨⟨Sg, hp⟩, hs⟩
  | deactivate g m =>
    simp only [State.exec, Option.some.injEq, Prod.mk.injEq] at e
    obtain ⟨rfl, rfl⟩ := e
    have hs := (selOk_deactivate hsel g m).2
    cases ho : State.outS (s.sel.deactivateMember g m).1 <;> simp only [ho, if_true, reduceCtorEq, if_false] at hs
    · exact ⟨⟨Sg, hp.hg, hp.dead, hp.grp⟩, hs⟩
    all_goals exact ⟨⟨Sg, hp⟩, hs⟩
  | reset =>
    simp only [State.exec, Option.some.injEq, Prod.mk.injEq] at e
    obtain ⟨rfl, rfl⟩ := e
    refine ⟨⟨Sg, hp.hg, fun _ _ => rfl, ?_⟩, fun g => ⟨⟨rfl, rfl⟩, by simp [after1]⟩⟩
    intro g _
    simp [State.resetState, AProf.resetState, after1]
  | tables rc =>
    simp only [State.exec, Option.some.injEq, Prod.mk.injEq] at e
    obtain ⟨rfl, rfl⟩ := e
    exact ⟨⟨Sg, hp.congr rfl rfl⟩, hsel⟩

theorem run_inv (ops : List (Op A RefCounts)) : ∀ {s s' : State A} {x : Sets} {t}, Inv s x →
    s.run ops = some (t, s') → Inv s' (afterAll x t) := by
  induction ops with
  | nil =>
    intro s s' x t h e
    simp only [State.run, Option.some.injEq, Prod.mk.injEq] at e
    obtain ⟨rfl, rfl⟩ := e
    exact h
  | cons op ops ih =>
    intro s s' x t h e
    simp only [State.run, Option.bind_eq_bind, Option.bind_eq_some_iff, Prod.exists, Option.pure_def,
      Option.some.injEq, Prod.mk.injEq] at e
    obtain ⟨o, s1, e1, t', s2, e2, rfl, rfl⟩ := e
    show Inv s2 (afterAll (after1 x op o) t')
    exact ih (step h e1) e2

end Bm.PiSel
