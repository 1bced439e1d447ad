import Verif.Lemmas.PiSel

/-!
# C89: selection of group members when PI sets the selector
-/

namespace Bm.PiSel

open Bm.PiSel.Spec

variable {A : Type}

/-- **C89**, groups.  After every history the profile's groups have the members that joined and did not leave. -/
theorem C89_members (ops : List (Op A RefCounts)) {t s} (hr : ({} : State A).run ops = some (t, s)) (g : Nat)
    (l : List Nat) (hl : s.p.getGroup g = some (some l)) :
    l.Pairwise (· < ·) ∧ ∀ m, m ∈ l ↔ m ∈ (afterAll {} t).mbrs g := by
  obtain ⟨⟨Sg, hp⟩, _⟩ := run_inv ops inv_init hr
  simp only [AProf.getGroup, AProf.isValidGrp, hp.hg.validHandle, Option.bind_eq_bind, Option.bind_some,
    Option.pure_def] at hl
  by_cases hg : g ∈ Sg
  · simp only [hg, decide_true, Bool.not_true, Bool.false_eq_true, if_false, Option.bind_eq_some_iff,
      Option.some.injEq] at hl
    obtain ⟨l', h1, rfl⟩ := hl
    have := hp.grp g hg
    simp only [h1, Option.getD_some] at this
    exact ⟨this.1, fun m => by rw [← this.2, List.mem_toFinset]⟩
  · simp [hg] at hl

/-- **C89**, activation.  After every history, a member can be activated if and only if it is in the group and not
active, and deactivated if and only if it is in the group and active; otherwise the call says why. -/
theorem C89_activation (ops : List (Op A RefCounts)) {t s} (hr : ({} : State A).run ops = some (t, s)) (g m : Nat) :
    ((s.exec (.activate g m)).map Prod.fst = some
      (if m ∉ (afterAll {} t).mbrs g then .notIn else if m ∈ (afterAll {} t).active g then .refused else .ok)) ∧
    ((s.exec (.deactivate g m)).map Prod.fst = some
      (if m ∉ (afterAll {} t).mbrs g then .notIn else if m ∉ (afterAll {} t).active g then .refused else .ok)) := by
  obtain ⟨_, hsel⟩ := run_inv ops inv_init hr
  refine ⟨?_, ?_⟩
  · simp only [State.exec, Option.map_some, (selOk_activate hsel g m).1]
  · simp only [State.exec, Option.map_some, (selOk_deactivate hsel g m).1]

theorem picks_unique {S : Finset Nat} {h m m' : Nat} (a : Picks S h m) (b : Picks S h m') : m = m' := by
  have key : ∀ {x y : Nat}, Picks S h x → Picks S h y → ¬ x < y := by
    intro x y hx hy hlt
    have : (S.filter (· < x)).card < (S.filter (· < y)).card := by
      refine Finset.card_lt_card ⟨?_, ?_⟩
      · intro z hz
        simp only [Finset.mem_filter] at hz ⊢
        exact ⟨hz.1, by omega⟩
      · intro hsub
        have := hsub (Finset.mem_filter.2 ⟨hx.1, hlt⟩)
        simp at this
    rw [hx.2, hy.2] at this
    omega
  have := key a b
  have := key b a
  omega

/-- **C89** (partial), selection.  The full claim is: for every group with members, every hash value selects an active
member.  After every history, for every group with an active member, the member selected is the active one with
`hash mod n` active ones below it (`n` the number of active members); so each active member is selected by exactly one
remainder.  Without active members selection is undefined (a division by zero), see `C89_refuted`. -/
theorem C89_select_partial (ops : List (Op A RefCounts)) {t s} (hr : ({} : State A).run ops = some (t, s)) (g : Nat) :
    let act := (afterAll {} t).active g
    act ⊆ (afterAll {} t).mbrs g ∧
    (act = ∅ ↔ ∀ hash, s.chooseFromGroup g hash = none) ∧
    (act ≠ ∅ → ∀ hash, ∃ m, s.chooseFromGroup g hash = some m ∧ Picks act hash m) ∧
    (∀ m ∈ act, ∃ k, k < act.card ∧ ∀ hash, s.chooseFromGroup g hash = some m ↔ hash % act.card = k) := by
  obtain ⟨_, hsel⟩ := run_inv ops inv_init hr
  intro act
  have hc := fun hash => selOk_choose hsel g hash
  refine ⟨(hsel g).2, ?_, fun hne hash => (hc hash).2 hne, ?_⟩
  · constructor
    · exact fun e hash => (hc hash).1 e
    · intro hn
      by_contra hne
      obtain ⟨m, hm, _⟩ := (hc 0).2 hne
      rw [show s.sel.getFromHash g 0 = none from hn 0] at hm
      cases hm
  · intro m hm
    have hne : act ≠ ∅ := Finset.ne_empty_of_mem hm
    have hlt : (act.filter (· < m)).card < act.card := by
      refine Finset.card_lt_card ⟨Finset.filter_subset _ _, fun hsub => ?_⟩
      have := hsub hm
      simp at this
    refine ⟨(act.filter (· < m)).card, hlt, fun hash => ?_⟩
    obtain ⟨m', e, hp⟩ := (hc hash).2 hne
    constructor
    · intro e'
      rw [State.chooseFromGroup, e, Option.some.injEq] at e'
      subst e'
      exact hp.2.symm
    · intro e'
      have : Picks act hash m := ⟨hm, e'.symm⟩
      rw [State.chooseFromGroup, e, picks_unique hp this]

/-- **C89** (partial), tables.  A lookup that ends with a group of the profile: the empty action for a group without
members; otherwise, if there is an active member, the action of the member selected. -/
theorem C89_lookup_partial (ops : List (Op A RefCounts)) {t s} (hr : ({} : State A).run ops = some (t, s))
    (hsl : s.p.withSelection = true) (g : Nat) (hg : g < 2 ^ 24) (l : List Nat)
    (hl : s.p.getGroup g = some (some l)) (hash : Nat) :
    let x := afterAll {} t
    (x.mbrs g = ∅ → s.chosen (2 ^ 24 + g) hash = some .empty) ∧
    (x.active g ≠ ∅ → ∃ m, Picks (x.active g) hash m ∧
      ∀ a, s.p.getMember m = some (some a) → s.chosen (2 ^ 24 + g) hash = some (.act a)) := by
  obtain ⟨⟨Sg, hp⟩, hsel⟩ := run_inv ops inv_init hr
  obtain ⟨_, hm⟩ := C89_members ops hr g l hl
  intro x
  have hgS : g ∈ Sg ∧ s.p.groups[g]? = some l := by
    simp only [AProf.getGroup, AProf.isValidGrp, hp.hg.validHandle, Option.bind_eq_bind, Option.bind_some,
      Option.pure_def] at hl
    by_cases hg : g ∈ Sg
    · simp only [hg, decide_true, Bool.not_true, Bool.false_eq_true, if_false, Option.bind_eq_some_iff,
        Option.some.injEq] at hl
      obtain ⟨l', h1, rfl⟩ := hl
      exact ⟨hg, h1⟩
    · simp [hg] at hl
  have hid : refId (.grp g) < 2 ^ 24 := hg
  have e1 : IIdx.isGrp (2 ^ 24 + g) = true := by
    have := IIdx.isGrp_enc (.grp g) hid
    simpa [encRef] using this
  have e2 : IIdx.isMbr (2 ^ 24 + g) = false := by
    have := IIdx.isMbr_enc (.grp g) hid
    simpa [encRef] using this
  have e3 : IIdx.getGrp (2 ^ 24 + g) = some g := by
    have := IIdx.get_enc (.grp g) hid
    simp only [encRef, refId] at this
    simp only [IIdx.getGrp, e1, if_true, this]
  have e4 : s.p.groupIsEmpty g = some (l.length == 0) := by simp [AProf.groupIsEmpty, hgS.2]
  refine ⟨fun hM => ?_, fun hA => ?_⟩
  · have : l = [] := List.eq_nil_iff_forall_not_mem.2 fun m hmm => by
      have := (hm m).1 hmm
      rw [show (afterAll {} t).mbrs g = ∅ from hM] at this
      cases this
    simp only [State.chosen, e1, if_true, e3, e4, this, Option.bind_eq_bind, Option.bind_some, List.length_nil,
      BEq.rfl, Option.pure_def]
  · obtain ⟨m, c1, c2⟩ := (selOk_choose hsel g hash).2 hA
    refine ⟨m, c2, fun a ha => ?_⟩
    have hne : (l.length == 0) = false := by
      have : m ∈ l := (hm m).2 ((hsel g).2 c2.1)
      cases l with
      | nil => cases this
      | cons => rfl
    simp only [AProf.getMember, Option.bind_eq_bind, Option.bind_eq_some_iff, Option.pure_def] at ha
    obtain ⟨v, hv, ha⟩ := ha
    cases v with
    | false => simp at ha
    | true =>
      simp only [Bool.not_true, Bool.false_eq_true, if_false, Option.bind_eq_some_iff, Option.some.injEq] at ha
      obtain ⟨a', ha, rfl⟩ := ha
      simp only [State.chosen, e1, if_true, e3, e4, hne, Option.bind_eq_bind, Option.bind_some, Bool.false_eq_true,
        if_false, State.lookup, e2, hsl, Bool.or_true, AProf.isValidGrp, hp.hg.validHandle, hgS.1, decide_true,
        State.chooseFromGroup, c1, hv, ha, Option.pure_def]

namespace Ex

/-- Members 0, 1 and 2 in group 0; member 1 is deactivated. -/
def hist : List (Op Nat RefCounts) :=
  [.addMember (some 10), .addMember (some 11), .addMember (some 12), .newGroup, .join 0 0, .join 1 0, .join 2 0,
   .deactivate 0 1, .deactivate 0 1, .activate 0 7]

/-- Only members 0 and 2 are selected. -/
theorem C89_case : (({} : State Nat).run hist).map (fun x => (x.1.map Prod.snd,
      [0, 1, 2, 3].map fun h => x.2.chosen (2 ^ 24) h)) =
    some ([.id 0, .id 1, .id 2, .id 0, .ok, .ok, .ok, .ok, .refused, .notIn],
      [some (.act 10), some (.act 12), some (.act 10), some (.act 12)]) := by decide +kernel

/-- The hypotheses of the theorems hold for this history. -/
theorem C89_case_hyps : ∃ t s, ({} : State Nat).run hist = some (t, s) ∧ s.p.withSelection = true ∧
    s.p.getGroup 0 = some (some [0, 1, 2]) ∧ (afterAll {} t).active 0 = {0, 2} := by
  refine ⟨_, _, rfl, rfl, rfl, ?_⟩
  decide +kernel

/-- The full claim fails: a group whose only member is deactivated is not empty, and a lookup divides by zero. -/
theorem C89_refuted :
    (({} : State Nat).run [.addMember (some 10), .newGroup, .join 0 0, .deactivate 0 0]).map
      (fun x => (x.1.map Prod.snd, x.2.p.groupIsEmpty 0, x.2.chosen (2 ^ 24) 5)) =
    some ([.id 0, .id 0, .ok, .ok], some false, none) := by decide +kernel

end Ex

end Bm.PiSel
