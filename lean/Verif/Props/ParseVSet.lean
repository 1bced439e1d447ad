import Verif.Lemmas.ParseVSet

/-!
# C39: parser value sets match exactly the configured values

Full statement: a select case on a value set matches a key iff, under the case's mask, the key equals
one of the values currently in the set, after any history of requests.

It holds for cases without a mask, for any number of fields (`C39_no_mask`), and for masked cases when
no value is removed while another value that is equal under the mask is in the set, provided that the
key is a single field or made of whole bytes (`C39_partial`).  It fails otherwise, see `C39_refuted`,
`C39_mask_refuted` and `C39_mask_outside`.
-/

namespace Bm.VSet

open Bm.Spec

theorem run_exists {cbits : Nat} {cs : List (List Nat × Option Bytes)}
    (hcs : ∀ p ∈ cs, CaseOk cbits p.1 p.2) {ops : List Op} (ho : ∀ v ∈ opVals ops, Laid [cbits] v) :
    ∃ s, (VSet.mk' cbits cs).run ops = some s ∧
      (s.base.widths = none ∧ s.base.mask = none ∧ s.base.cbits = cbits ∧ s.base.set.Nodup ∧
        ∀ x, x ∈ s.base.set ↔ x ∈ current [] ops) ∧
      List.Forall₂ (fun p t => t.widths = some p.1 ∧ t.mask = p.2 ∧
        (Clean cbits (maskBits cbits p.2) [] ops → ∀ x, x ∈ t.set ↔
          ∃ v ∈ current [] ops, t.stored v = some x)) cs s.shadows := by
  obtain ⟨b, hb, hb'⟩ := base_run ops ⟨cbits, none, none, []⟩ [] rfl rfl rfl
    (fun v hv => laid_single_length (ho v hv)) (by simp) (by simp)
  have : ∃ l, List.Forall₂ (fun s t => s.run ops = some t)
      (cs.map fun p => (⟨cbits, some p.1, p.2, []⟩ : Shadow)) l ∧
      List.Forall₂ (fun p t => t.widths = some p.1 ∧ t.mask = p.2 ∧
        (Clean cbits (maskBits cbits p.2) [] ops → ∀ x, x ∈ t.set ↔
          ∃ v ∈ current [] ops, t.stored v = some x)) cs l := by
    clear hb hb' b
    induction cs with
    | nil => exact ⟨[], .nil, .nil⟩
    | cons p cs ih =>
      obtain ⟨l, h1, h2⟩ := ih (fun q hq => hcs q (by simp [hq]))
      obtain ⟨t, h3, h4, h5, h6⟩ := run_spec (hcs p (by simp)) ops ⟨cbits, some p.1, p.2, []⟩ [] rfl rfl
        ho (by simp) (by simp)
      exact ⟨t :: l, .cons h3 h1, .cons ⟨h4, h5, h6 (by simp)⟩ h2⟩
  obtain ⟨l, hl, hl'⟩ := this
  exact ⟨⟨b, l⟩, run_split ops hb hl, hb', hl'⟩

theorem current_laid {cbits : Nat} : ∀ (ops : List Op) (start : List Bytes),
    (∀ v ∈ opVals ops, Laid [cbits] v) → (∀ v ∈ start, Laid [cbits] v) →
    ∀ v ∈ current start ops, Laid [cbits] v
  | [], _, _, h => h
  | .add v :: ops, start, ho, h => current_laid ops (v :: start)
      (fun u hu => ho u (by simp [opVals, hu])) (by simpa [ho v (by simp [opVals])] using h)
  | .remove v :: ops, start, ho, h => current_laid ops _
      (fun u hu => ho u (by simp [opVals, hu])) (fun u hu => h u (List.mem_filter.1 hu).1)
  | .clear :: ops, start, ho, h => current_laid ops [] ho (by simp)

/-- The values reported for a value set are the values added and not removed. -/
theorem C39_get {cbits : Nat} {cs : List (List Nat × Option Bytes)}
    (hcs : ∀ p ∈ cs, CaseOk cbits p.1 p.2) {ops : List Op} (ho : ∀ v ∈ opVals ops, Laid [cbits] v) :
    ∃ s, (VSet.mk' cbits cs).run ops = some s ∧ s.get.Nodup ∧ (∀ v, v ∈ s.get ↔ v ∈ current [] ops) ∧
      s.size = s.get.length ∧
      ∀ v, v.length = (cbits + 7) / 8 → s.contains v = some (decide (v ∈ current [] ops)) := by
  obtain ⟨s, h1, ⟨h2, h3, h4, h5, h6⟩, _⟩ := run_exists hcs ho
  refine ⟨s, h1, h5, h6, rfl, fun v hv => ?_⟩
  simp [VSet.contains, Shadow.contains, h3, transform, Shadow.width, h2, h4, hv, h6]

/-- A value set used by several select cases, after any history: every case without removals of
values it cannot distinguish matches exactly the keys equal, under its mask, to a value in the set. -/
theorem C39_partial {cbits : Nat} {cs : List (List Nat × Option Bytes)}
    (hcs : ∀ p ∈ cs, CaseOk cbits p.1 p.2) {ops : List Op} (ho : ∀ v ∈ opVals ops, Laid [cbits] v) :
    ∃ s, (VSet.mk' cbits cs).run ops = some s ∧
      ∀ (i : Nat) (ws : List Nat) (m : Option Bytes), cs[i]? = some (ws, m) →
        ∃ t, s.shadows[i]? = some t ∧
          (Clean cbits (maskBits cbits m) [] ops → ∀ key, Laid ws key →
            ∃ b, t.contains key = some b ∧ (b = true ↔ ∃ v ∈ current [] ops,
              Under (maskBits cbits m) (keyBits ws key) (keyBits [cbits] v))) := by
  obtain ⟨s, h1, _, h2⟩ := run_exists hcs ho
  refine ⟨s, h1, fun i ws m hi => ?_⟩
  obtain ⟨t, ht, h3, h4, h5⟩ : ∃ t, s.shadows[i]? = some t ∧ t.widths = some ws ∧ t.mask = m ∧
      (Clean cbits (maskBits cbits m) [] ops → ∀ x, x ∈ t.set ↔
          ∃ v ∈ current [] ops, t.stored v = some x) := by
    clear h1
    generalize s.shadows = l at h2
    induction h2 generalizing i with
    | nil => simp at hi
    | cons h _ ih =>
      cases i with
      | zero =>
        simp only [List.getElem?_cons_zero, Option.some.injEq] at hi
        subst hi
        exact ⟨_, rfl, h⟩
      | succ i =>
        simpa using ih (fun p hp => hcs p (by simp [hp])) i (by simpa using hi)
  have c : CaseOk cbits ws m := hcs (ws, m) (List.mem_of_getElem? hi)
  refine ⟨t, ht, fun hC key hk => ?_⟩
  obtain ⟨x, hx, hxl, _⟩ := transform_spec c hk
  have hw : key.length = t.width := by rw [laid_length ws key hk]; simp [Shadow.width, h3]
  refine ⟨decide (x ∈ t.set), by simp [Shadow.contains, h4, hx, hw], ?_⟩
  rw [decide_eq_true_iff, h5 hC]
  have hcur := current_laid ops [] ho (by simp)
  constructor
  · rintro ⟨v, hv, hvx⟩
    obtain ⟨y, hy, hy'⟩ := stored_spec c h3 h4 (hcur v hv)
    rw [hvx] at hy
    cases hy
    exact ⟨v, hv, (hy' key hk).1 hx⟩
  · rintro ⟨v, hv, hu⟩
    obtain ⟨y, hy, hy'⟩ := stored_spec c h3 h4 (hcur v hv)
    have := (hy' key hk).2 hu
    rw [hx] at this
    cases this
    exact ⟨v, hv, hy⟩

theorem clean_none {cbits : Nat} : ∀ (ops : List Op) (start : List Bytes),
    (∀ v ∈ opVals ops, Laid [cbits] v) → (∀ v ∈ start, Laid [cbits] v) →
    Clean cbits none start ops
  | [], _, _, _ => trivial
  | .add v :: ops, start, ho, h => clean_none ops (v :: start)
      (fun u hu => ho u (by simp [opVals, hu])) (by simpa [ho v (by simp [opVals])] using h)
  | .remove v :: ops, start, ho, h =>
    ⟨fun u hu e => laid_ext _ _ _ (h u hu) (ho v (by simp [opVals])) e,
      clean_none ops _ (fun u hu => ho u (by simp [opVals, hu])) (fun u hu => h u (List.mem_filter.1 hu).1)⟩
  | .clear :: ops, start, ho, h => clean_none ops [] ho (by simp)

/-- Without a mask the property holds for every history and every layout of the key. -/
theorem C39_no_mask {cbits : Nat} {ws : List Nat} (hne : ws ≠ []) (hpos : ∀ w ∈ ws, 0 < w)
    (hsum : ws.sum = cbits) {ops : List Op} (ho : ∀ v ∈ opVals ops, Laid [cbits] v) :
    ∃ s t, (VSet.mk' cbits [(ws, none)]).run ops = some s ∧ s.shadows = [t] ∧
      ∀ key, Laid ws key → ∃ b, t.contains key = some b ∧
        (b = true ↔ ∃ v ∈ current [] ops, keyBits ws key = keyBits [cbits] v) := by
  have hcs : ∀ p ∈ [(ws, (none : Option Bytes))], CaseOk cbits p.1 p.2 := by
    simp only [List.mem_singleton, forall_eq]
    exact ⟨hne, hpos, hsum, by simp⟩
  obtain ⟨s, h1, h2⟩ := C39_partial hcs ho
  obtain ⟨s', h1', _, h3⟩ := run_exists hcs ho
  rw [h1] at h1'
  cases h1'
  obtain ⟨t, ht, h4⟩ := h2 0 ws none rfl
  have hl := h3.length_eq
  obtain ⟨t', ht'⟩ := List.length_eq_one_iff.1 hl.symm
  rw [ht'] at ht
  cases ht
  exact ⟨s, t, h1, ht', h4 (clean_none ops [] ho (by simp))⟩

/-- The cases with a constant: a key matches iff it equals the constant, under the mask if there is
one. -/
theorem C39_constant (key input : Bytes) :
    (caseMatch key input = true ↔ input = key) ∧
    ∀ mask, key.length = mask.length → input.length = key.length →
      ∃ k b, maskKey key mask = some k ∧ caseMaskMatch k mask input = some b ∧
        (b = true ↔ Under (some (bytesBits mask)) (bytesBits input) (bytesBits key)) := by
  refine ⟨by simp [caseMatch, eq_comm], fun mask h1 h2 => ?_⟩
  refine ⟨_, _, by simp [maskKey, h1], caseMaskMatch_spec key mask input h1 h2, ?_⟩
  rw [decide_eq_true_iff, and_eq_iff (by omega) h2]
  constructor
  · exact fun h i hi => (h i hi).symm
  · exact fun h i hi => (h i hi).symm

/-! ## Failures -/

/-- With the mask `0xf0`, removing `0x12` also stops `0x13` from matching, although `0x13` is still in
the set. -/
theorem C39_refuted : ∃ s t, (VSet.mk' 8 [([8], some [0xf0])]).run
      [.add [0x12], .add [0x13], .remove [0x12]] = some s ∧ s.shadows = [t] ∧
    s.get = [[0x13]] ∧ t.contains [0x13] = some false :=
  ⟨_, _, rfl, rfl, by decide, by decide⟩

/-- Masks are not padded like the values.  The key has fields of 8 and 4 bits; the mask `0xff0`, which
like the value has 12 bits, selects the first field.  It is applied to the padded key as it is, so that
only the last four bits of the first field are compared. -/
theorem C39_mask_refuted : ∃ s t, (VSet.mk' 12 [([8, 4], some [0x0f, 0xf0])]).run
      [.add [0x01, 0xab]] = some s ∧ s.shadows = [t] ∧
    -- the value is `0x1a`, `0xb`; a key whose first field is `0xfa` is accepted
    t.contains [0xfa, 0x0b] = some true ∧
    ¬ Under (maskBits 12 (some [0x0f, 0xf0])) (keyBits [8, 4] [0xfa, 0x0b]) (keyBits [12] [0x01, 0xab]) := by
  refine ⟨_, _, rfl, rfl, by decide, ?_⟩
  intro h
  have := h 0 (by decide)
  revert this
  decide

/-- With two fields of 4 bits the mask, one byte, is read outside its bounds. -/
theorem C39_mask_outside : (VSet.mk' 8 [([4, 4], some [0xff])]).run [.add [0x12]] = none := by decide

/-! ## Examples -/

/-- A value set of 12 bits, used with a single field under a mask and with two fields. -/
example : (∀ p ∈ [([12], some [0x0f, 0x00]), ([4, 8], none)], CaseOk 12 p.1 p.2) ∧
    (∀ v ∈ opVals [.add [0x01, 0x23], .add [0x04, 0x56], .remove [0x01, 0x23]], Laid [12] v) ∧
    Clean 12 (maskBits 12 (some [0x0f, 0x00])) []
      [.add [0x01, 0x23], .add [0x04, 0x56], .remove [0x01, 0x23]] ∧
    Laid [4, 8] [0x04, 0x56] ∧ Laid [12] [0x04, 0xff] := by
  refine ⟨?_, ?_, ?_, ?_, ?_⟩
  · intro p hp
    simp only [List.mem_cons, List.not_mem_nil, or_false] at hp
    rcases hp with rfl | rfl
    · exact ⟨by simp, by simp, by simp, by simp [Aligned]⟩
    · exact ⟨by simp, by simp, by simp, by simp⟩
  · simp [opVals, Laid]; decide
  · simp only [Clean, and_true]
    intro u hu h
    simp only [List.mem_cons, List.not_mem_nil, or_false] at hu
    rcases hu with rfl | rfl
    · have := h 1 (by decide)
      revert this; decide
    · rfl
  · simp [Laid]; decide
  · simp [Laid]; decide

/-- The cases then match as expected. -/
example : ∃ s a b, (VSet.mk' 12 [([12], some [0x0f, 0x00]), ([4, 8], none)]).run
      [.add [0x01, 0x23], .add [0x04, 0x56], .remove [0x01, 0x23]] = some s ∧ s.shadows = [a, b] ∧
    a.contains [0x04, 0xff] = some true ∧ a.contains [0x01, 0x23] = some false ∧
    b.contains [0x04, 0x56] = some true ∧ b.contains [0x04, 0xff] = some false :=
  ⟨_, _, _, rfl, rfl, by decide, by decide, by decide, by decide⟩

end Bm.VSet
