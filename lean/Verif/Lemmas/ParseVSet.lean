import Verif.Spec.ParseVSet
import Verif.Lemmas.Extract
import Mathlib.Data.List.Nodup

/-! # Lemmas about parser value sets -/

namespace Bm.VSet

open Bm.Spec Bm.Extract

theorem keyBits_length : ∀ (ws : List Nat) (k : Bytes), Laid ws k → (keyBits ws k).length = ws.sum
  | [], _, _ => rfl
  | w :: ws, k, ⟨h1, _, h3⟩ => by
    simp only [keyBits, List.length_append, List.length_drop, bytesBits_length, List.length_take,
      keyBits_length ws _ h3, List.sum_cons, Nat.min_eq_left h1]
    omega

theorem laid_length : ∀ (ws : List Nat) (k : Bytes), Laid ws k →
    k.length = (ws.map fun w => (w + 7) / 8).sum
  | [], k, h => by cases h; rfl
  | w :: ws, k, ⟨h1, _, h3⟩ => by
    have := laid_length ws _ h3
    simp only [List.length_drop] at this
    simp only [List.map_cons, List.sum_cons]
    omega

/-- A laid-out byte string is determined by the bits of its fields. -/
theorem laid_ext : ∀ (ws : List Nat) (k k' : Bytes), Laid ws k → Laid ws k' →
    keyBits ws k = keyBits ws k' → k = k'
  | [], k, k', h, h', _ => by cases h; cases h'; rfl
  | w :: ws, k, k', ⟨h1, h2, h3⟩, ⟨h1', h2', h3'⟩, he => by
    simp only [keyBits] at he
    obtain ⟨e1, e2⟩ := List.append_inj he (by simp [h1, h1'])
    have e3 := laid_ext ws _ _ h3 h3' e2
    have e4 : bytesBits (k.take ((w + 7) / 8)) = bytesBits (k'.take ((w + 7) / 8)) := by
      rw [← List.take_append_drop (8 * ((w + 7) / 8) - w) (bytesBits (k.take _)), h2, e1, ← h2',
        List.take_append_drop]
    rw [← List.take_append_drop ((w + 7) / 8) k, bytesBits_inj e4, e3, List.take_append_drop]

theorem padLoop_spec : ∀ (ws : List Nat) (src : Bytes) (o : Nat), (∀ w ∈ ws, 0 < w) → o < 8 →
    o + ws.sum ≤ 8 * src.length →
    ∃ k, padLoop src o ws = some k ∧ Laid ws k ∧
      keyBits ws k = ((bytesBits src).drop o).take ws.sum
  | [], src, o, _, _, _ => ⟨[], rfl, rfl, by simp [keyBits]⟩
  | w :: ws, src, o, hw, ho, hl => by
    have hw0 : 0 < w := hw w (by simp)
    simp only [List.sum_cons] at hl
    obtain ⟨d, hd, hdl, hdb⟩ := genericExtract_spec src o w ho (Or.inr (by omega)) (by omega)
    obtain ⟨k, hk, hk1, hk2⟩ := padLoop_spec ws (src.drop ((o + w) / 8)) ((o + w) % 8)
      (fun x hx => hw x (by simp [hx])) (Nat.mod_lt _ (by omega)) (by simp only [List.length_drop]; omega)
    have ht : (d ++ k).take ((w + 7) / 8) = d := by rw [← hdl, List.take_left]
    have hr : (d ++ k).drop ((w + 7) / 8) = k := by rw [← hdl, List.drop_left]
    refine ⟨d ++ k, by simp [padLoop, hd, hk], ⟨by simp [hdl], ?_, by rw [hr]; exact hk1⟩, ?_⟩
    · rw [ht, hdb, List.take_left' (by simp)]
    · simp only [keyBits, ht, hr, hdb, hk2, bytesBits_drop, List.drop_drop]
      rw [List.drop_left' (by simp), show 8 * ((o + w) / 8) + (o + w) % 8 = o + w from by omega,
        List.sum_cons, List.take_add, List.drop_drop]

/-- Zero-width masks aside, two byte strings of equal length are equal under a mask iff they agree on
the selected bits. -/
theorem bytesBits_and : ∀ (a m : Bytes), a.length ≤ m.length →
    bytesBits (List.zipWith (· &&& ·) a m) = List.zipWith (· && ·) (bytesBits a) (bytesBits m)
  | [], m, _ => by simp
  | x :: a, [], h => by simp at h
  | x :: a, y :: m, h => by
    rw [List.zipWith_cons_cons, bytesBits_cons, bytesBits_cons, bytesBits_cons,
      List.zipWith_append (by simp), byteBits_and, bytesBits_and a m (by simpa using h)]

theorem and_eq_iff {a b m : Bytes} (ha : a.length ≤ m.length) (hb : b.length = a.length) :
    List.zipWith (· &&& ·) a m = List.zipWith (· &&& ·) b m ↔
      ∀ i : Nat, (bytesBits m)[i]? = some true → (bytesBits a)[i]? = (bytesBits b)[i]? := by
  constructor
  · intro h i hi
    have h1 := congrArg bytesBits h
    rw [bytesBits_and a m ha, bytesBits_and b m (by omega)] at h1
    have h2 := congrArg (fun l : List Bool => l[i]?) h1
    simp only [List.getElem?_zipWith, hi] at h2
    revert h2
    cases (bytesBits a)[i]? <;> cases (bytesBits b)[i]? <;> simp
  · intro h
    apply bytesBits_inj
    rw [bytesBits_and a m ha, bytesBits_and b m (by omega)]
    apply List.ext_getElem?
    intro i
    have hi := h i
    have hlen : (bytesBits a).length = (bytesBits b).length := by simp [hb]
    simp only [List.getElem?_zipWith]
    cases hm : (bytesBits m)[i]? with
    | none => cases (bytesBits a)[i]? <;> cases (bytesBits b)[i]? <;> rfl
    | some t =>
      cases t with
      | true => rw [hi hm]
      | false =>
        by_cases hi : i < (bytesBits a).length
        · rw [List.getElem?_eq_getElem hi, List.getElem?_eq_getElem (hlen ▸ hi)]
          simp
        · rw [List.getElem?_eq_none (by omega), List.getElem?_eq_none (by omega)]

/-- Masks work when the value needs no padding: the key is a single field, or all fields are whole
bytes. -/
def Aligned (ws : List Nat) : Prop := ws.length = 1 ∨ ∀ w ∈ ws, w % 8 = 0

theorem sum_mod8 : ∀ (ws : List Nat), (∀ w ∈ ws, w % 8 = 0) →
    8 * (ws.map fun w => (w + 7) / 8).sum = ws.sum
  | [], _ => rfl
  | w :: ws, h => by
    have := sum_mod8 ws (fun x hx => h x (by simp [hx]))
    have := h w (by simp)
    simp only [List.map_cons, List.sum_cons]
    omega

theorem aligned_length {ws : List Nat} (h : Aligned ws) :
    (ws.map fun w => (w + 7) / 8).sum = (ws.sum + 7) / 8 := by
  rcases h with h | h
  · obtain ⟨w, rfl⟩ := List.length_eq_one_iff.1 h
    simp
  · have := sum_mod8 ws h
    omega

theorem keyBits_aligned : ∀ (ws : List Nat) (k : Bytes), (∀ w ∈ ws, w % 8 = 0) → Laid ws k →
    keyBits ws k = bytesBits k
  | [], k, _, h => by cases h; rfl
  | w :: ws, k, hw, ⟨h1, _, h3⟩ => by
    have h0 := hw w (by simp)
    rw [keyBits, keyBits_aligned ws _ (fun x hx => hw x (by simp [hx])) h3,
      show 8 * ((w + 7) / 8) - w = 0 from by omega, List.drop_zero, ← bytesBits_append,
      List.take_append_drop]

/-- The padding of an aligned key is in front. -/
theorem bits_aligned {ws : List Nat} {k : Bytes} (h : Aligned ws) (hk : Laid ws k) :
    bytesBits k = List.replicate (8 * ((ws.sum + 7) / 8) - ws.sum) false ++ keyBits ws k := by
  rcases h with h | h
  · obtain ⟨w, rfl⟩ := List.length_eq_one_iff.1 h
    obtain ⟨h1, h2, h3⟩ := hk
    simp only [Laid, List.drop_eq_nil_iff] at h3
    rw [List.take_of_length_le h3] at h2
    simp only [keyBits, List.sum_cons, List.sum_nil, Nat.add_zero, List.append_nil]
    rw [List.take_of_length_le h3, ← h2, List.take_append_drop]
  · have h8 := sum_mod8 ws h
    rw [keyBits_aligned ws k h hk, show 8 * ((ws.sum + 7) / 8) - ws.sum = 0 from by omega]
    rfl

theorem laid_single_of_aligned {ws : List Nat} {k : Bytes} (h : Aligned ws) :
    Laid ws k ↔ Laid [ws.sum] k := by
  rcases h with h | h
  · obtain ⟨w, rfl⟩ := List.length_eq_one_iff.1 h
    simp
  · have h8 := sum_mod8 ws h
    constructor
    · intro hk
      have hl := laid_length ws k hk
      refine ⟨by omega, ?_, ?_⟩
      · rw [show 8 * ((ws.sum + 7) / 8) - ws.sum = 0 from by omega]; rfl
      · simp only [Laid, List.drop_eq_nil_iff]; omega
    · intro hk
      have hl := laid_length _ k hk
      simp only [List.map_cons, List.map_nil, List.sum_cons, List.sum_nil, Nat.add_zero] at hl
      have hl' : k.length = (ws.map fun w => (w + 7) / 8).sum := by omega
      clear hk hl h8
      induction ws generalizing k with
      | nil => simpa [Laid] using hl'
      | cons w ws ih =>
        have h0 := h w (by simp)
        simp only [List.map_cons, List.sum_cons] at hl'
        refine ⟨by omega, ?_, ih (fun x hx => h x (by simp [hx])) (by simp only [List.length_drop]; omega)⟩
        rw [show 8 * ((w + 7) / 8) - w = 0 from by omega]; rfl

/-- The bits of a mask, which is given like a value. -/
def maskBits (bits : Nat) (m : Option Bytes) : Option (List Bool) := m.map (keyBits [bits])

/-- The select cases for which the property is claimed: the fields are not empty and add up to the
width of the value set, and a mask has the required size and needs no padding. -/
structure CaseOk (cbits : Nat) (ws : List Nat) (m : Option Bytes) : Prop where
  ne : ws ≠ []
  pos : ∀ w ∈ ws, 0 < w
  sum : ws.sum = cbits
  mask : ∀ x, m = some x → x.length = (cbits + 7) / 8 ∧ Aligned ws

theorem keyBits_single {k : Bytes} {b : Nat} (hk : k.length = (b + 7) / 8) :
    bytesBits k = (bytesBits k).take (8 * ((b + 7) / 8) - b) ++ keyBits [b] k := by
  simp only [keyBits, List.append_nil]
  rw [List.take_of_length_le (l := k) (by omega), List.take_append_drop]

theorem laid_single_length {k : Bytes} {b : Nat} (h : Laid [b] k) : k.length = (b + 7) / 8 := by
  simpa using laid_length _ _ h

/-- Padding a valid value. -/
theorem doPadding_spec {cbits : Nat} {ws : List Nat} {m : Option Bytes} (c : CaseOk cbits ws m)
    {v : Bytes} (hv : Laid [cbits] v) :
    ∃ k, doPadding (some ws) v = some k ∧ Laid ws k ∧ keyBits ws k = keyBits [cbits] v := by
  have hl := laid_single_length hv
  by_cases h1 : ws.length = 1
  · refine ⟨v, by simp [doPadding, h1], ?_, ?_⟩
    · rw [laid_single_of_aligned (.inl h1), c.sum]; exact hv
    · obtain ⟨w, rfl⟩ := List.length_eq_one_iff.1 h1
      have := c.sum
      simp only [List.sum_cons, List.sum_nil, Nat.add_zero] at this
      rw [this]
  · obtain ⟨k, hk, hk1, hk2⟩ := padLoop_spec ws v (8 * v.length - cbits) c.pos (by omega)
      (by rw [c.sum]; omega)
    refine ⟨k, ?_, hk1, ?_⟩
    · simp only [doPadding, h1, if_false, c.sum, hl, if_true]
      rw [← hk, hl]
    · rw [hk2, c.sum, hl]
      simp only [keyBits, List.append_nil]
      rw [List.take_of_length_le (l := v) (by omega), List.take_of_length_le (by simp [hl]; omega)]

/-- Masking two laid-out keys gives the same result iff they agree under the mask. -/
theorem transform_spec {cbits : Nat} {ws : List Nat} {m : Option Bytes} (c : CaseOk cbits ws m)
    {k : Bytes} (hk : Laid ws k) :
    ∃ x, transform m k = some x ∧ x.length = k.length ∧
      ∀ k', Laid ws k' → (transform m k' = some x ↔
        Under (maskBits cbits m) (keyBits ws k') (keyBits ws k)) := by
  cases m with
  | none =>
    refine ⟨k, rfl, rfl, fun k' hk' => ?_⟩
    simp only [transform, maskBits, Option.map_none, Under, Option.some.injEq]
    exact ⟨fun h => by rw [h], fun h => laid_ext ws _ _ hk' hk h⟩
  | some m =>
    obtain ⟨hm, ha⟩ := c.mask m rfl
    have hlen := aligned_length ha
    rw [c.sum] at hlen
    have hkl := laid_length ws k hk
    have hle : k.length ≤ m.length := by omega
    refine ⟨List.zipWith (· &&& ·) k m, by simp [transform, hle], by simp [hle], fun k' hk' => ?_⟩
    have hkl' := laid_length ws k' hk'
    have hle' : k'.length ≤ m.length := by omega
    simp only [transform, hle', if_true, Option.some.injEq, maskBits, Option.map_some, Under]
    rw [and_eq_iff hle' (by omega), bits_aligned ha hk', bits_aligned ha hk, c.sum,
      keyBits_single hm]
    set n := 8 * ((cbits + 7) / 8) - cbits with hn
    have htl : ((bytesBits m).take n).length = n := by
      simp only [List.length_take, bytesBits_length, hm]; omega
    constructor
    · intro h i hi
      have := h (n + i) (by
        rw [List.getElem?_append_right (by omega), htl, Nat.add_sub_cancel_left]; exact hi)
      rw [List.getElem?_append_right (by simp), List.getElem?_append_right (by simp)] at this
      simpa using this
    · intro h i hi
      by_cases hin : i < n
      · rw [List.getElem?_append_left (by simpa using hin), List.getElem?_append_left (by simpa using hin)]
      · rw [List.getElem?_append_right (by omega), htl] at hi
        rw [List.getElem?_append_right (by simp; omega), List.getElem?_append_right (by simp; omega)]
        simpa using h (i - n) hi

theorem Under.refl (m : Option (List Bool)) (a : List Bool) : Under m a a := by
  cases m <;> simp [Under]

theorem Under.symm {m : Option (List Bool)} {a b : List Bool} (h : Under m a b) : Under m b a := by
  cases m with
  | none => exact Eq.symm h
  | some m => exact fun i hi => (h i hi).symm

/-- What is stored for a value. -/
theorem stored_spec {cbits : Nat} {ws : List Nat} {m : Option Bytes} (c : CaseOk cbits ws m)
    {s : Shadow} (hw : s.widths = some ws) (hm : s.mask = m) {v : Bytes} (hv : Laid [cbits] v) :
    ∃ x, s.stored v = some x ∧ ∀ k, Laid ws k → (transform m k = some x ↔
      Under (maskBits cbits m) (keyBits ws k) (keyBits [cbits] v)) := by
  obtain ⟨k, h1, h2, h3⟩ := doPadding_spec c hv
  obtain ⟨x, h4, h5, h6⟩ := transform_spec c h2
  refine ⟨x, ?_, fun k' hk' => by rw [h6 k' hk', h3]⟩
  have : x.length = s.width := by rw [h5, laid_length ws k h2]; simp [Shadow.width, hw]
  simp [Shadow.stored, hw, hm, h1, h4, this]

theorem stored_eq_iff {cbits : Nat} {ws : List Nat} {m : Option Bytes} (c : CaseOk cbits ws m)
    {s : Shadow} (hw : s.widths = some ws) (hm : s.mask = m) {v u : Bytes} (hv : Laid [cbits] v)
    (hu : Laid [cbits] u) :
    s.stored v = s.stored u ↔ Under (maskBits cbits m) (keyBits [cbits] v) (keyBits [cbits] u) := by
  obtain ⟨x, hx, hx'⟩ := stored_spec c hw hm hu
  obtain ⟨k, h1, h2, h3⟩ := doPadding_spec c hv
  have := hx' k h2
  rw [h3] at this
  rw [hx, ← this]
  obtain ⟨y, h4, h5, _⟩ := transform_spec c h2
  have hl : y.length = s.width := by rw [h5, laid_length ws k h2]; simp [Shadow.width, hw]
  simp [Shadow.stored, hw, hm, h1, h4, hl]

/-- A history for one shadow. -/
def Shadow.run (s : Shadow) : List Op → Option Shadow
  | [] => some s
  | op :: ops => do (← s.exec op).run ops

/-- The set of a shadow after a history. -/
theorem run_spec {cbits : Nat} {ws : List Nat} {m : Option Bytes} (c : CaseOk cbits ws m) :
    ∀ (ops : List Op) (s : Shadow) (cur : List Bytes), s.widths = some ws → s.mask = m →
      (∀ v ∈ opVals ops, Laid [cbits] v) → (∀ v ∈ cur, Laid [cbits] v) → s.set.Nodup →
      ∃ t, s.run ops = some t ∧ t.widths = some ws ∧ t.mask = m ∧
        ((∀ x, x ∈ s.set ↔ ∃ v ∈ cur, s.stored v = some x) →
          Clean cbits (maskBits cbits m) cur ops →
          ∀ x, x ∈ t.set ↔ ∃ v ∈ current cur ops, t.stored v = some x)
  | [], s, cur, hw, hm, _, _, _ => ⟨s, rfl, hw, hm, fun h _ => h⟩
  | .clear :: ops, s, cur, hw, hm, ho, hc, hn => by
    obtain ⟨t, h1, h2, h3, h4⟩ := run_spec c ops s.clear [] hw hm ho (by simp) (by simp [Shadow.clear])
    exact ⟨t, by simp [Shadow.run, Shadow.exec, h1], h2, h3,
      fun _ hC => h4 (by simp [Shadow.clear]) hC⟩
  | .add v :: ops, s, cur, hw, hm, ho, hc, hn => by
    have hv : Laid [cbits] v := ho v (by simp [opVals])
    obtain ⟨x, hx, _⟩ := stored_spec c hw hm hv
    obtain ⟨t, h1, h2, h3, h4⟩ := run_spec c ops { s with set := List.insert x s.set } (v :: cur) hw hm
      (fun u hu => ho u (by simp [opVals, hu])) (by simpa [hv] using hc) (hn.insert)
    refine ⟨t, by simp [Shadow.run, Shadow.exec, Shadow.add, hx, h1], h2, h3, fun hi hC => h4 ?_ hC⟩
    intro y
    have hst : ∀ u, ({ s with set := List.insert x s.set } : Shadow).stored u = s.stored u :=
      fun _ => rfl
    simp only [List.mem_insert_iff, hi, hst, List.mem_cons, exists_eq_or_imp, hx, Option.some.injEq]
    constructor
    · rintro (h | h)
      · exact .inl h.symm
      · exact .inr h
    · rintro (h | h)
      · exact .inl h.symm
      · exact .inr h
  | .remove v :: ops, s, cur, hw, hm, ho, hc, hn => by
    have hv : Laid [cbits] v := ho v (by simp [opVals])
    obtain ⟨x, hx, _⟩ := stored_spec c hw hm hv
    obtain ⟨t, h1, h2, h3, h4⟩ := run_spec c ops { s with set := s.set.erase x }
      (cur.filter (· ≠ v)) hw hm (fun u hu => ho u (by simp [opVals, hu]))
      (fun u hu => hc u (List.mem_filter.1 hu).1) (hn.erase x)
    refine ⟨t, by simp [Shadow.run, Shadow.exec, Shadow.remove, hx, h1], h2, h3,
      fun hi hC => h4 ?_ hC.2⟩
    intro y
    have hst : ∀ u, ({ s with set := s.set.erase x } : Shadow).stored u = s.stored u := fun _ => rfl
    simp only [hst, List.mem_filter, decide_not, Bool.not_eq_true', decide_eq_false_iff_not]
    rw [hn.mem_erase_iff, hi]
    constructor
    · rintro ⟨hyx, u, hu, huy⟩
      refine ⟨u, ⟨hu, fun e => hyx ?_⟩, huy⟩
      rw [e, hx] at huy
      exact (Option.some.inj huy).symm
    · rintro ⟨u, ⟨hu, huv⟩, huy⟩
      refine ⟨fun e => huv ?_, u, hu, huy⟩
      apply hC.1 u hu
      rw [← stored_eq_iff c hw hm (hc u hu) hv, huy, hx, e]

/-- Running the shadows one by one. -/
theorem mapM_forall₂ {α β : Type} (f : α → Option β) : ∀ {l : List α} {l' : List β},
    List.Forall₂ (fun a b => f a = some b) l l' → l.mapM f = some l'
  | _, _, .nil => by simp
  | _, _, .cons h t => by simp [h, mapM_forall₂ f t]

theorem run_split : ∀ (ops : List Op) {b b' : Shadow} {l l' : List Shadow},
    b.run ops = some b' → List.Forall₂ (fun s t => s.run ops = some t) l l' →
    (VSet.mk b l).run ops = some ⟨b', l'⟩
  | [], b, b', l, l', h1, h2 => by
    cases h1
    have : l = l' := by
      induction h2 with
      | nil => rfl
      | cons h _ ih => cases h; rw [ih]
    rw [this]; rfl
  | op :: ops, b, b', l, l', h1, h2 => by
    have step : ∀ {s t : Shadow}, s.run (op :: ops) = some t →
        ∃ m, s.exec op = some m ∧ m.run ops = some t := by
      intro s t h
      exact Option.bind_eq_some_iff.1 h
    obtain ⟨b1, e1, e2⟩ := step h1
    have : ∃ lm, List.Forall₂ (fun s t => s.exec op = some t) l lm ∧
        List.Forall₂ (fun s t => s.run ops = some t) lm l' := by
      clear h1
      induction h2 with
      | nil => exact ⟨[], .nil, .nil⟩
      | cons h _ ih =>
        obtain ⟨m, hm1, hm2⟩ := step h
        obtain ⟨lm, hl1, hl2⟩ := ih
        exact ⟨m :: lm, .cons hm1 hl1, .cons hm2 hl2⟩
    obtain ⟨lm, hl1, hl2⟩ := this
    simp only [VSet.run, VSet.exec, e1, mapM_forall₂ _ hl1, Option.bind_eq_bind, Option.bind_some]
    exact run_split ops e2 hl2

/-- The base after a history. -/
theorem base_run {cbits : Nat} : ∀ (ops : List Op) (s : Shadow) (cur : List Bytes),
    s.widths = none → s.mask = none → s.cbits = cbits →
      (∀ v ∈ opVals ops, v.length = (cbits + 7) / 8) → s.set.Nodup → (∀ x, x ∈ s.set ↔ x ∈ cur) →
      ∃ t, s.run ops = some t ∧ t.widths = none ∧ t.mask = none ∧ t.cbits = cbits ∧ t.set.Nodup ∧
        ∀ x, x ∈ t.set ↔ x ∈ current cur ops
  | [], s, cur, hw, hm, hc, _, hn, hi => ⟨s, rfl, hw, hm, hc, hn, hi⟩
  | .clear :: ops, s, cur, hw, hm, hc, ho, hn, hi => by
    obtain ⟨t, h1, h2⟩ := base_run ops s.clear [] hw hm hc ho (by simp [Shadow.clear])
      (by simp [Shadow.clear])
    exact ⟨t, by simp [Shadow.run, Shadow.exec, h1], h2⟩
  | .add v :: ops, s, cur, hw, hm, hc, ho, hn, hi => by
    have hs : s.stored v = some v := by
      simp [Shadow.stored, hw, hm, doPadding, transform, Shadow.width, hc, ho v (by simp [opVals])]
    obtain ⟨t, h1, h2⟩ := base_run ops { s with set := List.insert v s.set } (v :: cur) hw hm hc
      (fun u hu => ho u (by simp [opVals, hu])) hn.insert (by simp [hi])
    exact ⟨t, by simp [Shadow.run, Shadow.exec, Shadow.add, hs, h1], h2⟩
  | .remove v :: ops, s, cur, hw, hm, hc, ho, hn, hi => by
    have hs : s.stored v = some v := by
      simp [Shadow.stored, hw, hm, doPadding, transform, Shadow.width, hc, ho v (by simp [opVals])]
    obtain ⟨t, h1, h2⟩ := base_run ops { s with set := s.set.erase v } (cur.filter (· ≠ v)) hw hm hc
      (fun u hu => ho u (by simp [opVals, hu])) (hn.erase v)
      (by intro x; rw [hn.mem_erase_iff, hi]; simp [and_comm])
    exact ⟨t, by simp [Shadow.run, Shadow.exec, Shadow.remove, hs, h1], h2⟩

theorem caseMaskMatch_spec : ∀ (key mask input : Bytes), key.length = mask.length →
    input.length = key.length →
    caseMaskMatch (List.zipWith (· &&& ·) key mask) mask input =
      some (decide (List.zipWith (· &&& ·) key mask = List.zipWith (· &&& ·) input mask))
  | [], [], [], _, _ => by simp [caseMaskMatch]
  | k :: ks, m :: ms, b :: bs, h1, h2 => by
    have := caseMaskMatch_spec ks ms bs (by simpa using h1) (by simpa using h2)
    simp only [List.zipWith_cons_cons, caseMaskMatch]
    by_cases h : k &&& m = b &&& m
    · simp [h, this]
    · simp [h]
  | [], [], _ :: _, _, h => by simp at h
  | [], _ :: _, _, h, _ => by simp at h
  | _ :: _, [], _, h, _ => by simp at h
  | _ :: _, _ :: _, [], _, h => by simp at h

end Bm.VSet
