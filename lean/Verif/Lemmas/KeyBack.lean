import Verif.Lemmas.KeyMatch

/-! # Lemmas about the key builder: LPM tables, reading entries back -/

namespace Bm
open Spec

section
variable {fs : List KeyF} {kb : KeyB} {ps : List MParam} {vals : List Bytes}

/-- Layout of an LPM table: one prefix field at position `l`, otherwise exact and validity
matches. -/
def LpmLayout (fs : List KeyF) (l : Nat) : Prop :=
  l < fs.length ∧ (fAt fs l).mtype = .lpm ∧
    ∀ i < fs.length, i ≠ l → (fAt fs i).mtype = .exact ∨ (fAt fs i).mtype = .valid

theorem eq_singleton_of_nodup {l : List Nat} {a : Nat} (hn : l.Nodup) (ha : a ∈ l)
    (h : ∀ b ∈ l, b = a) : l = [a] := by
  cases l with
  | nil => simp at ha
  | cons x l =>
    have hx := h x (by simp)
    subst hx
    cases l with
    | nil => rfl
    | cons y l =>
      have hy := h y (by simp)
      subst hy
      simp at hn

theorem split_of_sorted_at (t : Nat → Nat) (c : Nat) (l : List Nat)
    (h : l.Pairwise (fun a b => t a ≤ t b)) :
    l = l.filter (fun i => t i < c) ++ l.filter (fun i => c ≤ t i) := by
  induction l with
  | nil => rfl
  | cons a l ih =>
    rw [List.pairwise_cons] at h
    by_cases ha : t a < c
    · have e1 : decide (t a < c) = true := by simp [ha]
      have e2 : decide (c ≤ t a) = false := by simp [ha]
      rw [List.filter_cons, List.filter_cons, e1, e2]
      simp only [if_true, Bool.false_eq_true, if_false, List.cons_append]
      rw [← ih h.2]
    · have hall : ∀ b ∈ a :: l, c ≤ t b := by
        intro b hb
        rcases List.mem_cons.mp hb with rfl | hb
        · omega
        · have := h.1 b hb; omega
      rw [List.filter_eq_nil_iff.mpr (by intro b hb; simpa using hall b hb),
        List.filter_eq_self.mpr (by intro b hb; simpa using hall b hb), List.nil_append]

/-- In an LPM table the prefix field comes last internally. -/
theorem KeyB.Ok.lpm_split (h : kb.Ok fs) {l : Nat} (hl : LpmLayout fs l) :
    ∃ E, kb.invMapping = E ++ [l] ∧ ∀ i, i ∈ E ↔ i < fs.length ∧ i ≠ l := by
  have hs := split_of_sorted_at (fun i => (fAt fs i).mtype.toNat) 3 kb.invMapping (by
    refine List.Pairwise.imp_of_mem ?_ h.sorted
    intro a b ha hb hab
    exact sortLe_type hab (h.mem.mp ha) (h.mem.mp hb))
  have ht : ∀ i < fs.length, (3 ≤ (fAt fs i).mtype.toNat ↔ i = l) := by
    intro i hi
    constructor
    · intro h3
      by_contra hne
      rcases hl.2.2 i hi hne with e | e <;> rw [e] at h3 <;> simp [MType.toNat] at h3
    · rintro rfl; rw [hl.2.1]; simp [MType.toNat]
  have hnd : kb.invMapping.Nodup := h.perm.nodup_iff.mpr List.nodup_range
  have h1 : kb.invMapping.filter (fun i => 3 ≤ (fAt fs i).mtype.toNat) = [l] := by
    apply eq_singleton_of_nodup (hnd.filter _)
    · rw [List.mem_filter, h.mem]
      exact ⟨hl.1, by simpa using (ht l hl.1).mpr rfl⟩
    · intro b hb
      rw [List.mem_filter, h.mem] at hb
      exact (ht b hb.1).mp (by simpa using hb.2)
  rw [h1] at hs
  refine ⟨_, hs, ?_⟩
  intro i
  rw [List.mem_filter, h.mem]
  constructor
  · rintro ⟨hi, h2⟩
    refine ⟨hi, fun e => ?_⟩
    have := (ht i hi).mpr e
    simp only [decide_eq_true_eq] at h2; omega
  · rintro ⟨hi, h2⟩
    refine ⟨hi, ?_⟩
    have := mt (ht i hi).mp h2
    simp only [decide_eq_true_eq]; omega

/-- Total prefix length of an LPM entry. -/
def lpmLen (fs : List KeyF) (kb : KeyB) (ps : List MParam) (l : Nat) : Nat :=
  ((kb.invMapping.filter (· ≠ l)).map (fun i => 8 * (fAt fs i).nbytes)).sum +
    (pAt ps l).prefixLength.toNat

theorem filter_append_ne {E : List Nat} {l : Nat} (hE : ∀ i ∈ E, i ≠ l) :
    (E ++ [l]).filter (· ≠ l) = E := by
  rw [List.filter_append, List.filter_eq_self.mpr (by intro i hi; simpa using hE i hi)]
  simp

theorem KeyB.Ok.lpm_eq (h : kb.Ok fs) (hf : FieldsOk fs) (hv : ValidOk fs)
    (hp : ParamsOk fs ps) {l : Nat} (hl : LpmLayout fs l) :
    kb.buildLpm ps = some (some
      { data := (kb.invMapping.map (plainChunk fs ps)).flatten
        prefixLength := lpmLen fs kb ps l }) := by
  obtain ⟨b, hb, hb'⟩ := h.sanityCheck (ps := ps)
  have hbt := hb'.mpr hp
  subst hbt
  have hbig := h.applyBigMask hf (dataChunk fs ps) (fun i hi => dataChunk_length hp hi)
  have hlst : kb.invMapping.mapM (fun i => (ps[i]?).bind paramPrefix) = some (kb.invMapping.map
      (fun i => if i = l then (pAt ps l).prefixLength.toNat else 8 * (fAt fs i).nbytes)) := by
    refine mapM_eq_some_map _ _ _ ?_
    intro i hi
    rw [h.mem] at hi
    have hpo := ParamsOk.at hp hi
    rw [pAt_eq (by rw [hp.1]; exact hi), Option.bind_some]
    unfold paramPrefix
    rw [hpo.1]
    split
    · rename_i e
      rw [if_neg (by rintro rfl; rw [hl.2.1] at e; simp at e), nbytes_eq, hv _ (fAt_mem hi) e]
    · rename_i e
      rw [if_neg (by rintro rfl; rw [hl.2.1] at e; simp at e), hpo.2.1, nbytes_eq]
      congr 1
      rw [Nat.shiftLeft_eq]; omega
    · rename_i e
      by_cases hil : i = l
      · subst hil; simp
      · rcases hl.2.2 i hi hil with e' | e' <;> rw [e'] at e <;> simp at e
    · rename_i e
      by_cases hil : i = l
      · subst hil; rw [hl.2.1] at e; simp at e
      · rcases hl.2.2 i hi hil with e' | e' <;> rw [e'] at e <;> simp at e
    · rename_i e
      by_cases hil : i = l
      · subst hil; rw [hl.2.1] at e; simp at e
      · rcases hl.2.2 i hi hil with e' | e' <;> rw [e'] at e <;> simp at e
  have hsum : (kb.invMapping.map
      (fun i => if i = l then (pAt ps l).prefixLength.toNat else 8 * (fAt fs i).nbytes)).sum
      = lpmLen fs kb ps l := by
    obtain ⟨E, hE, hm⟩ := h.lpm_split hl
    unfold lpmLen
    rw [hE, filter_append_ne (fun i hi => ((hm i).mp hi).2), List.map_append, List.sum_append]
    simp only [List.map_cons, List.map_nil, if_true, List.sum_cons, List.sum_nil, Nat.add_zero]
    congr 2
    apply List.map_congr_left
    intro i hi
    rw [if_neg ((hm i).mp hi).2]
  simp only [KeyB.buildLpm, hb, Option.bind_eq_bind, Option.bind_some, Bool.not_true,
    Bool.false_eq_true, if_false, KeyB.toLpm, h.fillData hf hp, hlst, hsum, Option.pure_def, hbig]
  rfl

theorem KeyB.Ok.lpm_len_le (h : kb.Ok fs) (hp : ParamsOk fs ps) {l : Nat}
    (hl : LpmLayout fs l) : lpmLen fs kb ps l ≤ 8 * kb.nbytesKey := by
  obtain ⟨E, hE, hm⟩ := h.lpm_split hl
  have h3 := (ParamsOk.at hp hl.1).2.2
  rw [hl.2.1] at h3
  simp only at h3
  unfold lpmLen
  rw [h.nbytes, hE, filter_append_ne (fun i hi => ((hm i).mp hi).2), List.map_append,
    List.sum_append]
  have : (E.map (fun i => 8 * (fAt fs i).nbytes)).sum
      = 8 * (E.map (fun i => (fAt fs i).nbytes)).sum := by
    clear hE hm
    induction E with
    | nil => rfl
    | cons a E ih => simp only [List.map_cons, List.sum_cons, ih]; ring
  rw [this]
  simp only [List.map_cons, List.map_nil, List.sum_cons, List.sum_nil, nbytes_eq]
  omega

theorem KeyB.Ok.lpm_match (h : kb.Ok fs) (hf : FieldsOk fs) (hp : ParamsOk fs ps)
    (hval : ValuesOk fs vals) {l : Nat} (hl : LpmLayout fs l) :
    (bytesBits (kb.invMapping.map (plainChunk fs ps)).flatten).take (lpmLen fs kb ps l)
      = (bytesBits (kb.invMapping.map (keyChunk fs vals)).flatten).take (lpmLen fs kb ps l) ↔
    AllMatch paddedWidth fs ps vals := by
  obtain ⟨E, hE, hm⟩ := h.lpm_split hl
  have hEl : ∀ i ∈ E, i < fs.length := fun i hi => ((hm i).mp hi).1
  have h3 := (ParamsOk.at hp hl.1).2.2
  rw [hl.2.1] at h3
  simp only at h3
  have hple : (pAt ps l).prefixLength.toNat ≤ 8 * (fAt fs l).nbytes := by rw [nbytes_eq]; omega
  have hsum : lpmLen fs kb ps l = 8 * (E.map (fun i => (fAt fs i).nbytes)).sum
      + (pAt ps l).prefixLength.toNat := by
    unfold lpmLen
    rw [hE, filter_append_ne (fun i hi => ((hm i).mp hi).2)]
    congr 1
    clear hE hm hEl
    induction E with
    | nil => rfl
    | cons a E ih => simp only [List.map_cons, List.sum_cons, ih]; ring
  have l1 : (E.map (plainChunk fs ps)).flatten.length = (E.map (fun i => (fAt fs i).nbytes)).sum :=
    flatten_map_length _ _ _ (fun i hi => plainChunk_length hf hp (hEl i hi))
  have l2 : (E.map (keyChunk fs vals)).flatten.length
      = (E.map (fun i => (fAt fs i).nbytes)).sum :=
    flatten_map_length _ _ _ (fun i hi => keyChunk_length hf hval (hEl i hi))
  rw [hsum, hE]
  simp only [List.map_append, List.flatten_append, List.map_cons, List.map_nil,
    List.flatten_cons, List.flatten_nil, List.append_nil, bytesBits_append]
  rw [List.take_append, List.take_append, bytesBits_length, bytesBits_length, l1, l2,
    List.take_of_length_le (l := bytesBits (E.map (plainChunk fs ps)).flatten)
      (by rw [bytesBits_length, l1]; omega),
    List.take_of_length_le (l := bytesBits (E.map (keyChunk fs vals)).flatten)
      (by rw [bytesBits_length, l2]; omega), Nat.add_sub_cancel_left]
  have hsplit : (bytesBits (E.map (plainChunk fs ps)).flatten ++
        (bytesBits (plainChunk fs ps l)).take (pAt ps l).prefixLength.toNat
      = bytesBits (E.map (keyChunk fs vals)).flatten ++
        (bytesBits (keyChunk fs vals l)).take (pAt ps l).prefixLength.toNat) ↔
      (E.map (plainChunk fs ps)).flatten = (E.map (keyChunk fs vals)).flatten ∧
      (bytesBits (plainChunk fs ps l)).take (pAt ps l).prefixLength.toNat =
        (bytesBits (keyChunk fs vals l)).take (pAt ps l).prefixLength.toNat := by
    constructor
    · intro e
      obtain ⟨e1, e2⟩ := List.append_inj e (by rw [bytesBits_length, bytesBits_length, l1, l2])
      exact ⟨bytesBits_inj e1, e2⟩
    · rintro ⟨e1, e2⟩; rw [e1, e2]
  rw [hsplit, flatten_map_inj _ _ _ (by
    intro i hi
    rw [plainChunk_length hf hp (hEl i hi), keyChunk_length hf hval (hEl i hi)]),
    take_bytesBits_eq (plainChunk_length hf hp hl.1) (keyChunk_length hf hval hl.1) hple,
    plainChunk_nat hf hp hl.1, keyChunk_nat hf hval hl.1, allMatch_iff _ hp hval]
  have keyE : ∀ i < fs.length, i ≠ l → (plainChunk fs ps i = keyChunk fs vals i ↔
      FieldMatches paddedWidth (fAt fs i) (pAt ps i) (bytesNat (vAt vals i))) := by
    intro i hi hil
    rw [eq_comm, plainField_iff hf hp hval hi]
    unfold FieldMatches
    rcases hl.2.2 i hi hil with e | e <;> rw [e]
  constructor
  · rintro ⟨h1, h2⟩ i hi
    by_cases hil : i = l
    · subst hil
      unfold FieldMatches
      rw [hl.2.1]
      exact h2.symm
    · exact (keyE i hi hil).mp (h1 i ((hm i).mpr ⟨hi, hil⟩))
  · intro hh
    refine ⟨fun i hi => ?_, ?_⟩
    · obtain ⟨hi, hil⟩ := (hm i).mp hi
      exact (keyE i hi hil).mpr (hh i hi)
    · have := hh l hl.1
      unfold FieldMatches at this
      rw [hl.2.1] at this
      exact this.symm

/-! ## Reading back -/

theorem KeyB.Ok.back_exact (h : kb.Ok fs) (hf : FieldsOk fs) (hp : ParamsOk fs ps)
    (hk : ∀ f ∈ fs, f.mtype = .exact ∨ f.mtype = .valid) :
    kb.fromExact (kb.invMapping.map (plainChunk fs ps)).flatten
      = some ((List.range fs.length).map fun i =>
          { type := (fAt fs i).mtype, key := plainChunk fs ps i }) := by
  refine h.slices _ _ ?_
  intro i j o hi hj ho
  rw [h.slice _ (fun i hi => plainChunk_length hf hp hi) hi hj ho]
  simp only [Option.bind_eq_bind, Option.bind_some]
  rw [if_pos (Or.symm (hk _ (fAt_mem hi)))]
  rfl

theorem KeyB.Ok.back_tern (h : kb.Ok fs) (c : Nat → Bytes) (hv : ValidOk fs)
    (hp : ParamsOk fs ps) (hc : ∀ i < fs.length, (c i).length = (fAt fs i).nbytes) :
    kb.fromTern (kb.invMapping.map c).flatten (kb.invMapping.map (maskChunk ps)).flatten
      = some ((List.range fs.length).map fun i =>
          { type := (fAt fs i).mtype, key := c i
            mask := if (fAt fs i).mtype = .range ∨ (fAt fs i).mtype = .ternary then (pAt ps i).mask
              else []
            prefixLength := if (fAt fs i).mtype = .lpm then (pAt ps i).prefixLength else 0 }) := by
  refine h.slices _ _ ?_
  intro i j o hi hj ho
  obtain ⟨_, hm, m1, m2, m3⟩ := maskChunk_ok hv hp hi
  rw [h.slice _ hc hi hj ho]
  simp only [Option.bind_eq_bind, Option.bind_some]
  have hms := h.slice (maskChunk ps) (fun i hi => (maskChunk_ok hv hp hi).2.1) hi hj ho
  cases e : (fAt fs i).mtype with
  | valid => simp
  | exact => simp
  | range => simp [hms, m2 (.inr e)]
  | ternary => simp [hms, m2 (.inl e)]
  | lpm =>
    have h3 := (ParamsOk.at hp hi).2.2
    rw [e] at h3
    simp only at h3
    have := prefLen_createMask (m3 e).2 (m3 e).1
    simp only [hms, Option.bind_some, this]
    simp [Int.toNat_of_nonneg h3.1]

theorem sum_filter_ne (fs : List KeyF) (kb : KeyB) (h : kb.Ok fs) (l : Nat) :
    ((kb.invMapping.filter (· ≠ l)).map (fun i => 8 * (fAt fs i).nbytes)).sum
      = (((List.range fs.length).filter (· ≠ l)).map (fun i => 8 * (fAt fs i).nbytes)).sum :=
  ((h.perm.filter _).map _).sum_eq

theorem getLast?_filter_eq {n l : Nat} (hl : l < n) :
    ((List.range n).filter (fun i => decide (i = l))).getLast? = some l := by
  have : (List.range n).filter (fun i => decide (i = l)) = [l] := by
    apply eq_singleton_of_nodup (List.nodup_range.filter _)
    · simp [hl]
    · intro b hb; simpa using (List.mem_filter.mp hb).2
  rw [this]; rfl

theorem KeyB.Ok.back_lpm (h : kb.Ok fs) (hf : FieldsOk fs) (hp : ParamsOk fs ps) {l : Nat}
    (hl : LpmLayout fs l) :
    kb.fromLpm { data := (kb.invMapping.map (plainChunk fs ps)).flatten
                 prefixLength := lpmLen fs kb ps l }
      = some ((List.range fs.length).map fun i =>
          { type := (fAt fs i).mtype, key := plainChunk fs ps i
            prefixLength := if i = l then (pAt ps l).prefixLength else 0 }) := by
  have h3 := (ParamsOk.at hp hl.1).2.2
  rw [hl.2.1] at h3
  simp only at h3
  unfold KeyB.fromLpm
  rw [h.slices _ (fun i => ({ type := (fAt fs i).mtype, key := plainChunk fs ps i } : MParam)) (by
    intro i j o hi hj ho
    rw [h.slice _ (fun i hi => plainChunk_length hf hp hi) hi hj ho]
    simp only [Option.bind_eq_bind, Option.bind_some]
    rw [if_neg]
    · rfl
    · by_cases hil : i = l
      · subst hil; rw [hl.2.1]; simp
      · rcases hl.2.2 i hi hil with e | e <;> rw [e] <;> simp)]
  simp only [Option.bind_eq_bind, Option.bind_some]
  have hidx : ((List.range ((List.range fs.length).map fun i =>
      ({ type := (fAt fs i).mtype, key := plainChunk fs ps i } : MParam)).length).filter fun i =>
      ((((List.range fs.length).map fun i =>
      ({ type := (fAt fs i).mtype, key := plainChunk fs ps i } : MParam)))[i]?).any
        (fun p => decide (p.type = .lpm))).getLast?.getD 0 = l := by
    rw [List.length_map, List.length_range]
    rw [List.filter_congr (q := fun i => decide (i = l)) (by
      intro i hi
      rw [List.mem_range] at hi
      simp only [List.getElem?_map, List.getElem?_range hi, Option.map_some, Option.any_some]
      by_cases hil : i = l
      · subst hil; simp [hl.2.1]
      · rcases hl.2.2 i hi hil with e | e <;> simp [e, hil]), getLast?_filter_eq hl.1]
    rfl
  rw [hidx]
  have hpref : (((((List.range fs.length).map fun i =>
      ({ type := (fAt fs i).mtype, key := plainChunk fs ps i } : MParam)).filter
        (fun p => decide (p.type ≠ .lpm))).map (fun p => p.key.length <<< 3)).sum)
      = ((kb.invMapping.filter (· ≠ l)).map (fun i => 8 * (fAt fs i).nbytes)).sum := by
    rw [sum_filter_ne fs kb h l, List.filter_map, List.map_map]
    have : (List.range fs.length).filter ((fun p => decide (p.type ≠ .lpm)) ∘ fun i =>
        ({ type := (fAt fs i).mtype, key := plainChunk fs ps i } : MParam))
        = (List.range fs.length).filter (· ≠ l) := by
      apply List.filter_congr
      intro i hi
      rw [List.mem_range] at hi
      by_cases hil : i = l
      · subst hil; simp [hl.2.1]
      · rcases hl.2.2 i hi hil with e | e <;> simp [e, hil]
    rw [this]
    congr 1
    apply List.map_congr_left
    intro i hi
    have hi := List.mem_range.mp (List.mem_filter.mp hi).1
    simp only [Function.comp, plainChunk_length hf hp hi, Nat.shiftLeft_eq]
    omega
  rw [List.getElem?_map, List.getElem?_range hl.1]
  simp only [Option.map_some, Option.bind_some, Option.pure_def, Option.some.injEq]
  rw [hpref]
  apply List.ext_getElem?
  intro i
  rw [List.getElem?_set]
  by_cases hil : l = i
  · subst hil
    rw [if_pos rfl, if_pos (by simpa using hl.1), List.getElem?_map, List.getElem?_range hl.1]
    simp only [Option.map_some, if_true, lpmLen]
    congr 2
    have := Int.toNat_of_nonneg h3.1
    push_cast
    omega
  · rw [if_neg hil]
    simp only [List.getElem?_map]
    by_cases hi : i < fs.length
    · rw [List.getElem?_range hi]
      simp only [Option.map_some, if_neg (Ne.symm hil)]
    · rw [List.getElem?_eq_none (by simpa using hi)]; rfl

end

end Bm
