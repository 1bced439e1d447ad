import Verif.Lemmas.KeyEntry

/-! # Lemmas about the key builder: what the built keys match -/

namespace Bm
open Spec

section
variable {fs : List KeyF} {kb : KeyB} {ps : List MParam} {vals : List Bytes}

theorem allMatch_iff (cw : Nat → Nat) (hp : ParamsOk fs ps) (hv : ValuesOk fs vals) :
    AllMatch cw fs ps vals ↔ ∀ i < fs.length,
      FieldMatches cw (fAt fs i) (pAt ps i) (bytesNat (vAt vals i)) := by
  constructor
  · intro h i hi
    exact h i _ _ _ (fAt_eq hi) (pAt_eq (by rw [hp.1]; exact hi)) (vAt_eq (by rw [hv.1]; exact hi))
  · intro h i f p v h1 h2 h3
    have hi : i < fs.length := by
      by_contra hc
      rw [List.getElem?_eq_none (by omega)] at h1; simp at h1
    rw [fAt_eq hi] at h1
    rw [pAt_eq (by rw [hp.1]; exact hi)] at h2
    rw [vAt_eq (by rw [hv.1]; exact hi)] at h3
    simp only [Option.some.injEq] at h1 h2 h3
    subst h1; subst h2; subst h3
    exact h i hi

theorem underMask_and (f : KeyF) (x y : Nat) : underMask f (x &&& y) = underMask f x &&& y := by
  unfold underMask
  cases f.smask with
  | none => rfl
  | some m => simp only; rw [Nat.and_assoc, Nat.and_comm y, Nat.and_assoc]

/-- Stored bytes of one parameter, exact and LPM tables, and range parameters. -/
def plainChunk (fs : List KeyF) (ps : List MParam) (i : Nat) : Bytes :=
  andB (dataChunk fs ps i) (fAt fs i).maskBytes

/-- Stored bytes of one parameter, ternary tables. -/
def ternChunk (fs : List KeyF) (ps : List MParam) (i : Nat) : Bytes :=
  andB (andB (dataChunk fs ps i) (maskChunk ps i)) (fAt fs i).maskBytes

theorem plainChunk_length (hf : FieldsOk fs) (hp : ParamsOk fs ps) {i : Nat}
    (hi : i < fs.length) : (plainChunk fs ps i).length = (fAt fs i).nbytes :=
  andB_length (dataChunk_length hp hi) (FieldsOk.at hf hi).2

theorem plainChunk_nat (hf : FieldsOk fs) (hp : ParamsOk fs ps) {i : Nat}
    (hi : i < fs.length) : bytesNat (plainChunk fs ps i) = paramValue (fAt fs i) (pAt ps i) := by
  unfold plainChunk paramValue
  rw [underMask_nat (FieldsOk.at hf hi).2 (dataChunk_length hp hi), dataChunk_nat hf hp hi]

theorem ternChunk_length (hf : FieldsOk fs) (hv : ValidOk fs) (hp : ParamsOk fs ps) {i : Nat}
    (hi : i < fs.length) : (ternChunk fs ps i).length = (fAt fs i).nbytes :=
  andB_length (andB_length (dataChunk_length hp hi) (maskChunk_ok hv hp hi).2.1)
    (FieldsOk.at hf hi).2

theorem ternChunk_nat (hf : FieldsOk fs) (hv : ValidOk fs) (hp : ParamsOk fs ps) {i : Nat}
    (hi : i < fs.length) : bytesNat (ternChunk fs ps i)
      = paramValue (fAt fs i) (pAt ps i) &&& bytesNat (maskChunk ps i) := by
  have hl := dataChunk_length hp hi
  have hm := (maskChunk_ok hv hp hi).2.1
  unfold ternChunk paramValue
  rw [underMask_nat (FieldsOk.at hf hi).2 (andB_length hl hm),
    bytesNat_and _ _ (by rw [hl, hm]), underMask_and, dataChunk_nat hf hp hi]

theorem and_replicate_ff {x n : Nat} (h : x < 2 ^ (8 * n)) :
    x &&& bytesNat (List.replicate n (0xff : UInt8)) = x := by
  have := and_prefixMask (p := 8 * n) (size := n) (m := List.replicate n 0xff) (le_refl _)
    (by rw [bytesBits_replicate_ff]; simp) (by simp) x h
  simpa using this

/-- Clearing the low bits, for a prefix parameter. -/
theorem and_maskChunk_lpm (hv : ValidOk fs) (hp : ParamsOk fs ps) {i : Nat} (hi : i < fs.length)
    (ht : (fAt fs i).mtype = .lpm) {x : Nat} (hx : x < 2 ^ (8 * (fAt fs i).nbytes)) :
    x &&& bytesNat (maskChunk ps i)
      = x / 2 ^ (paddedWidth (fAt fs i).nbits - (pAt ps i).prefixLength.toNat)
          * 2 ^ (paddedWidth (fAt fs i).nbits - (pAt ps i).prefixLength.toNat) := by
  obtain ⟨hc, hle⟩ := (maskChunk_ok hv hp hi).2.2.2.2 ht
  obtain ⟨m, e, hl, hb⟩ := createMask_bits _ _ hle
  rw [hc] at e
  simp only [Option.some.injEq] at e
  subst e
  exact and_prefixMask hle hb hl x hx

theorem underMask_le (f : KeyF) (x : Nat) : underMask f x ≤ x := by
  unfold underMask
  cases f.smask with
  | none => exact le_refl _
  | some m => exact Nat.and_le_left

theorem pow_nbits_le (f : KeyF) : 2 ^ f.nbits ≤ 2 ^ (8 * f.nbytes) :=
  Nat.pow_le_pow_right (by omega) (by rw [nbytes_eq]; omega)

theorem paramValue_lt (f : KeyF) (p : MParam) : paramValue f p < 2 ^ (8 * f.nbytes) := by
  unfold paramValue
  have h1 := underMask_le f (bytesNat p.key % 2 ^ f.nbits)
  have h2 := Nat.mod_lt (bytesNat p.key) (Nat.two_pow_pos f.nbits)
  have h3 := pow_nbits_le f
  omega

/-- Ternary comparison of one field. -/
theorem ternField_iff (hf : FieldsOk fs) (hv : ValidOk fs) (hp : ParamsOk fs ps)
    (hval : ValuesOk fs vals) {i : Nat} (hi : i < fs.length) (hr : (fAt fs i).mtype ≠ .range) :
    andB (keyChunk fs vals i) (maskChunk ps i) = ternChunk fs ps i ↔
      FieldMatches paddedWidth (fAt fs i) (pAt ps i) (bytesNat (vAt vals i)) := by
  have hk := keyChunk_length hf hval hi
  obtain ⟨_, hm, m1, m2, m3⟩ := maskChunk_ok hv hp hi
  have ht := ternChunk_length hf hv hp hi
  have hiff : andB (keyChunk fs vals i) (maskChunk ps i) = ternChunk fs ps i ↔
      underMask (fAt fs i) (bytesNat (vAt vals i)) &&& bytesNat (maskChunk ps i)
        = paramValue (fAt fs i) (pAt ps i) &&& bytesNat (maskChunk ps i) := by
    rw [← keyChunk_nat hf hval hi, ← ternChunk_nat hf hv hp hi,
      ← bytesNat_and _ _ (by rw [hk, hm])]
    constructor
    · intro h; rw [← h]
    · intro h; exact bytesNat_inj (by rw [andB_length hk hm, ht]) h
  rw [hiff]
  have hK : underMask (fAt fs i) (bytesNat (vAt vals i)) < 2 ^ (8 * (fAt fs i).nbytes) := by
    rw [← keyChunk_nat hf hval hi, ← hk]; exact bytesNat_lt_two _
  have hP := paramValue_lt (fAt fs i) (pAt ps i)
  unfold FieldMatches
  cases e : (fAt fs i).mtype with
  | range => exact absurd e hr
  | exact => simp only; rw [m1 (.inl e), and_replicate_ff hK, and_replicate_ff hP]
  | valid => simp only; rw [m1 (.inr e), and_replicate_ff hK, and_replicate_ff hP]
  | ternary => simp only; rw [m2 (.inl e)]
  | lpm =>
    simp only
    rw [and_maskChunk_lpm hv hp hi e hK, and_maskChunk_lpm hv hp hi e hP]
    unfold PrefixAgrees
    exact Nat.mul_left_inj (by positivity)

theorem KeyB.Ok.tern_eq (h : kb.Ok fs) (hf : FieldsOk fs) (hv : ValidOk fs)
    (hp : ParamsOk fs ps) (prio : Int) :
    kb.buildTern ps prio = some (some
      { data := (kb.invMapping.map (ternChunk fs ps)).flatten
        mask := (kb.invMapping.map (maskChunk ps)).flatten, priority := prio }) := by
  obtain ⟨b, hb, hb'⟩ := h.sanityCheck (ps := ps)
  have hbt := hb'.mpr hp
  subst hbt
  have hl : ∀ i ∈ kb.invMapping, (dataChunk fs ps i).length = (maskChunk ps i).length := by
    intro i hi
    rw [h.mem] at hi
    rw [dataChunk_length hp hi, (maskChunk_ok hv hp hi).2.1]
  have hfmt : formatTernary (kb.invMapping.map (dataChunk fs ps)).flatten
      (kb.invMapping.map (maskChunk ps)).flatten 0
      = some (kb.invMapping.map fun i => andB (dataChunk fs ps i) (maskChunk ps i)).flatten := by
    unfold formatTernary
    rw [if_pos ⟨by rw [flatten_map_length _ _ _ hl, flatten_map_length _ _ _ (fun _ _ => rfl)],
      Nat.zero_le _⟩]
    simp only [List.take_zero, List.nil_append, List.drop_zero]
    rw [zipWith_flatten _ _ _ _ hl]
  have hbig := h.applyBigMask hf (fun i => andB (dataChunk fs ps i) (maskChunk ps i))
    (fun i hi => andB_length (dataChunk_length hp hi) (maskChunk_ok hv hp hi).2.1)
  simp only [KeyB.buildTern, hb, Option.bind_eq_bind, Option.bind_some, Bool.not_true,
    Bool.false_eq_true, if_false, KeyB.toTern, h.fillData hf hp, h.fillMask hv hp, hfmt,
    Option.pure_def, hbig]
  rfl

theorem flatten_length (h : kb.Ok fs) (c : Nat → Bytes)
    (hc : ∀ i < fs.length, (c i).length = (fAt fs i).nbytes) :
    (kb.invMapping.map c).flatten.length = kb.nbytesKey := by
  rw [h.nbytes]
  exact flatten_map_length _ _ _ (fun i hi => hc i (h.mem.mp hi))

theorem KeyB.Ok.tern_match (h : kb.Ok fs) (hf : FieldsOk fs) (hv : ValidOk fs)
    (hp : ParamsOk fs ps) (hval : ValuesOk fs vals) (hr : ∀ f ∈ fs, f.mtype ≠ .range) :
    TernMatches (kb.invMapping.map (keyChunk fs vals)).flatten
      (kb.invMapping.map (ternChunk fs ps)).flatten (kb.invMapping.map (maskChunk ps)).flatten ↔
    AllMatch paddedWidth fs ps vals := by
  unfold TernMatches
  rw [allMatch_iff _ hp hval, zipWith_flatten _ _ _ _ (by
    intro i hi
    rw [h.mem] at hi
    rw [keyChunk_length hf hval hi, (maskChunk_ok hv hp hi).2.1]), flatten_map_inj _ _ _ (by
    intro i hi
    rw [h.mem] at hi
    rw [andB_length (keyChunk_length hf hval hi) (maskChunk_ok hv hp hi).2.1,
      ternChunk_length hf hv hp hi])]
  constructor
  · intro hh i hi
    exact (ternField_iff hf hv hp hval hi (hr _ (fAt_mem hi))).mp (hh i (h.mem.mpr hi))
  · intro hh i hi
    have hi' := h.mem.mp hi
    exact (ternField_iff hf hv hp hval hi' (hr _ (fAt_mem hi'))).mpr (hh i hi')

/-! ## Exact tables -/

theorem KeyB.Ok.exact_eq (h : kb.Ok fs) (hf : FieldsOk fs) (hp : ParamsOk fs ps) :
    kb.buildExact ps = some (some (kb.invMapping.map (plainChunk fs ps)).flatten) := by
  obtain ⟨b, hb, hb'⟩ := h.sanityCheck (ps := ps)
  have hbt := hb'.mpr hp
  subst hbt
  have hbig := h.applyBigMask hf (dataChunk fs ps) (fun i hi => dataChunk_length hp hi)
  simp only [KeyB.buildExact, hb, Option.bind_eq_bind, Option.bind_some, Bool.not_true,
    Bool.false_eq_true, if_false, KeyB.toExact, h.fillData hf hp, Option.pure_def, hbig]
  rfl

theorem plainField_iff (hf : FieldsOk fs) (hp : ParamsOk fs ps) (hval : ValuesOk fs vals)
    {i : Nat} (hi : i < fs.length) : keyChunk fs vals i = plainChunk fs ps i ↔
      underMask (fAt fs i) (bytesNat (vAt vals i)) = paramValue (fAt fs i) (pAt ps i) := by
  rw [← keyChunk_nat hf hval hi, ← plainChunk_nat hf hp hi]
  constructor
  · intro e; rw [e]
  · intro e; exact bytesNat_inj (by rw [keyChunk_length hf hval hi, plainChunk_length hf hp hi]) e

theorem KeyB.Ok.exact_match (h : kb.Ok fs) (hf : FieldsOk fs) (hp : ParamsOk fs ps)
    (hval : ValuesOk fs vals) (hk : ∀ f ∈ fs, f.mtype = .exact ∨ f.mtype = .valid) :
    (kb.invMapping.map (keyChunk fs vals)).flatten
      = (kb.invMapping.map (plainChunk fs ps)).flatten ↔ AllMatch paddedWidth fs ps vals := by
  rw [allMatch_iff _ hp hval, flatten_map_inj _ _ _ (by
    intro i hi
    rw [h.mem] at hi
    rw [keyChunk_length hf hval hi, plainChunk_length hf hp hi])]
  have key : ∀ i < fs.length, (keyChunk fs vals i = plainChunk fs ps i ↔
      FieldMatches paddedWidth (fAt fs i) (pAt ps i) (bytesNat (vAt vals i))) := by
    intro i hi
    rw [plainField_iff hf hp hval hi]
    unfold FieldMatches
    rcases hk _ (fAt_mem hi) with e | e <;> rw [e]
  constructor
  · intro hh i hi; exact (key i hi).mp (hh i (h.mem.mpr hi))
  · intro hh i hi; exact (key i (h.mem.mp hi)).mpr (hh i (h.mem.mp hi))

/-! ## Range tables -/

theorem split_of_sorted (t : Nat → Nat) (l : List Nat)
    (h : l.Pairwise (fun a b => t a ≤ t b)) :
    l = l.filter (fun i => t i = 0) ++ l.filter (fun i => t i ≠ 0) := by
  induction l with
  | nil => rfl
  | cons a l ih =>
    rw [List.pairwise_cons] at h
    by_cases ha : t a = 0
    · have e1 : decide (t a = 0) = true := by simp [ha]
      have e2 : decide (t a ≠ 0) = false := by simp [ha]
      rw [List.filter_cons, List.filter_cons, e1, e2]
      simp only [if_true, Bool.false_eq_true, if_false, List.cons_append]
      rw [← ih h.2]
    · have hall : ∀ b ∈ a :: l, t b ≠ 0 := by
        intro b hb
        rcases List.mem_cons.mp hb with rfl | hb
        · exact ha
        · have := h.1 b hb; omega
      rw [List.filter_eq_nil_iff.mpr (by intro b hb; simpa using hall b hb),
        List.filter_eq_self.mpr (by intro b hb; simpa using hall b hb), List.nil_append]

/-- Positions of the range fields, in the order used internally. -/
def rangePos (fs : List KeyF) (kb : KeyB) : List Nat :=
  kb.invMapping.filter (fun i => (fAt fs i).mtype.toNat = 0)

/-- Positions of the other fields. -/
def restPos (fs : List KeyF) (kb : KeyB) : List Nat :=
  kb.invMapping.filter (fun i => (fAt fs i).mtype.toNat ≠ 0)

theorem toNat_zero {t : MType} : t.toNat = 0 ↔ t = .range := by cases t <;> simp [MType.toNat]

theorem KeyB.Ok.split (h : kb.Ok fs) : kb.invMapping = rangePos fs kb ++ restPos fs kb := by
  refine split_of_sorted (fun i => (fAt fs i).mtype.toNat) _ ?_
  refine List.Pairwise.imp_of_mem ?_ h.sorted
  intro a b ha hb hab
  exact sortLe_type hab (h.mem.mp ha) (h.mem.mp hb)

theorem KeyB.Ok.mem_rangePos (h : kb.Ok fs) {i : Nat} :
    i ∈ rangePos fs kb ↔ i < fs.length ∧ (fAt fs i).mtype = .range := by
  simp [rangePos, h.mem, toNat_zero]

theorem KeyB.Ok.mem_restPos (h : kb.Ok fs) {i : Nat} :
    i ∈ restPos fs kb ↔ i < fs.length ∧ (fAt fs i).mtype ≠ .range := by
  simp [restPos, h.mem, toNat_zero]

/-- Stored bytes of one parameter, range tables. -/
def rangeChunk (fs : List KeyF) (ps : List MParam) (i : Nat) : Bytes :=
  if (fAt fs i).mtype = .range then plainChunk fs ps i else ternChunk fs ps i

theorem rangeChunk_length (hf : FieldsOk fs) (hv : ValidOk fs) (hp : ParamsOk fs ps) {i : Nat}
    (hi : i < fs.length) : (rangeChunk fs ps i).length = (fAt fs i).nbytes := by
  unfold rangeChunk
  split
  · exact plainChunk_length hf hp hi
  · exact ternChunk_length hf hv hp hi

theorem KeyB.Ok.range_eq (h : kb.Ok fs) (hf : FieldsOk fs) (hv : ValidOk fs)
    (hp : ParamsOk fs ps) (prio : Int) :
    kb.buildRange ps prio = some (some
      { data := (kb.invMapping.map (rangeChunk fs ps)).flatten
        mask := (kb.invMapping.map (maskChunk ps)).flatten, priority := prio
        rangeWidths := (rangePos fs kb).map (fun i => (fAt fs i).nbytes) }) := by
  obtain ⟨b, hb, hb'⟩ := h.sanityCheck (ps := ps)
  have hbt := hb'.mpr hp
  subst hbt
  have hlst : kb.invMapping.mapM (fun i => ps[i]?) = some (kb.invMapping.map (pAt ps)) :=
    mapM_eq_some_map _ _ _ (fun i hi => pAt_eq (by rw [h.mem] at hi; rw [hp.1]; exact hi))
  have hw : ((kb.invMapping.map (pAt ps)).filter (fun p => p.type = .range)).map
      (fun p => p.key.length) = (rangePos fs kb).map (fun i => (fAt fs i).nbytes) := by
    rw [List.filter_map, List.map_map]
    have : kb.invMapping.filter ((fun p => decide (p.type = .range)) ∘ pAt ps) = rangePos fs kb := by
      unfold rangePos
      apply List.filter_congr
      intro i hi
      rw [h.mem] at hi
      simp only [Function.comp, (ParamsOk.at hp hi).1, toNat_zero]
    rw [this]
    apply List.map_congr_left
    intro i hi
    exact (ParamsOk.at hp (h.mem_rangePos.mp hi).1).2.1
  have hl : ∀ i ∈ kb.invMapping, (dataChunk fs ps i).length = (maskChunk ps i).length := by
    intro i hi
    rw [h.mem] at hi
    rw [dataChunk_length hp hi, (maskChunk_ok hv hp hi).2.1]
  have hfmt : formatTernary (kb.invMapping.map (dataChunk fs ps)).flatten
      (kb.invMapping.map (maskChunk ps)).flatten
        ((rangePos fs kb).map (fun i => (fAt fs i).nbytes)).sum
      = some (kb.invMapping.map fun i => if (fAt fs i).mtype = .range then dataChunk fs ps i else
          andB (dataChunk fs ps i) (maskChunk ps i)).flatten := by
    have hR1 : ((rangePos fs kb).map (dataChunk fs ps)).flatten.length
        = ((rangePos fs kb).map (fun i => (fAt fs i).nbytes)).sum :=
      flatten_map_length _ _ _ (fun i hi => dataChunk_length hp (h.mem_rangePos.mp hi).1)
    have hR2 : ((rangePos fs kb).map (maskChunk ps)).flatten.length
        = ((rangePos fs kb).map (fun i => (fAt fs i).nbytes)).sum :=
      flatten_map_length _ _ _ (fun i hi => (maskChunk_ok hv hp (h.mem_rangePos.mp hi).1).2.1)
    unfold formatTernary
    rw [if_pos ⟨by rw [flatten_map_length _ _ _ hl, flatten_map_length _ _ _ (fun _ _ => rfl)],
      by rw [h.split, List.map_append, List.flatten_append, List.length_append, hR1]; omega⟩]
    congr 1
    conv_lhs => rw [h.split]
    conv_rhs => rw [h.split]
    simp only [List.map_append, List.flatten_append]
    rw [List.take_append_of_le_length (by omega), List.take_of_length_le (by omega),
      List.drop_append_of_le_length (by omega), List.drop_of_length_le (by omega),
      List.drop_append_of_le_length (by omega), List.drop_of_length_le (by omega),
      List.nil_append, List.nil_append, zipWith_flatten]
    · congr 1
      · congr 1
        apply List.map_congr_left
        intro i hi
        rw [if_pos (h.mem_rangePos.mp hi).2]
      · congr 1
        apply List.map_congr_left
        intro i hi
        rw [if_neg (h.mem_restPos.mp hi).2]
    · intro i hi
      exact hl i (h.mem.mpr (h.mem_restPos.mp hi).1)
  have hbig := h.applyBigMask hf (fun i => if (fAt fs i).mtype = .range then dataChunk fs ps i else
    andB (dataChunk fs ps i) (maskChunk ps i))
    (fun i hi => by
      split
      · exact dataChunk_length hp hi
      · exact andB_length (dataChunk_length hp hi) (maskChunk_ok hv hp hi).2.1)
  simp only [KeyB.buildRange, hb, Option.bind_eq_bind, Option.bind_some, Bool.not_true,
    Bool.false_eq_true, if_false, KeyB.toRange, h.fillData hf hp, h.fillMask hv hp, hlst, hw, hfmt,
    Option.pure_def, hbig]
  congr 4
  apply List.map_congr_left
  intro i _
  unfold rangeChunk plainChunk ternChunk
  split <;> rfl

theorem rangeMatches_flatten (R : List Nat) (w : Nat → Nat) (q lo hi : Nat → Bytes)
    (h : ∀ i ∈ R, (q i).length = w i ∧ (lo i).length = w i ∧ (hi i).length = w i)
    (Q L H : Bytes) :
    RangeMatches (R.map w) ((R.map q).flatten ++ Q) ((R.map lo).flatten ++ L)
      ((R.map hi).flatten ++ H) ↔
    (∀ i ∈ R, bytesNat (lo i) ≤ bytesNat (q i) ∧ bytesNat (q i) ≤ bytesNat (hi i)) ∧
      TernMatches Q L H := by
  induction R with
  | nil => simp [RangeMatches]
  | cons a R ih =>
    obtain ⟨h1, h2, h3⟩ := h a (by simp)
    simp only [List.map_cons, List.flatten_cons, RangeMatches, List.append_assoc]
    rw [List.take_append_of_le_length (by omega), List.take_of_length_le (by omega),
      List.take_append_of_le_length (by omega), List.take_of_length_le (by omega),
      List.take_append_of_le_length (by omega), List.take_of_length_le (by omega),
      List.drop_append_of_le_length (by omega), List.drop_of_length_le (by omega),
      List.drop_append_of_le_length (by omega), List.drop_of_length_le (by omega),
      List.drop_append_of_le_length (by omega), List.drop_of_length_le (by omega)]
    simp only [List.nil_append]
    rw [ih (fun i hi => h i (by simp [hi]))]
    simp only [List.mem_cons, forall_eq_or_imp]
    tauto

theorem KeyB.Ok.range_match (h : kb.Ok fs) (hf : FieldsOk fs) (hv : ValidOk fs)
    (hp : ParamsOk fs ps) (hval : ValuesOk fs vals) :
    RangeMatches ((rangePos fs kb).map (fun i => (fAt fs i).nbytes))
      (kb.invMapping.map (keyChunk fs vals)).flatten
      (kb.invMapping.map (rangeChunk fs ps)).flatten (kb.invMapping.map (maskChunk ps)).flatten ↔
    AllMatch paddedWidth fs ps vals := by
  conv_lhs => rw [h.split]
  simp only [List.map_append, List.flatten_append]
  rw [rangeMatches_flatten _ _ _ _ _ (by
    intro i hi
    have hi := (h.mem_rangePos.mp hi).1
    exact ⟨keyChunk_length hf hval hi, rangeChunk_length hf hv hp hi, (maskChunk_ok hv hp hi).2.1⟩)]
  rw [allMatch_iff _ hp hval]
  unfold TernMatches
  rw [zipWith_flatten _ _ _ _ (by
    intro i hi
    have hi := (h.mem_restPos.mp hi).1
    rw [keyChunk_length hf hval hi, (maskChunk_ok hv hp hi).2.1]), flatten_map_inj _ _ _ (by
    intro i hi
    have hi := (h.mem_restPos.mp hi).1
    rw [andB_length (keyChunk_length hf hval hi) (maskChunk_ok hv hp hi).2.1,
      rangeChunk_length hf hv hp hi])]
  have hrange : ∀ i < fs.length, (fAt fs i).mtype = .range →
      ((bytesNat (rangeChunk fs ps i) ≤ bytesNat (keyChunk fs vals i) ∧
        bytesNat (keyChunk fs vals i) ≤ bytesNat (maskChunk ps i)) ↔
      FieldMatches paddedWidth (fAt fs i) (pAt ps i) (bytesNat (vAt vals i))) := by
    intro i hi e
    rw [rangeChunk, if_pos e, plainChunk_nat hf hp hi, keyChunk_nat hf hval hi,
      (maskChunk_ok hv hp hi).2.2.2.1 (.inr e)]
    unfold FieldMatches
    rw [e]
  have hrest : ∀ i < fs.length, (fAt fs i).mtype ≠ .range →
      (andB (keyChunk fs vals i) (maskChunk ps i) = rangeChunk fs ps i ↔
      FieldMatches paddedWidth (fAt fs i) (pAt ps i) (bytesNat (vAt vals i))) := by
    intro i hi e
    rw [rangeChunk, if_neg e]
    exact ternField_iff hf hv hp hval hi e
  constructor
  · rintro ⟨h1, h2⟩ i hi
    by_cases e : (fAt fs i).mtype = .range
    · exact (hrange i hi e).mp (h1 i (h.mem_rangePos.mpr ⟨hi, e⟩))
    · exact (hrest i hi e).mp (h2 i (h.mem_restPos.mpr ⟨hi, e⟩))
  · intro hh
    refine ⟨fun i hi => ?_, fun i hi => ?_⟩
    · obtain ⟨hi, e⟩ := h.mem_rangePos.mp hi
      exact (hrange i hi e).mpr (hh i hi)
    · obtain ⟨hi, e⟩ := h.mem_restPos.mp hi
      exact (hrest i hi e).mpr (hh i hi)

end

end Bm
