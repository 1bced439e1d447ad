import Verif.Lemmas.KeyBytes
import Verif.Lemmas.KeyBuilder

/-! # Lemmas about the key builder: entries, packet keys and reading back -/

namespace Bm
open Spec

theorem nbytes_eq (f : KeyF) : f.nbytes = (f.nbits + 7) / 8 := rfl

/-- The parameter at position `i`. -/
def pAt (ps : List MParam) (i : Nat) : MParam := (ps[i]?).getD { type := .exact, key := [] }

/-- The field bytes at position `i`. -/
def vAt (vs : List Bytes) (i : Nat) : Bytes := (vs[i]?).getD []

theorem pAt_eq {ps : List MParam} {i : Nat} (h : i < ps.length) : ps[i]? = some (pAt ps i) := by
  simp [pAt, h]

theorem vAt_eq {vs : List Bytes} {i : Nat} (h : i < vs.length) : vs[i]? = some (vAt vs i) := by
  simp [vAt, h]

/-- The bytes of a parameter with the first byte masked. -/
def maskB0 (w : Nat) : Bytes → Bytes
  | [] => []
  | b :: r => (b &&& byte0Mask w) :: r

theorem maskB0_length (w : Nat) (k : Bytes) : (maskB0 w k).length = k.length := by
  cases k <;> rfl

theorem maskB0_nat {w : Nat} {k : Bytes} (hw : 1 ≤ w) (hk : k.length = (w + 7) / 8) :
    bytesNat (maskB0 w k) = bytesNat k % 2 ^ w := by
  obtain ⟨b, r, e, h⟩ := bytesNat_byte0 k w hw hk
  rw [e] at h ⊢
  exact h

/-- Byte-wise conjunction. -/
abbrev andB (a b : Bytes) : Bytes := List.zipWith (· &&& ·) a b

theorem andB_length {a b : Bytes} {n : Nat} (ha : a.length = n) (hb : b.length = n) :
    (andB a b).length = n := by simp [ha, hb]

theorem fillData_spec (ps : List MParam) (l : List (Nat × KeyF)) : ∀ (d : Bytes),
    (∀ x ∈ l, x.1 < ps.length ∧ (pAt ps x.1).key ≠ []) →
    fillData ps l d.length d
      = some (d ++ (l.map fun x => maskB0 x.2.nbits (pAt ps x.1).key).flatten) := by
  induction l with
  | nil => intro d _; simp [fillData]
  | cons x l ih =>
    intro d h
    obtain ⟨i, f⟩ := x
    obtain ⟨h1, h2⟩ := h (i, f) (by simp)
    simp only [fillData, pAt_eq h1, Option.bind_eq_bind, Option.bind_some]
    obtain ⟨b, r, hk⟩ := List.exists_cons_of_ne_nil h2
    simp only at hk
    have ha : andAt (d ++ (pAt ps i).key) d.length (byte0Mask f.nbits)
        = some (d ++ maskB0 f.nbits (pAt ps i).key) := by
      unfold andAt
      rw [hk]
      simp [maskB0]
    rw [ha, Option.bind_some]
    have hl : d.length + (pAt ps i).key.length = (d ++ maskB0 f.nbits (pAt ps i).key).length := by
      rw [List.length_append, maskB0_length]
    rw [hl, ih _ (fun y hy => h y (by simp [hy]))]
    simp

section
variable {fs : List KeyF} {kb : KeyB} {ps : List MParam} {vals : List Bytes}

theorem KeyB.Ok.mem (h : kb.Ok fs) {i : Nat} : i ∈ kb.invMapping ↔ i < fs.length := by
  rw [h.perm.mem_iff, List.mem_range]

theorem KeyB.Ok.zip (h : kb.Ok fs) :
    kb.invMapping.zip kb.keyInput = kb.invMapping.map (fun i => (i, fAt fs i)) := by
  rw [h.input]
  generalize kb.invMapping = l
  induction l with
  | nil => rfl
  | cons a l ih => simp [ih]

theorem ParamsOk.at (hp : ParamsOk fs ps) {i : Nat} (hi : i < fs.length) :
    ParamOk (fAt fs i) (pAt ps i) :=
  hp.2 i _ _ (fAt_eq hi) (pAt_eq (by rw [hp.1]; exact hi))

theorem FieldsOk.at (hf : FieldsOk fs) {i : Nat} (hi : i < fs.length) :
    1 ≤ (fAt fs i).nbits ∧ (fAt fs i).maskBytes.length = (fAt fs i).nbytes :=
  ⟨(hf _ (fAt_mem hi)).1, maskBytes_length (hf _ (fAt_mem hi)).2⟩

/-- Stored bytes of one parameter, before the static mask. -/
def dataChunk (fs : List KeyF) (ps : List MParam) (i : Nat) : Bytes :=
  maskB0 (fAt fs i).nbits (pAt ps i).key

/-- Mask bytes of one parameter. -/
def maskChunk (ps : List MParam) (i : Nat) : Bytes := (paramMask (pAt ps i)).getD []

theorem dataChunk_length (hp : ParamsOk fs ps) {i : Nat} (hi : i < fs.length) :
    (dataChunk fs ps i).length = (fAt fs i).nbytes := by
  rw [dataChunk, maskB0_length, (ParamsOk.at hp hi).2.1]; rfl

theorem dataChunk_nat (hf : FieldsOk fs) (hp : ParamsOk fs ps) {i : Nat} (hi : i < fs.length) :
    bytesNat (dataChunk fs ps i) = bytesNat (pAt ps i).key % 2 ^ (fAt fs i).nbits :=
  maskB0_nat (FieldsOk.at hf hi).1 (ParamsOk.at hp hi).2.1

theorem KeyB.Ok.fillData (h : kb.Ok fs) (hf : FieldsOk fs) (hp : ParamsOk fs ps) :
    fillData ps (kb.invMapping.zip kb.keyInput) 0 []
      = some (kb.invMapping.map (dataChunk fs ps)).flatten := by
  have := fillData_spec ps (kb.invMapping.zip kb.keyInput) [] (by
    rw [h.zip]
    intro x hx
    obtain ⟨i, hi, rfl⟩ := List.mem_map.mp hx
    rw [h.mem] at hi
    refine ⟨by rw [hp.1]; exact hi, ?_⟩
    have h1 := (ParamsOk.at hp hi).2.1
    have h2 := (FieldsOk.at hf hi).1
    intro hc
    simp only at hc
    rw [hc] at h1
    simp only [List.length_nil] at h1
    omega)
  rw [List.length_nil] at this
  rw [this, h.zip, List.nil_append, List.map_map]
  rfl

/-- The mask of an acceptable parameter. -/
theorem paramMask_ok {f : KeyF} {p : MParam} (hv : f.mtype = .valid → f.nbits = 8)
    (hp : ParamOk f p) : ∃ m, paramMask p = some m ∧ m.length = f.nbytes ∧
      (f.mtype = .exact ∨ f.mtype = .valid → m = List.replicate f.nbytes 0xff) ∧
      (f.mtype = .ternary ∨ f.mtype = .range → m = p.mask) ∧
      (f.mtype = .lpm → createMask p.prefixLength.toNat f.nbytes = some m ∧
        p.prefixLength.toNat ≤ 8 * f.nbytes) := by
  obtain ⟨h1, h2, h3⟩ := hp
  unfold paramMask
  rw [h1]
  have h2' : p.key.length = f.nbytes := h2
  cases e : f.mtype with
  | range => rw [e] at h3; exact ⟨_, rfl, h3.1, by simp, by simp, by simp⟩
  | ternary => rw [e] at h3; exact ⟨_, rfl, h3, by simp, by simp, by simp⟩
  | exact => exact ⟨_, rfl, by simp [h2'], by simp [h2'], by simp, by simp⟩
  | valid =>
    have := hv e
    have h8 : f.nbytes = 1 := by rw [nbytes_eq, this]
    exact ⟨_, rfl, by simp [h8], by simp [h8], by simp, by simp⟩
  | lpm =>
    rw [e] at h3
    have hle : p.prefixLength.toNat ≤ 8 * f.nbytes := by rw [nbytes_eq]; simp only at h3; omega
    obtain ⟨m, hm, hl, _⟩ := createMask_bits p.prefixLength.toNat f.nbytes hle
    refine ⟨m, by simp only [h2', hm], hl, by simp, by simp, fun _ => ⟨hm, hle⟩⟩

/-- Validity matches are declared with eight bits. -/
def ValidOk (fs : List KeyF) : Prop := ∀ f ∈ fs, f.mtype = .valid → f.nbits = 8

theorem maskChunk_ok (hv : ValidOk fs) (hp : ParamsOk fs ps) {i : Nat} (hi : i < fs.length) :
    paramMask (pAt ps i) = some (maskChunk ps i) ∧
      (maskChunk ps i).length = (fAt fs i).nbytes ∧
      ((fAt fs i).mtype = .exact ∨ (fAt fs i).mtype = .valid →
        maskChunk ps i = List.replicate (fAt fs i).nbytes 0xff) ∧
      ((fAt fs i).mtype = .ternary ∨ (fAt fs i).mtype = .range → maskChunk ps i = (pAt ps i).mask) ∧
      ((fAt fs i).mtype = .lpm →
        createMask (pAt ps i).prefixLength.toNat (fAt fs i).nbytes = some (maskChunk ps i) ∧
        (pAt ps i).prefixLength.toNat ≤ 8 * (fAt fs i).nbytes) := by
  obtain ⟨m, e, h⟩ := paramMask_ok (hv _ (fAt_mem hi)) (ParamsOk.at hp hi)
  have : maskChunk ps i = m := by simp [maskChunk, e]
  rw [this]
  exact ⟨e, h⟩

theorem fillMask_spec (ps : List MParam) (l : List Nat)
    (h : ∀ i ∈ l, i < ps.length ∧ paramMask (pAt ps i) = some (maskChunk ps i)) :
    fillMask ps l = some (l.map (maskChunk ps)).flatten := by
  induction l with
  | nil => rfl
  | cons i l ih =>
    obtain ⟨h1, h2⟩ := h i (by simp)
    simp [fillMask, pAt_eq h1, h2, ih (fun j hj => h j (by simp [hj]))]

theorem KeyB.Ok.fillMask (h : kb.Ok fs) (hv : ValidOk fs) (hp : ParamsOk fs ps) :
    fillMask ps kb.invMapping = some (kb.invMapping.map (maskChunk ps)).flatten :=
  fillMask_spec ps _ (fun i hi => by
    rw [h.mem] at hi
    exact ⟨by rw [hp.1]; exact hi, (maskChunk_ok hv hp hi).1⟩)

/-- Applying the static masks acts field by field. -/
theorem KeyB.Ok.applyBigMask (h : kb.Ok fs) (hf : FieldsOk fs) (c : Nat → Bytes)
    (hc : ∀ i < fs.length, (c i).length = (fAt fs i).nbytes) :
    kb.applyBigMask (kb.invMapping.map c).flatten
      = some (kb.invMapping.map (fun i => andB (c i) (fAt fs i).maskBytes)).flatten := by
  have hl : ∀ i ∈ kb.invMapping, (c i).length = (fAt fs i).maskBytes.length := by
    intro i hi
    rw [h.mem] at hi
    rw [hc i hi, (FieldsOk.at hf hi).2]
  unfold KeyB.applyBigMask
  split
  · unfold applyMask
    rw [h.big, if_pos, zipWith_flatten _ _ _ _ hl]
    rw [flatten_map_length _ _ _ hl, flatten_map_length _ _ _ (fun _ _ => rfl)]
  · rename_i hb
    rw [h.hasBig] at hb
    simp only [Bool.not_eq_true, List.any_eq_false, Option.isSome_iff_ne_none, ne_eq,
      not_not] at hb
    congr 2
    apply List.map_congr_left
    intro i hi
    rw [h.mem] at hi
    have : (fAt fs i).maskBytes = List.replicate (fAt fs i).nbytes 0xff := by
      simp [KeyF.maskBytes, hb _ (fAt_mem hi)]
    rw [this, andB, and_ff _ _ (hc i hi)]

theorem underMask_nat {f : KeyF} {c : Bytes} (hm : f.maskBytes.length = f.nbytes)
    (hc : c.length = f.nbytes) :
    bytesNat (andB c f.maskBytes) = underMask f (bytesNat c) := by
  unfold underMask
  cases e : f.smask with
  | none =>
    have : f.maskBytes = List.replicate f.nbytes 0xff := by simp [KeyF.maskBytes, e]
    rw [this, andB, and_ff _ _ hc]
  | some m =>
    have : f.maskBytes = m := by simp [KeyF.maskBytes, e]
    rw [this] at hm ⊢
    rw [andB, bytesNat_and _ _ (by rw [hc, hm])]

theorem ValuesOk.at (hv : ValuesOk fs vals) {i : Nat} (hi : i < fs.length) :
    (vAt vals i).length = (fAt fs i).nbytes ∧ bytesNat (vAt vals i) < 2 ^ (fAt fs i).nbits :=
  hv.2 i _ _ (fAt_eq hi) (vAt_eq (by rw [hv.1]; exact hi))

/-- Bytes of one packet field in the lookup key. -/
def keyChunk (fs : List KeyF) (vals : List Bytes) (i : Nat) : Bytes :=
  andB (vAt vals i) (fAt fs i).maskBytes

theorem KeyB.Ok.packetKey (h : kb.Ok fs) (hf : FieldsOk fs) (hv : ValuesOk fs vals) :
    kb.packetKey vals = some (kb.invMapping.map (keyChunk fs vals)).flatten := by
  unfold KeyB.packetKey
  rw [mapM_eq_some_map _ (vAt vals) _ (fun i hi => vAt_eq (by
    rw [h.mem] at hi; rw [hv.1]; exact hi))]
  simp only [Option.bind_eq_bind, Option.bind_some]
  exact h.applyBigMask hf _ (fun i hi => (ValuesOk.at hv hi).1)

theorem keyChunk_length (hf : FieldsOk fs) (hv : ValuesOk fs vals) {i : Nat}
    (hi : i < fs.length) : (keyChunk fs vals i).length = (fAt fs i).nbytes :=
  andB_length (ValuesOk.at hv hi).1 (FieldsOk.at hf hi).2

theorem keyChunk_nat (hf : FieldsOk fs) (hv : ValuesOk fs vals) {i : Nat} (hi : i < fs.length) :
    bytesNat (keyChunk fs vals i) = underMask (fAt fs i) (bytesNat (vAt vals i)) :=
  underMask_nat (FieldsOk.at hf hi).2 (ValuesOk.at hv hi).1

/-! ## The sanity check -/

theorem paramOk_iff (f : KeyF) (p : MParam) : paramOk f p = true ↔ ParamOk f p := by
  unfold paramOk ParamOk
  simp only [Bool.and_eq_true, decide_eq_true_eq]
  constructor
  · rintro ⟨⟨h1, h2⟩, h3⟩
    refine ⟨h1, h2, ?_⟩
    rw [← h1]
    cases e : p.type with
    | range =>
      rw [e] at h3
      simp only [Bool.and_eq_true, decide_eq_true_eq] at h3
      refine ⟨h3.1, ?_⟩
      have h4 := h3.2
      rw [memcmpFrom_spec _ _ _ _ (by omega) (by omega)] at h4
      simp only [List.drop_zero] at h4
      rw [List.take_of_length_le (by omega), List.take_of_length_le (by omega)] at h4
      by_contra hc
      rw [Nat.compare_eq_gt.2 (by omega)] at h4
      simp at h4
    | valid => trivial
    | exact => trivial
    | lpm => rw [e] at h3; simpa using h3
    | ternary => rw [e] at h3; simp only [decide_eq_true_eq] at h3; exact h3
  · rintro ⟨h1, h2, h3⟩
    refine ⟨⟨h1, h2⟩, ?_⟩
    rw [← h1] at h3
    cases e : p.type with
    | range =>
      rw [e] at h3
      simp only at h3
      simp only [Bool.and_eq_true, decide_eq_true_eq]
      refine ⟨h3.1, ?_⟩
      have h2' : p.key.length = f.nbytes := h2
      have h3' : p.mask.length = f.nbytes := h3.1
      rw [memcmpFrom_spec _ _ _ _ (by omega) (by omega)]
      simp only [List.drop_zero]
      rw [List.take_of_length_le (by omega), List.take_of_length_le (by omega)]
      rcases Nat.lt_or_ge (bytesNat p.key) (bytesNat p.mask) with hlt | hge
      · rw [Nat.compare_eq_lt.2 hlt]
      · rw [Nat.compare_eq_eq.2 (by omega)]
    | valid => rfl
    | exact => rfl
    | lpm => rw [e] at h3; simpa using h3
    | ternary => rw [e] at h3; simp only [decide_eq_true_eq]; exact h3

theorem KeyB.Ok.sanityCheck (h : kb.Ok fs) :
    ∃ b, kb.sanityCheck ps = some b ∧ (b = true ↔ ParamsOk fs ps) := by
  unfold KeyB.sanityCheck
  have hl : kb.keyInput.length = fs.length := by
    rw [h.input, List.length_map, h.perm.length_eq, List.length_range]
  rw [hl]
  split
  · rename_i hne
    exact ⟨false, rfl, by simp only [Bool.false_eq_true, false_iff]; exact fun hp => hne hp.1⟩
  · rename_i heq
    simp only [ne_eq, not_not] at heq
    rw [h.zip]
    rw [mapM_eq_some_map _ (fun x => paramOk x.2 (pAt ps x.1)) _ (by
      intro x hx
      obtain ⟨i, hi, rfl⟩ := List.mem_map.mp hx
      rw [h.mem] at hi
      simp only
      rw [pAt_eq (by omega)]; rfl)]
    refine ⟨_, rfl, ?_⟩
    rw [List.map_map, List.all_eq_true]
    constructor
    · intro ha
      refine ⟨heq, ?_⟩
      intro i f p h1 h2
      have hi : i < fs.length := by
        by_contra hc
        rw [List.getElem?_eq_none (by omega)] at h1; simp at h1
      have := ha (paramOk (fAt fs i) (pAt ps i)) (List.mem_map.mpr ⟨i, h.mem.mpr hi, rfl⟩)
      rw [fAt_eq hi] at h1
      rw [pAt_eq (by omega)] at h2
      simp only [Option.some.injEq] at h1 h2
      subst h1; subst h2
      exact (paramOk_iff _ _).mp this
    · intro hp b hb
      obtain ⟨i, hi, rfl⟩ := List.mem_map.mp hb
      rw [h.mem] at hi
      exact (paramOk_iff _ _).mpr (ParamsOk.at hp hi)

/-! ## Reading back -/

theorem KeyB.Ok.slice (h : kb.Ok fs) (c : Nat → Bytes)
    (hc : ∀ i < fs.length, (c i).length = (fAt fs i).nbytes) {i j o : Nat}
    (hi : i < fs.length) (hj : kb.keyMapping[i]? = some j) (ho : kb.keyOffsets[i]? = some o) :
    Bm.slice (kb.invMapping.map c).flatten o (fAt fs i).nbytes = some (c i) := by
  obtain ⟨j', h1, h2⟩ := h.km i hi
  rw [hj] at h1
  simp only [Option.some.injEq] at h1
  subst h1
  rw [h.off i j hj] at ho
  simp only [Option.some.injEq] at ho
  subst ho
  have : ((kb.keyInput.take j).map KeyF.nbytes).sum
      = (((kb.invMapping.map c).take j).map List.length).sum := by
    rw [h.input]
    simp only [List.map_take, List.map_map]
    congr 2
    apply List.map_congr_left
    intro i hi
    exact (hc i (h.mem.mp hi)).symm
  rw [this, ← hc i hi]
  exact slice_flatten _ _ _ (by rw [List.getElem?_map, h2]; rfl)

/-- A loop over the declared fields succeeds with `r` if it does field by field. -/
theorem KeyB.Ok.slices (h : kb.Ok fs) {α : Type} (g : KeyF → Nat → Option α) (r : Nat → α)
    (hg : ∀ (i j o : Nat), i < fs.length → kb.keyMapping[i]? = some j →
      kb.keyOffsets[i]? = some o → g (fAt fs i) o = some (r i)) :
    kb.slices g = some ((List.range fs.length).map r) := by
  unfold KeyB.slices
  rw [h.kmLen]
  refine mapM_eq_some_map _ _ _ ?_
  intro i hi
  rw [List.mem_range] at hi
  obtain ⟨j, h1, h2⟩ := h.km i hi
  have h3 : kb.keyInput[j]? = some (fAt fs i) := by rw [h.input, List.getElem?_map, h2]; rfl
  have h4 := h.off i j h1
  simp only [h1, h3, h4, Option.bind_eq_bind, Option.bind_some]
  exact hg i j _ hi h1 h4

end

end Bm
