import Verif.Model.Thrift
import Verif.Props.KeyBuilder
import Verif.Lemmas.PiEntry

/-! # Lemmas about the keys of Thrift requests -/

namespace Bm.Thrift
open Bm.Spec Bm.Thrift.Spec

theorem wf_fieldsOk {d : Decl} (w : Decl.WF d) : FieldsOk d.fs := fun f hf =>
  ⟨(w.fields f hf).1, fun m hm => (w.fields f hf).2.1 m hm⟩

theorem wf_validOk {d : Decl} (w : Decl.WF d) : ValidOk d.fs := fun f hf => (w.fields f hf).2.2

/-- `SameKey` by positions. -/
theorem sameKey_iff {d : Decl} {a b : List MParam × Int} (ha : ParamsOk d.fs a.1) (hb : ParamsOk d.fs b.1) :
    SameKey d a b ↔ (∀ i < d.fs.length, SameField paddedWidth (fAt d.fs i) (pAt a.1 i) (pAt b.1 i)) ∧
      (Kind.hasPrio d.kind = true → a.2 = b.2) := by
  refine and_congr ⟨fun h i hi => ?_, fun h i f p p' h1 h2 h3 => ?_⟩ Iff.rfl
  · exact h i _ _ _ (fAt_eq hi) (pAt_eq (by rw [ha.1]; exact hi)) (pAt_eq (by rw [hb.1]; exact hi))
  · have hi : i < d.fs.length := by
      by_contra hc
      rw [List.getElem?_eq_none (by omega)] at h1; simp at h1
    rw [fAt_eq hi] at h1
    rw [pAt_eq (by rw [ha.1]; exact hi)] at h2
    rw [pAt_eq (by rw [hb.1]; exact hi)] at h3
    simp only [Option.some.injEq] at h1 h2 h3
    subst h1; subst h2; subst h3
    exact h i hi

section
variable {fs : List KeyF} {kb : KeyB} {ps ps' : List MParam}

/-- Concatenations of chunks are equal when the chunks are. -/
theorem chunks_eq (h : kb.Ok fs) (a b : Nat → Bytes)
    (hl : ∀ i < fs.length, (a i).length = (fAt fs i).nbytes) (hl' : ∀ i < fs.length, (b i).length = (fAt fs i).nbytes) :
    (kb.invMapping.map a).flatten = (kb.invMapping.map b).flatten ↔ ∀ i < fs.length, bytesNat (a i) = bytesNat (b i) := by
  constructor
  · intro e i hi
    have := (flatten_map_inj a b kb.invMapping (fun i hi => by
      rw [hl i (h.mem.1 hi), hl' i (h.mem.1 hi)])).1 e
    rw [this i (h.mem.2 hi)]
  · intro e
    congr 1
    apply List.map_congr_left
    intro i hi
    exact bytesNat_inj (by rw [hl i (h.mem.1 hi), hl' i (h.mem.1 hi)]) (e i (h.mem.1 hi))

/-- The chunks of an entry are the values of a packet. -/
theorem plain_values (hf : FieldsOk fs) (hp : ParamsOk fs ps) :
    ValuesOk fs ((List.range fs.length).map (plainChunk fs ps)) := by
  refine ⟨by simp, ?_⟩
  intro i f v h1 h2
  have hi : i < fs.length := by
    by_contra hc
    rw [List.getElem?_eq_none (by omega)] at h1; simp at h1
  rw [fAt_eq hi] at h1
  rw [List.getElem?_map, List.getElem?_range hi] at h2
  simp only [Option.some.injEq, Option.map_some] at h1 h2
  subst h1; subst h2
  refine ⟨plainChunk_length hf hp hi, ?_⟩
  rw [plainChunk_nat hf hp hi]
  unfold paramValue
  have h1 := underMask_le (fAt fs i) (bytesNat (pAt ps i).key % 2 ^ (fAt fs i).nbits)
  have h2 := Nat.mod_lt (bytesNat (pAt ps i).key) (Nat.two_pow_pos (fAt fs i).nbits)
  omega

theorem vAt_plain {i : Nat} (hi : i < fs.length) :
    vAt ((List.range fs.length).map (plainChunk fs ps)) i = plainChunk fs ps i := by
  have : ((List.range fs.length).map (plainChunk fs ps))[i]? = some (plainChunk fs ps i) := by
    rw [List.getElem?_map, List.getElem?_range hi]; rfl
  rw [vAt_eq (by simpa using hi)] at this
  exact Option.some.inj this

theorem underMask_paramValue (f : KeyF) (p : MParam) : underMask f (paramValue f p) = paramValue f p := by
  unfold paramValue; exact underMask_idem _ _

/-- The key of such a packet. -/
theorem plain_packet (h : kb.Ok fs) (hf : FieldsOk fs) (hp : ParamsOk fs ps) :
    (kb.invMapping.map (keyChunk fs ((List.range fs.length).map (plainChunk fs ps)))).flatten =
      (kb.invMapping.map (plainChunk fs ps)).flatten := by
  rw [chunks_eq h _ _ (fun i hi => keyChunk_length hf (plain_values hf hp) hi) (fun i hi => plainChunk_length hf hp hi)]
  intro i hi
  rw [keyChunk_nat hf (plain_values hf hp) hi, vAt_plain hi, plainChunk_nat hf hp hi, underMask_paramValue]

theorem exact_same (h : kb.Ok fs) (hf : FieldsOk fs) (hp : ParamsOk fs ps) (hp' : ParamsOk fs ps')
    (hk : ∀ f ∈ fs, f.mtype = .exact ∨ f.mtype = .valid) :
    (kb.invMapping.map (plainChunk fs ps)).flatten = (kb.invMapping.map (plainChunk fs ps')).flatten ↔
      ∀ i < fs.length, SameField paddedWidth (fAt fs i) (pAt ps i) (pAt ps' i) := by
  rw [chunks_eq h _ _ (fun i hi => plainChunk_length hf hp hi) (fun i hi => plainChunk_length hf hp' hi)]
  refine forall₂_congr fun i hi => ?_
  rw [plainChunk_nat hf hp hi, plainChunk_nat hf hp' hi]
  unfold SameField
  rcases hk _ (fAt_mem hi) with e | e <;> rw [e]

theorem lpm_same (h : kb.Ok fs) (hf : FieldsOk fs) (hp : ParamsOk fs ps) (hp' : ParamsOk fs ps')
    {l : Nat} (hl : LpmLayout fs l) (n : Nat) :
    (lpmSpec n LpmKey.data LpmKey.prefixLength).same
      { data := (kb.invMapping.map (plainChunk fs ps)).flatten, prefixLength := lpmLen fs kb ps l }
      { data := (kb.invMapping.map (plainChunk fs ps')).flatten, prefixLength := lpmLen fs kb ps' l } ↔
      ∀ i < fs.length, SameField paddedWidth (fAt fs i) (pAt ps i) (pAt ps' i) := by
  have hv' := plain_values hf hp'
  have hm := h.lpm_match hf hp hv' hl
  rw [plain_packet h hf hp', allMatch_iff _ hp hv'] at hm
  have q1 := (ParamsOk.at hp hl.1).2.2
  have q2 := (ParamsOk.at hp' hl.1).2.2
  rw [hl.2.1] at q1 q2
  simp only at q1 q2
  have hlen : lpmLen fs kb ps l = lpmLen fs kb ps' l ↔ (pAt ps l).prefixLength = (pAt ps' l).prefixLength := by
    unfold lpmLen
    omega
  have hfield : ∀ i < fs.length, (SameField paddedWidth (fAt fs i) (pAt ps i) (pAt ps' i) ↔
      FieldMatches paddedWidth (fAt fs i) (pAt ps i) (bytesNat (vAt ((List.range fs.length).map (plainChunk fs ps')) i)) ∧
      (i = l → (pAt ps l).prefixLength = (pAt ps' l).prefixLength)) := by
    intro i hi
    rw [vAt_plain hi, plainChunk_nat hf hp' hi]
    unfold SameField FieldMatches
    rw [underMask_paramValue]
    by_cases hil : i = l
    · subst hil
      rw [hl.2.1]
      simp only [forall_const, PrefixAgrees]
      exact ⟨fun ⟨a, b⟩ => ⟨b.symm, a⟩, fun ⟨a, b⟩ => ⟨b, a.symm⟩⟩
    · rcases hl.2.2 i hi hil with e | e <;> rw [e] <;>
        exact ⟨fun a => ⟨a.symm, fun b => absurd b hil⟩, fun a => a.1.symm⟩
  show lpmLen fs kb ps l = lpmLen fs kb ps' l ∧ _ ↔ _
  rw [forall₂_congr hfield]
  constructor
  · rintro ⟨e1, e2⟩ i hi
    refine ⟨hm.1 ?_ i hi, fun _ => hlen.1 e1⟩
    simp only at e2 ⊢
    rw [e2, e1]
  · intro H
    have e1 := hlen.2 ((H l hl.1).2 rfl)
    refine ⟨e1, ?_⟩
    have := hm.2 (fun i hi => (H i hi).1)
    simp only at this ⊢
    rw [this, e1]

theorem lpm_less (_h : kb.Ok fs) (hp : ParamsOk fs ps) (hp' : ParamsOk fs ps') {l : Nat} (hl : LpmLayout fs l) :
    (lpmLen fs kb ps l : Int) - lpmLen fs kb ps' l = (pAt ps l).prefixLength - (pAt ps' l).prefixLength := by
  have q1 := (ParamsOk.at hp hl.1).2.2
  have q2 := (ParamsOk.at hp' hl.1).2.2
  rw [hl.2.1] at q1 q2
  simp only at q1 q2
  unfold lpmLen
  omega

theorem mask_same (hv : ValidOk fs) (hp : ParamsOk fs ps) (hp' : ParamsOk fs ps') {i : Nat} (hi : i < fs.length)
    (hr : (fAt fs i).mtype ≠ .range) :
    (bytesNat (maskChunk ps i) = bytesNat (maskChunk ps' i) ∧
      paramValue (fAt fs i) (pAt ps i) &&& bytesNat (maskChunk ps i) =
        paramValue (fAt fs i) (pAt ps' i) &&& bytesNat (maskChunk ps' i)) ↔
      SameField paddedWidth (fAt fs i) (pAt ps i) (pAt ps' i) := by
  obtain ⟨hma, hm, m1, m2, m3⟩ := maskChunk_ok hv hp hi
  obtain ⟨hma', hm', m1', m2', m3'⟩ := maskChunk_ok hv hp' hi
  have hP := paramValue_lt (fAt fs i) (pAt ps i)
  have hP' := paramValue_lt (fAt fs i) (pAt ps' i)
  unfold SameField
  cases e : (fAt fs i).mtype with
  | range => exact absurd e hr
  | exact =>
    rw [m1 (.inl e), m1' (.inl e), and_replicate_ff hP, and_replicate_ff hP']
    simp
  | valid =>
    rw [m1 (.inr e), m1' (.inr e), and_replicate_ff hP, and_replicate_ff hP']
    simp
  | ternary => simp only; rw [m2 (.inl e), m2' (.inl e)]
  | lpm =>
    simp only
    obtain ⟨c1, l1⟩ := m3 e
    obtain ⟨c2, l2⟩ := m3' e
    have q1 := (ParamsOk.at hp hi).2.2
    have q2 := (ParamsOk.at hp' hi).2.2
    rw [e] at q1 q2
    simp only at q1 q2
    have hmask : bytesNat (maskChunk ps i) = bytesNat (maskChunk ps' i) ↔
        (pAt ps i).prefixLength = (pAt ps' i).prefixLength := by
      constructor
      · intro hb
        have hb' := bytesNat_inj (by rw [hm, hm']) hb
        have p1 := prefLen_createMask l1 c1
        have p2 := prefLen_createMask l2 c2
        rw [hb', p2] at p1
        omega
      · intro hb
        rw [hb] at c1
        rw [c1] at c2
        rw [Option.some.inj c2]
    rw [hmask]
    refine and_congr_right fun hpl => ?_
    rw [and_maskChunk_lpm hv hp hi e hP, and_maskChunk_lpm hv hp' hi e hP', hpl]
    unfold PrefixAgrees
    exact Nat.mul_left_inj (by positivity)

theorem tern_same (h : kb.Ok fs) (hf : FieldsOk fs) (hv : ValidOk fs) (hp : ParamsOk fs ps) (hp' : ParamsOk fs ps')
    (hk : ∀ f ∈ fs, f.mtype ≠ .range) :
    ((kb.invMapping.map (ternChunk fs ps)).flatten = (kb.invMapping.map (ternChunk fs ps')).flatten ∧
      (kb.invMapping.map (maskChunk ps)).flatten = (kb.invMapping.map (maskChunk ps')).flatten) ↔
      ∀ i < fs.length, SameField paddedWidth (fAt fs i) (pAt ps i) (pAt ps' i) := by
  rw [chunks_eq h _ _ (fun i hi => ternChunk_length hf hv hp hi) (fun i hi => ternChunk_length hf hv hp' hi),
    chunks_eq h _ _ (fun i hi => (maskChunk_ok hv hp hi).2.1) (fun i hi => (maskChunk_ok hv hp' hi).2.1)]
  rw [and_comm, ← forall₂_and]
  refine forall₂_congr fun i hi => ?_
  rw [ternChunk_nat hf hv hp hi, ternChunk_nat hf hv hp' hi]
  exact mask_same hv hp hp' hi (hk _ (fAt_mem hi))

theorem range_same (h : kb.Ok fs) (hf : FieldsOk fs) (hv : ValidOk fs) (hp : ParamsOk fs ps) (hp' : ParamsOk fs ps') :
    ((kb.invMapping.map (rangeChunk fs ps)).flatten = (kb.invMapping.map (rangeChunk fs ps')).flatten ∧
      (kb.invMapping.map (maskChunk ps)).flatten = (kb.invMapping.map (maskChunk ps')).flatten) ↔
      ∀ i < fs.length, SameField paddedWidth (fAt fs i) (pAt ps i) (pAt ps' i) := by
  rw [chunks_eq h _ _ (fun i hi => rangeChunk_length hf hv hp hi) (fun i hi => rangeChunk_length hf hv hp' hi),
    chunks_eq h _ _ (fun i hi => (maskChunk_ok hv hp hi).2.1) (fun i hi => (maskChunk_ok hv hp' hi).2.1)]
  rw [and_comm, ← forall₂_and]
  refine forall₂_congr fun i hi => ?_
  by_cases hr : (fAt fs i).mtype = .range
  · rw [rangeChunk, rangeChunk, if_pos hr, if_pos hr, plainChunk_nat hf hp hi, plainChunk_nat hf hp' hi,
      (maskChunk_ok hv hp hi).2.2.2.1 (.inr hr), (maskChunk_ok hv hp' hi).2.2.2.1 (.inr hr)]
    unfold SameField
    rw [hr]
    exact and_comm
  · rw [rangeChunk, rangeChunk, if_neg hr, if_neg hr, ternChunk_nat hf hv hp hi, ternChunk_nat hf hv hp' hi]
    exact mask_same hv hp hp' hi hr

end

/-! ## What the requests need to know about keys -/

/-- Facts about the keys of a declared table. -/
structure KeyLaws (d : Decl) (kb : KeyB) : Prop where
  bad : ∀ ps prio, ¬ ParamsOk d.fs ps → buildKey d.kind kb kb.nbytesKey ps prio = some none
  good : ∀ ps prio, ParamsOk d.fs ps → ∃ key, buildKey d.kind kb kb.nbytesKey ps prio = some (some key) ∧
    (d.kind.tk kb.nbytesKey).spec.okK key ∧ ∃ ps', backKey d.kind kb kb.nbytesKey key =
      some (ps', if Kind.hasPrio d.kind then prio else -1) ∧ BackOk (Kind.keepLow d.kind) d.fs ps ps'
  query : ∀ vals, ValuesOk d.fs vals → ∃ q, kb.packetKey vals = some q ∧ (d.kind.tk kb.nbytesKey).spec.okQ q ∧
    ∀ ps prio key, ParamsOk d.fs ps → buildKey d.kind kb kb.nbytesKey ps prio = some (some key) →
      ((d.kind.tk kb.nbytesKey).spec.m q key ↔ AllMatch paddedWidth d.fs ps vals)
  same : ∀ a b ka kc, ParamsOk d.fs a.1 → ParamsOk d.fs b.1 →
    buildKey d.kind kb kb.nbytesKey a.1 a.2 = some (some ka) → buildKey d.kind kb kb.nbytesKey b.1 b.2 = some (some kc) →
    ((d.kind.tk kb.nbytesKey).spec.same ka kc ↔ SameKey d a b)
  prio : ∀ a b ka kc, ParamsOk d.fs a.1 → ParamsOk d.fs b.1 →
    buildKey d.kind kb kb.nbytesKey a.1 a.2 = some (some ka) → buildKey d.kind kb kb.nbytesKey b.1 b.2 = some (some kc) →
    (d.kind.tk kb.nbytesKey).spec.prio ka - (d.kind.tk kb.nbytesKey).spec.prio kc = rank d a - rank d b
  empty : kb.nbytesKey = 0 ↔ d.fs = []

theorem lpmLayout_of {d : Decl} (hk : d.kind = .lpm) (h : FieldKinds d) : ∃ l, LpmLayout d.fs l := by
  unfold FieldKinds at h
  rw [hk] at h
  obtain ⟨l, f, h1, h2, h3⟩ := h
  have hl : l < d.fs.length := by
    by_contra hc
    rw [List.getElem?_eq_none (by omega)] at h1; simp at h1
  rw [fAt_eq hl] at h1
  cases h1
  exact ⟨l, hl, h2, fun i hi hil => h3 i _ (fAt_eq hi) hil⟩

theorem prefixOf_eq {fs : List KeyF} {ps : List MParam} {l : Nat} (hl : LpmLayout fs l) (hp : ParamsOk fs ps) :
    prefixOf fs ps = (pAt ps l).prefixLength := by
  have hlen := hp.1
  have hz : (fs.zip ps)[l]? = some (fAt fs l, pAt ps l) := by
    rw [List.getElem?_zip_eq_some]
    exact ⟨fAt_eq hl.1, pAt_eq (by rw [hlen]; exact hl.1)⟩
  have hf : (fs.zip ps).find? (fun x => decide (x.1.mtype = .lpm)) = some (fAt fs l, pAt ps l) := by
    rw [List.find?_eq_some_iff_getElem]
    obtain ⟨h1, h2⟩ := List.getElem?_eq_some_iff.1 hz
    refine ⟨by simpa using hl.2.1, l, h1, h2, ?_⟩
    intro j hj
    have hjl : j < fs.length := by have := hl.1; omega
    have hg : (fs.zip ps)[j] = (fAt fs j, pAt ps j) := by
      have : (fs.zip ps)[j]? = some (fAt fs j, pAt ps j) := by
        rw [List.getElem?_zip_eq_some]
        exact ⟨fAt_eq hjl, pAt_eq (by rw [hlen]; exact hjl)⟩
      exact (List.getElem?_eq_some_iff.1 this).2
    rw [hg]
    rcases hl.2.2 j hjl (by omega) with e | e <;> simp [e]
  unfold prefixOf
  rw [hf]

theorem empty_iff {d : Decl} {kb : KeyB} (w : Decl.WF d) (h : kb.Ok d.fs) : kb.nbytesKey = 0 ↔ d.fs = [] := by
  rw [h.nbytes]
  constructor
  · intro hs
    by_contra hne
    have h0 : 0 < d.fs.length := by
      cases e : d.fs with
      | nil => exact absurd e hne
      | cons f l => simp
    have hz : (fAt d.fs 0).nbytes = 0 := by
      rw [List.sum_eq_zero_iff_forall_eq_nat] at hs
      exact hs _ (List.mem_map.2 ⟨0, h.mem.2 h0, rfl⟩)
    have := (w.fields _ (fAt_mem h0)).1
    rw [nbytes_eq] at hz
    omega
  · intro e
    have hp := h.perm
    rw [e] at hp
    simp only [List.length_nil, List.range_zero, List.perm_nil] at hp
    rw [hp]; rfl

theorem keyLaws {d : Decl} (w : Decl.WF d) {kb : KeyB} (e : KeyB.build d.fs = some kb) : KeyLaws d kb := by
  have hf := wf_fieldsOk w
  have hv := wf_validOk w
  obtain ⟨kb', e', h⟩ := KeyB.build_ok d.fs hf
  rw [e] at e'
  cases e'
  have hk := w.kinds
  obtain ⟨kb', e', hbad⟩ := C10_build_and_refuse d.fs hf
  rw [e] at e'
  cases e'
  have hem := empty_iff w h
  obtain ⟨kind, fs, size, names, prog⟩ := d
  simp only at *
  cases kind with
  | exact =>
    refine ⟨fun ps prio hn => (hbad ps prio hn).1, fun ps prio hp => ?_, fun vals hval => ?_, ?_, ?_, hem⟩
    · obtain ⟨kb', key, ps', e1, e2, e3, e4⟩ := C10_exact fs hf hk ps hp
      rw [e] at e1; cases e1
      have := h.exact_eq hf hp
      rw [e2] at this; cases this
      exact ⟨_, e2, flatten_length h _ (fun i hi => plainChunk_length hf hp hi), ps', by simp [backKey, e3, Kind.hasPrio], e4⟩
    · refine ⟨_, h.packetKey hf hval, flatten_length h _ (fun i hi => keyChunk_length hf hval hi), ?_⟩
      intro ps prio key hp ek
      have := h.exact_eq hf hp
      rw [show kb.buildExact ps = some (some key) from ek] at this; cases this
      exact h.exact_match hf hp hval hk
    · intro a b ka kc ha hb ea eb
      have h1 := h.exact_eq hf ha
      rw [show kb.buildExact a.1 = some (some ka) from ea] at h1; cases h1
      have h1 := h.exact_eq hf hb
      rw [show kb.buildExact b.1 = some (some kc) from eb] at h1; cases h1
      rw [sameKey_iff ha hb, ← exact_same h hf ha hb hk]
      simp [Kind.hasPrio, TableKind.spec, exactSpec]
    · intros; simp [TableKind.spec, exactSpec, rank]
  | lpm =>
    obtain ⟨l, hl⟩ := lpmLayout_of rfl hk
    refine ⟨fun ps prio hn => (hbad ps prio hn).2.1, fun ps prio hp => ?_, fun vals hval => ?_, ?_, ?_, hem⟩
    · obtain ⟨kb', key, ps', e1, e2, e3, e4⟩ := C10_lpm fs hf hv l hl ps hp
      rw [e] at e1; cases e1
      have := h.lpm_eq hf hv hp hl
      rw [e2] at this; cases this
      exact ⟨_, e2, ⟨flatten_length h _ (fun i hi => plainChunk_length hf hp hi), h.lpm_len_le hp hl⟩, ps',
        by simp [backKey, e3, Kind.hasPrio], e4⟩
    · refine ⟨_, h.packetKey hf hval, flatten_length h _ (fun i hi => keyChunk_length hf hval hi), ?_⟩
      intro ps prio key hp ek
      have := h.lpm_eq hf hv hp hl
      rw [show kb.buildLpm ps = some (some key) from ek] at this; cases this
      exact h.lpm_match hf hp hval hl
    · intro a b ka kc ha hb ea eb
      have h1 := h.lpm_eq hf hv ha hl
      rw [show kb.buildLpm a.1 = some (some ka) from ea] at h1; cases h1
      have h1 := h.lpm_eq hf hv hb hl
      rw [show kb.buildLpm b.1 = some (some kc) from eb] at h1; cases h1
      rw [sameKey_iff ha hb]
      have := lpm_same h hf ha hb hl kb.nbytesKey
      simp only [Kind.hasPrio, Bool.false_eq_true, false_imp_iff, and_true]
      exact this
    · intro a b ka kc ha hb ea eb
      have h1 := h.lpm_eq hf hv ha hl
      rw [show kb.buildLpm a.1 = some (some ka) from ea] at h1; cases h1
      have h1 := h.lpm_eq hf hv hb hl
      rw [show kb.buildLpm b.1 = some (some kc) from eb] at h1; cases h1
      have := lpm_less h ha hb hl
      simp only [TableKind.spec, lpmSpec, rank, prefixOf_eq hl ha, prefixOf_eq hl hb]
      omega
  | ternary c =>
    refine ⟨fun ps prio hn => (hbad ps prio hn).2.2.1, fun ps prio hp => ?_, fun vals hval => ?_, ?_, ?_, hem⟩
    · obtain ⟨kb', key, ps', e1, e2, e5, e3, e4⟩ := C10_ternary fs hf hv hk ps hp prio
      rw [e] at e1; cases e1
      have := h.tern_eq hf hv hp prio
      rw [e2] at this; cases this
      exact ⟨_, e2, ⟨flatten_length h _ (fun i hi => ternChunk_length hf hv hp hi),
        flatten_length h _ (fun i hi => (maskChunk_ok hv hp hi).2.1)⟩, ps', by simp [backKey, e3, Kind.hasPrio], e4⟩
    · refine ⟨_, h.packetKey hf hval, flatten_length h _ (fun i hi => keyChunk_length hf hval hi), ?_⟩
      intro ps prio key hp ek
      have := h.tern_eq hf hv hp prio
      rw [show kb.buildTern ps prio = some (some key) from ek] at this; cases this
      exact h.tern_match hf hv hp hval hk
    · intro a b ka kc ha hb ea eb
      have h1 := h.tern_eq hf hv ha a.2
      rw [show kb.buildTern a.1 a.2 = some (some ka) from ea] at h1; cases h1
      have h1 := h.tern_eq hf hv hb b.2
      rw [show kb.buildTern b.1 b.2 = some (some kc) from eb] at h1; cases h1
      rw [sameKey_iff ha hb, ← tern_same h hf hv ha hb hk]
      simp [Kind.hasPrio, TableKind.spec, ternSpec, and_assoc]
    · intro a b ka kc ha hb ea eb
      have h1 := h.tern_eq hf hv ha a.2
      rw [show kb.buildTern a.1 a.2 = some (some ka) from ea] at h1; cases h1
      have h1 := h.tern_eq hf hv hb b.2
      rw [show kb.buildTern b.1 b.2 = some (some kc) from eb] at h1; cases h1
      simp [TableKind.spec, ternSpec, rank]
  | range c =>
    refine ⟨fun ps prio hn => (hbad ps prio hn).2.2.2, fun ps prio hp => ?_, fun vals hval => ?_, ?_, ?_, hem⟩
    · obtain ⟨kb', key, ps', e1, e2, e5, e3, e4⟩ := C10_range fs hf hv ps hp prio
      rw [e] at e1; cases e1
      refine ⟨key, e2, ?_, ps', by simp [backKey, e3, e5, Kind.hasPrio], e4⟩
      obtain ⟨kb', key', q, f1, f2, f3, f4, -⟩ := C49_range fs hf hv ps hp prio
        ((List.range fs.length).map (plainChunk fs ps)) (plain_values hf hp) c
      rw [e] at f1; cases f1
      rw [e2] at f2; cases f2
      exact f4
    · refine ⟨_, h.packetKey hf hval, flatten_length h _ (fun i hi => keyChunk_length hf hval hi), ?_⟩
      intro ps prio key hp ek
      obtain ⟨kb', key', q, f1, f2, f3, -, -, f6⟩ := C49_range fs hf hv ps hp prio vals hval c
      rw [e] at f1; cases f1
      rw [show kb.buildRange ps prio = some (some key) from ek] at f2; cases f2
      rw [h.packetKey hf hval] at f3; cases f3
      exact f6
    · intro a b ka kc ha hb ea eb
      have h1 := h.range_eq hf hv ha a.2
      rw [show kb.buildRange a.1 a.2 = some (some ka) from ea] at h1; cases h1
      have h1 := h.range_eq hf hv hb b.2
      rw [show kb.buildRange b.1 b.2 = some (some kc) from eb] at h1; cases h1
      rw [sameKey_iff ha hb, ← range_same h hf hv ha hb]
      simp [Kind.hasPrio, TableKind.spec, rangeSpec, and_assoc]
    · intro a b ka kc ha hb ea eb
      have h1 := h.range_eq hf hv ha a.2
      rw [show kb.buildRange a.1 a.2 = some (some ka) from ea] at h1; cases h1
      have h1 := h.range_eq hf hv hb b.2
      rw [show kb.buildRange b.1 b.2 = some (some kc) from eb] at h1; cases h1
      simp [TableKind.spec, rangeSpec, rank]

end Bm.Thrift
