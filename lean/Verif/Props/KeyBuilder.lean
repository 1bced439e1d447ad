import Verif.Lemmas.KeyBack
import Verif.Lemmas.MatchUnitRun

/-!
# C10, C11, C12, C49: match keys

Hypotheses on the declaration (`fs`): no empty fields, static masks as long as their field
(`FieldsOk`), validity matches declared with eight bits (`ValidOk`, which is what
`push_back_valid_header` does).
-/

namespace Bm
open Spec

/-! ## Well-formed declarations always build -/

/-- Every well-formed declaration builds a key builder, and malformed parameters are refused
without undefined behaviour for every kind of table. -/
theorem C10_build_and_refuse (fs : List KeyF) (hf : FieldsOk fs) :
    ∃ kb, KeyB.build fs = some kb ∧ ∀ ps prio, ¬ ParamsOk fs ps →
      kb.buildExact ps = some none ∧ kb.buildLpm ps = some none ∧
      kb.buildTern ps prio = some none ∧ kb.buildRange ps prio = some none := by
  obtain ⟨kb, e, h⟩ := KeyB.build_ok fs hf
  refine ⟨kb, e, ?_⟩
  intro ps prio hn
  obtain ⟨b, hb, hb'⟩ := h.sanityCheck (ps := ps)
  have : b = false := by
    cases b with
    | false => rfl
    | true => exact absurd (hb'.mp rfl) hn
  subst this
  simp [KeyB.buildExact, KeyB.buildLpm, KeyB.buildTern, KeyB.buildRange, hb]

/-- The parameters read back are those expected, field by field in declaration order. -/
def BackOk (keepLow : Bool) (fs : List KeyF) (ps ps' : List MParam) : Prop :=
  ps'.length = fs.length ∧ ∀ (i : Nat) (f : KeyF) (p p' : MParam), fs[i]? = some f →
    ps[i]? = some p → ps'[i]? = some p' → ReadsBack keepLow f p p'

theorem backOk_of {keepLow : Bool} {fs : List KeyF} {ps : List MParam} (r : Nat → MParam)
    (hp : ParamsOk fs ps) (h : ∀ i < fs.length, ReadsBack keepLow (fAt fs i) (pAt ps i) (r i)) :
    BackOk keepLow fs ps ((List.range fs.length).map r) := by
  refine ⟨by simp, ?_⟩
  intro i f p p' h1 h2 h3
  have hi : i < fs.length := by
    by_contra hc
    rw [List.getElem?_eq_none (by omega)] at h1; simp at h1
  rw [fAt_eq hi] at h1
  rw [pAt_eq (by rw [hp.1]; exact hi)] at h2
  rw [List.getElem?_map, List.getElem?_range hi] at h3
  simp only [Option.some.injEq, Option.map_some] at h1 h2 h3
  subst h1; subst h2; subst h3
  exact h i hi

/-- **C10**, exact tables: any mixture of exact and validity matches. -/
theorem C10_exact (fs : List KeyF) (hf : FieldsOk fs)
    (hk : ∀ f ∈ fs, f.mtype = .exact ∨ f.mtype = .valid) (ps : List MParam)
    (hp : ParamsOk fs ps) :
    ∃ kb key ps', KeyB.build fs = some kb ∧ kb.buildExact ps = some (some key) ∧
      kb.fromExact key = some ps' ∧ BackOk true fs ps ps' := by
  obtain ⟨kb, e, h⟩ := KeyB.build_ok fs hf
  refine ⟨kb, _, _, e, h.exact_eq hf hp, h.back_exact hf hp hk, backOk_of _ hp ?_⟩
  intro i hi
  refine ⟨rfl, plainChunk_length hf hp hi, ?_⟩
  rcases hk _ (fAt_mem hi) with e | e <;> rw [e] <;>
    exact ⟨plainChunk_nat hf hp hi, rfl, rfl⟩

/-- **C10**, LPM tables: one prefix field anywhere among exact and validity matches. -/
theorem C10_lpm (fs : List KeyF) (hf : FieldsOk fs) (hv : ValidOk fs) (l : Nat)
    (hl : LpmLayout fs l) (ps : List MParam) (hp : ParamsOk fs ps) :
    ∃ kb key ps', KeyB.build fs = some kb ∧ kb.buildLpm ps = some (some key) ∧
      kb.fromLpm key = some ps' ∧ BackOk true fs ps ps' := by
  obtain ⟨kb, e, h⟩ := KeyB.build_ok fs hf
  refine ⟨kb, _, _, e, h.lpm_eq hf hv hp hl, h.back_lpm hf hp hl, backOk_of _ hp ?_⟩
  intro i hi
  refine ⟨rfl, plainChunk_length hf hp hi, ?_⟩
  by_cases hil : i = l
  · subst hil
    rw [hl.2.1]
    exact ⟨rfl, by simp, by simpa using plainChunk_nat hf hp hi⟩
  · rcases hl.2.2 i hi hil with e | e <;> rw [e] <;>
      exact ⟨plainChunk_nat hf hp hi, rfl, if_neg hil⟩

/-- What ternary and range tables give back for a field that is not a range. -/
theorem ternBack {fs : List KeyF} {ps : List MParam} (hf : FieldsOk fs) (hv : ValidOk fs)
    (hp : ParamsOk fs ps) {i : Nat} (hi : i < fs.length) (hr : (fAt fs i).mtype ≠ .range) :
    ReadsBack false (fAt fs i) (pAt ps i)
      { type := (fAt fs i).mtype, key := ternChunk fs ps i
        mask := if (fAt fs i).mtype = .range ∨ (fAt fs i).mtype = .ternary then (pAt ps i).mask
          else []
        prefixLength := if (fAt fs i).mtype = .lpm then (pAt ps i).prefixLength else 0 } := by
  obtain ⟨_, hm, m1, m2, m3⟩ := maskChunk_ok hv hp hi
  have hn := ternChunk_nat hf hv hp hi
  have hP := paramValue_lt (fAt fs i) (pAt ps i)
  refine ⟨rfl, ternChunk_length hf hv hp hi, ?_⟩
  cases e : (fAt fs i).mtype with
  | range => exact absurd e hr
  | exact =>
    rw [m1 (.inl e), and_replicate_ff hP] at hn
    exact ⟨hn, by simp, by simp⟩
  | valid =>
    rw [m1 (.inr e), and_replicate_ff hP] at hn
    exact ⟨hn, by simp, by simp⟩
  | ternary =>
    rw [m2 (.inl e)] at hn
    exact ⟨hn, by simp, by simp⟩
  | lpm =>
    rw [and_maskChunk_lpm hv hp hi e hP] at hn
    exact ⟨by simp, by simp, by simpa using hn⟩

/-- **C10**, ternary tables: any mixture of exact, validity, prefix and ternary matches. -/
theorem C10_ternary (fs : List KeyF) (hf : FieldsOk fs) (hv : ValidOk fs)
    (hk : ∀ f ∈ fs, f.mtype ≠ .range) (ps : List MParam) (hp : ParamsOk fs ps) (prio : Int) :
    ∃ kb key ps', KeyB.build fs = some kb ∧ kb.buildTern ps prio = some (some key) ∧
      key.priority = prio ∧ kb.fromTern key.data key.mask = some ps' ∧ BackOk false fs ps ps' := by
  obtain ⟨kb, e, h⟩ := KeyB.build_ok fs hf
  refine ⟨kb, _, _, e, h.tern_eq hf hv hp prio, rfl,
    h.back_tern _ hv hp (fun i hi => ternChunk_length hf hv hp hi), backOk_of _ hp ?_⟩
  intro i hi
  exact ternBack hf hv hp hi (hk _ (fAt_mem hi))

/-- **C10**, range tables: any mixture of all five match kinds. -/
theorem C10_range (fs : List KeyF) (hf : FieldsOk fs) (hv : ValidOk fs) (ps : List MParam)
    (hp : ParamsOk fs ps) (prio : Int) :
    ∃ kb key ps', KeyB.build fs = some kb ∧ kb.buildRange ps prio = some (some key) ∧
      key.priority = prio ∧ kb.fromTern key.data key.mask = some ps' ∧ BackOk false fs ps ps' := by
  obtain ⟨kb, e, h⟩ := KeyB.build_ok fs hf
  refine ⟨kb, _, _, e, h.range_eq hf hv hp prio, rfl,
    h.back_tern _ hv hp (fun i hi => rangeChunk_length hf hv hp hi), backOk_of _ hp ?_⟩
  intro i hi
  by_cases hr : (fAt fs i).mtype = .range
  · refine ⟨rfl, rangeChunk_length hf hv hp hi, ?_⟩
    rw [rangeChunk, if_pos hr, hr]
    exact ⟨plainChunk_nat hf hp hi, by simp, by simp⟩
  · have := ternBack hf hv hp hi hr
    rw [rangeChunk, if_neg hr]
    exact this

theorem underMask_idem (f : KeyF) (x : Nat) : underMask f (underMask f x) = underMask f x := by
  unfold underMask
  cases f.smask with
  | none => rfl
  | some m => simp only; rw [Nat.and_assoc, Nat.and_self]

/-- The value read back is unchanged by another reduction. -/
theorem value_of_le {f : KeyF} {p p' : MParam} {y : Nat}
    (h : bytesNat p'.key = paramValue f p &&& y) : paramValue f p' = bytesNat p'.key := by
  unfold paramValue at *
  have h1 := underMask_le f (bytesNat p.key % 2 ^ f.nbits)
  have h2 := Nat.mod_lt (bytesNat p.key) (Nat.two_pow_pos f.nbits)
  have h3 : underMask f (bytesNat p.key % 2 ^ f.nbits) &&& y ≤ _ := Nat.and_le_left
  rw [Nat.mod_eq_of_lt (by omega), h, underMask_and, underMask_idem]

/-- **C10**, meaning: the parameters read back are accepted again and are met by exactly the
same packets as the original ones. -/
theorem C10_same_match (keepLow : Bool) (f : KeyF) (p p' : MParam) (hp : ParamOk f p)
    (h : ReadsBack keepLow f p p') :
    ParamOk f p' ∧ ∀ v, FieldMatches paddedWidth f p' v ↔ FieldMatches paddedWidth f p v := by
  obtain ⟨h1, h2, h3⟩ := h
  obtain ⟨p1, p2, p3⟩ := hp
  have hself : ∀ x : Nat, x = x &&& x := fun x => (Nat.and_self x).symm
  unfold ParamOk FieldMatches
  cases e : f.mtype with
  | exact =>
    rw [e] at h3
    have := value_of_le (f := f) (p := p) (p' := p') (h3.1.trans (hself _))
    rw [h3.1] at this
    refine ⟨⟨by rw [h1, e], h2, trivial⟩, fun v => ?_⟩
    simp only [this]
  | valid =>
    rw [e] at h3
    have := value_of_le (f := f) (p := p) (p' := p') (h3.1.trans (hself _))
    rw [h3.1] at this
    refine ⟨⟨by rw [h1, e], h2, trivial⟩, fun v => ?_⟩
    simp only [this]
  | ternary =>
    rw [e] at h3 p3
    have := value_of_le (f := f) (p := p) (p' := p') h3.1
    rw [h3.1] at this
    refine ⟨⟨by rw [h1, e], h2, by simp only [h3.2.1]; exact p3⟩, fun v => ?_⟩
    simp only [this, h3.2.1, Nat.and_assoc, Nat.and_self]
  | range =>
    rw [e] at h3 p3
    have := value_of_le (f := f) (p := p) (p' := p') (h3.1.trans (hself _))
    rw [h3.1] at this
    refine ⟨⟨by rw [h1, e], h2, ?_⟩, fun v => ?_⟩
    · simp only [h3.2.1]
      refine ⟨p3.1, ?_⟩
      rw [h3.1]
      unfold paramValue
      have h5 := underMask_le f (bytesNat p.key % 2 ^ f.nbits)
      have h6 := Nat.mod_le (bytesNat p.key) (2 ^ f.nbits)
      have h7 := p3.2
      omega
    · simp only [this, h3.2.1]
  | lpm =>
    rw [e] at h3 p3
    simp only at h3 p3
    refine ⟨⟨by rw [h1, e], h2, by simp only [h3.2.1]; exact p3⟩, fun v => ?_⟩
    simp only [h3.2.1]
    cases keepLow with
    | true =>
      have h4 := h3.2.2
      simp only [if_true] at h4
      have := value_of_le (f := f) (p := p) (p' := p') (h4.trans (hself _))
      rw [h4] at this
      rw [this]
    | false =>
      obtain ⟨s, hs, h4⟩ := by simpa only [Bool.false_eq_true, if_false] using h3.2.2
      have hle : p.prefixLength.toNat ≤ 8 * f.nbytes := by rw [nbytes_eq]; omega
      obtain ⟨m, em, hml, hmb⟩ := createMask_bits p.prefixLength.toNat f.nbytes hle
      have hand := and_prefixMask hle hmb hml _ (paramValue_lt f p)
      have hs' : 8 * f.nbytes - p.prefixLength.toNat = s := by rw [hs]; rfl
      rw [hs'] at hand
      have := value_of_le (f := f) (p := p) (p' := p') (h4.trans hand.symm)
      rw [h4] at this
      unfold PrefixAgrees
      rw [this, ← hs, Nat.mul_div_cancel _ (Nat.two_pow_pos s)]

/-! ## C49: what an entry matches -/

/-- **C49**, exact tables: the entry made from `ps` matches the key of a packet iff every field
of the packet meets its parameter.  The keys have the length the table expects. -/
theorem C49_exact (fs : List KeyF) (hf : FieldsOk fs)
    (hk : ∀ f ∈ fs, f.mtype = .exact ∨ f.mtype = .valid) (ps : List MParam)
    (hp : ParamsOk fs ps) (vals : List Bytes) (hval : ValuesOk fs vals) :
    ∃ kb key q, KeyB.build fs = some kb ∧ kb.buildExact ps = some (some key) ∧
      kb.packetKey vals = some q ∧
      (TableKind.exact kb.nbytesKey).spec.okK key ∧ (TableKind.exact kb.nbytesKey).spec.okQ q ∧
      ((TableKind.exact kb.nbytesKey).spec.m q key ↔ AllMatch paddedWidth fs ps vals) := by
  obtain ⟨kb, e, h⟩ := KeyB.build_ok fs hf
  exact ⟨kb, _, _, e, h.exact_eq hf hp, h.packetKey hf hval,
    flatten_length h _ (fun i hi => plainChunk_length hf hp hi),
    flatten_length h _ (fun i hi => keyChunk_length hf hval hi),
    h.exact_match hf hp hval hk⟩

/-- **C49**, LPM tables. -/
theorem C49_lpm (fs : List KeyF) (hf : FieldsOk fs) (hv : ValidOk fs) (l : Nat)
    (hl : LpmLayout fs l) (ps : List MParam) (hp : ParamsOk fs ps) (vals : List Bytes)
    (hval : ValuesOk fs vals) :
    ∃ kb key q, KeyB.build fs = some kb ∧ kb.buildLpm ps = some (some key) ∧
      kb.packetKey vals = some q ∧
      (TableKind.lpm kb.nbytesKey).spec.okK key ∧ (TableKind.lpm kb.nbytesKey).spec.okQ q ∧
      ((TableKind.lpm kb.nbytesKey).spec.m q key ↔ AllMatch paddedWidth fs ps vals) := by
  obtain ⟨kb, e, h⟩ := KeyB.build_ok fs hf
  exact ⟨kb, _, _, e, h.lpm_eq hf hv hp hl, h.packetKey hf hval,
    ⟨flatten_length h _ (fun i hi => plainChunk_length hf hp hi), h.lpm_len_le hp hl⟩,
    flatten_length h _ (fun i hi => keyChunk_length hf hval hi),
    h.lpm_match hf hp hval hl⟩

/-- In an LPM table with one prefix field, entries are ranked by the prefix length of that
field alone. -/
theorem C49_lpm_rank (fs : List KeyF) (hf : FieldsOk fs) (hv : ValidOk fs) (l : Nat)
    (hl : LpmLayout fs l) (ps ps' : List MParam) (hp : ParamsOk fs ps) (hp' : ParamsOk fs ps')
    (p p' : MParam) (h1 : ps[l]? = some p) (h2 : ps'[l]? = some p') :
    ∃ kb key key', KeyB.build fs = some kb ∧ kb.buildLpm ps = some (some key) ∧
      kb.buildLpm ps' = some (some key') ∧
      (key.prefixLength < key'.prefixLength ↔ p.prefixLength < p'.prefixLength) := by
  obtain ⟨kb, e, h⟩ := KeyB.build_ok fs hf
  refine ⟨kb, _, _, e, h.lpm_eq hf hv hp hl, h.lpm_eq hf hv hp' hl, ?_⟩
  rw [pAt_eq (by rw [hp.1]; exact hl.1)] at h1
  rw [pAt_eq (by rw [hp'.1]; exact hl.1)] at h2
  simp only [Option.some.injEq] at h1 h2
  have a := (ParamsOk.at hp hl.1).2.2
  have b := (ParamsOk.at hp' hl.1).2.2
  rw [hl.2.1] at a b
  simp only at a b
  simp only [lpmLen]
  rw [← h1, ← h2]
  omega

/-- **C49**, ternary tables. -/
theorem C49_ternary (fs : List KeyF) (hf : FieldsOk fs) (hv : ValidOk fs)
    (hk : ∀ f ∈ fs, f.mtype ≠ .range) (ps : List MParam) (hp : ParamsOk fs ps) (prio : Int)
    (vals : List Bytes) (hval : ValuesOk fs vals) (cache : Bool) :
    ∃ kb key q, KeyB.build fs = some kb ∧ kb.buildTern ps prio = some (some key) ∧
      kb.packetKey vals = some q ∧
      (TableKind.ternary kb.nbytesKey cache).spec.okK key ∧
      (TableKind.ternary kb.nbytesKey cache).spec.okQ q ∧
      ((TableKind.ternary kb.nbytesKey cache).spec.m q key ↔ AllMatch paddedWidth fs ps vals) := by
  obtain ⟨kb, e, h⟩ := KeyB.build_ok fs hf
  exact ⟨kb, _, _, e, h.tern_eq hf hv hp prio, h.packetKey hf hval,
    ⟨flatten_length h _ (fun i hi => ternChunk_length hf hv hp hi),
      flatten_length h _ (fun i hi => (maskChunk_ok hv hp hi).2.1)⟩,
    flatten_length h _ (fun i hi => keyChunk_length hf hval hi),
    h.tern_match hf hv hp hval hk⟩

/-- **C49**, range tables. -/
theorem C49_range (fs : List KeyF) (hf : FieldsOk fs) (hv : ValidOk fs) (ps : List MParam)
    (hp : ParamsOk fs ps) (prio : Int) (vals : List Bytes) (hval : ValuesOk fs vals)
    (cache : Bool) :
    ∃ kb key q, KeyB.build fs = some kb ∧ kb.buildRange ps prio = some (some key) ∧
      kb.packetKey vals = some q ∧
      (TableKind.range kb.nbytesKey cache).spec.okK key ∧
      (TableKind.range kb.nbytesKey cache).spec.okQ q ∧
      ((TableKind.range kb.nbytesKey cache).spec.m q key ↔ AllMatch paddedWidth fs ps vals) := by
  obtain ⟨kb, e, h⟩ := KeyB.build_ok fs hf
  refine ⟨kb, _, _, e, h.range_eq hf hv hp prio, h.packetKey hf hval,
    ⟨flatten_length h _ (fun i hi => rangeChunk_length hf hv hp hi),
      flatten_length h _ (fun i hi => (maskChunk_ok hv hp hi).2.1), ?_⟩,
    flatten_length h _ (fun i hi => keyChunk_length hf hval hi),
    h.range_match hf hv hp hval⟩
  simp only
  rw [h.nbytes, h.split, List.map_append, List.sum_append]
  omega

/-! ## C11: the prefix counts from the most significant bit of the field -/

/-- **C11** (partial): if every prefix field is a whole number of bytes wide, prefixes are taken
from the most significant bit of the field.  Full statement: the same for all widths; it is
false, see `C11_fails_20_bits`. -/
theorem C11_whole_bytes_partial (fs : List KeyF)
    (h8 : ∀ f ∈ fs, f.mtype = .lpm → f.nbits % 8 = 0) (ps : List MParam) (vals : List Bytes) :
    AllMatch paddedWidth fs ps vals ↔ AllMatch (fun w => w) fs ps vals := by
  have : ∀ f ∈ fs, ∀ p v, FieldMatches paddedWidth f p v ↔ FieldMatches (fun w => w) f p v := by
    intro f hf p v
    unfold FieldMatches
    cases e : f.mtype with
    | lpm =>
      have := h8 f hf e
      simp only
      rw [show paddedWidth f.nbits = f.nbits from by unfold paddedWidth; omega]
    | _ => exact Iff.rfl
  constructor
  · intro h i f p v h1 h2 h3
    exact (this f (List.mem_of_getElem? h1) p _).mp (h i f p v h1 h2 h3)
  · intro h i f p v h1 h2 h3
    exact (this f (List.mem_of_getElem? h1) p _).mpr (h i f p v h1 h2 h3)

/-- **C11** (partial), single field: in an LPM table on one `8 n`-bit field, an entry matches
exactly the packets that agree with it on the `p` most significant bits. -/
theorem C11_single_partial (n : Nat) (hn : 1 ≤ n) (k v : Bytes) (hk : k.length = n)
    (hv : v.length = n) (p : Nat) (hp : p ≤ 8 * n) :
    ∃ kb key q, KeyB.build [⟨.lpm, 8 * n, none⟩] = some kb ∧
      kb.buildLpm [{ type := .lpm, key := k, prefixLength := p }] = some (some key) ∧
      kb.packetKey [v] = some q ∧
      ((TableKind.lpm kb.nbytesKey).spec.m q key ↔ PrefixAgrees (8 * n) p (bytesNat v) (bytesNat k)) := by
  have hkl := bytesNat_lt_two k
  rw [hk] at hkl
  have hvl := bytesNat_lt_two v
  rw [hv] at hvl
  obtain ⟨kb, key, q, h1, h2, h3, _, _, h6⟩ := C49_lpm [⟨.lpm, 8 * n, none⟩]
    (by intro f hf; simp only [List.mem_singleton] at hf; subst hf; exact ⟨by simp; omega, by simp⟩)
    (by intro f hf; simp only [List.mem_singleton] at hf; subst hf; simp) 0
    ⟨by simp, by simp [fAt], by intro i hi hne; simp at hi; omega⟩
    [{ type := .lpm, key := k, prefixLength := p }]
    ⟨by simp, by
      intro i f p' e1 e2
      cases i with
      | zero =>
        simp only [List.getElem?_cons_zero, Option.some.injEq] at e1 e2
        subst e1; subst e2
        refine ⟨rfl, by simp only [hk]; omega, ?_⟩
        simp only
        omega
      | succ i => simp at e1⟩ [v]
    ⟨by simp, by
      intro i f v' e1 e2
      cases i with
      | zero =>
        simp only [List.getElem?_cons_zero, Option.some.injEq] at e1 e2
        subst e1; subst e2
        exact ⟨by simp only [hv]; omega, hvl⟩
      | succ i => simp at e1⟩
  refine ⟨kb, key, q, h1, h2, h3, h6.trans ?_⟩
  rw [C11_whole_bytes_partial _ (by intro f hf _; simp only [List.mem_singleton] at hf; subst hf; simp)]
  constructor
  · intro h
    have := h 0 _ _ _ rfl rfl rfl
    simpa [FieldMatches, underMask, paramValue, Nat.mod_eq_of_lt hkl] using this
  · intro h i f p' v' e1 e2 e3
    cases i with
    | zero =>
      simp only [List.getElem?_cons_zero, Option.some.injEq] at e1 e2 e3
      subst e1; subst e2; subst e3
      simpa [FieldMatches, underMask, paramValue, Nat.mod_eq_of_lt hkl] using h
    | succ i => simp at e1

/-- **C11** fails on widths that are not whole bytes: on a 20-bit field, the entry `0x12345/20`
matches a packet whose field is `0x1234a`. -/
theorem C11_fails_20_bits :
    ∃ kb key q, KeyB.build [⟨.lpm, 20, none⟩] = some kb ∧
      kb.buildLpm [{ type := .lpm, key := [0x01, 0x23, 0x45], prefixLength := 20 }]
        = some (some key) ∧
      kb.packetKey [[0x01, 0x23, 0x4a]] = some q ∧ (TableKind.lpm 3).spec.m q key ∧
      ¬ PrefixAgrees 20 20 (bytesNat [0x01, 0x23, 0x4a]) (bytesNat [0x01, 0x23, 0x45]) := by
  refine ⟨_, _, _, rfl, rfl, rfl, ?_, ?_⟩
  · show (bytesBits _).take _ = (bytesBits _).take _
    decide +kernel
  · unfold PrefixAgrees
    decide +kernel

/-- **C11** fails also in the mask used by ternary tables: on a 12-bit field the prefix
`0xa00/4` matches `0x500`. -/
theorem C11_fails_12_bits_ternary :
    ∃ kb key q, KeyB.build [⟨.lpm, 12, none⟩, ⟨.ternary, 8, none⟩] = some kb ∧
      kb.buildTern [{ type := .lpm, key := [0x0a, 0x00], prefixLength := 4 },
        { type := .ternary, key := [0], mask := [0] }] 1 = some (some key) ∧
      kb.packetKey [[0x05, 0x00], [7]] = some q ∧ (TableKind.ternary 3 true).spec.m q key ∧
      ¬ PrefixAgrees 12 4 (bytesNat [0x05, 0x00]) (bytesNat [0x0a, 0x00]) := by
  refine ⟨_, _, _, rfl, rfl, rfl, ?_, ?_⟩
  · show TernMatches _ _ _
    unfold TernMatches
    decide +kernel
  · unfold PrefixAgrees
    decide +kernel

/-! ## C12: prefix lengths and masks -/

/-- **C12.**  For every size and prefix length that fits, the mask has exactly the leading bits
set, and converting it back gives the prefix length. -/
theorem C12_mask_roundtrip (p size : Nat) (h : p ≤ 8 * size) :
    ∃ m, createMask p size = some m ∧ m.length = size ∧
      bytesBits m = List.replicate p true ++ List.replicate (8 * size - p) false ∧
      prefLenFromMask m = p := by
  obtain ⟨m, e, hl, hb⟩ := createMask_bits p size h
  exact ⟨m, e, hl, hb, prefLen_createMask h e⟩

/-- **C12.**  For every byte string the computed length is the number of set bits; in particular
the signed per-byte arithmetic is right for all 256 byte values. -/
theorem C12_counts_set_bits (m : Bytes) : prefLenFromMask m = (bytesBits m).count true :=
  prefLenFromMask_eq m

/-- A longer prefix than the mask has bits would write outside the string. -/
theorem C12_too_long (p size : Nat) (h : 8 * size < p) : createMask p size = none := by
  unfold createMask
  simp only
  split
  · rename_i h1
    rw [if_pos (by omega), if_neg (by omega)]
  · rfl

/-! ## Concrete cases -/

/-- A layout with all five match kinds, declared in the reverse of the internal order. -/
def exLayout : List KeyF :=
  [⟨.ternary, 12, none⟩, ⟨.lpm, 16, none⟩, ⟨.exact, 9, some [0x01, 0xf0]⟩, ⟨.valid, 8, none⟩,
   ⟨.range, 16, none⟩]

/-- Parameters for it, with superfluous bits. -/
def exParams : List MParam :=
  [{ type := .ternary, key := [0xfa, 0xbc], mask := [0x0f, 0xf0] },
   { type := .lpm, key := [0x12, 0x34], prefixLength := 12 },
   { type := .exact, key := [0xff, 0x2b] },
   { type := .valid, key := [1] },
   { type := .range, key := [0x00, 0x10], mask := [0x01, 0x00] }]

/-- The hypotheses hold and the entry is read back in declaration order. -/
example : (KeyB.build exLayout).bind (fun kb => (kb.buildRange exParams 7).map (fun o =>
      o.bind (fun k => kb.fromTern k.data k.mask))) =
    some (some [{ type := .ternary, key := [0x0a, 0xb0], mask := [0x0f, 0xf0] },
   { type := .lpm, key := [0x12, 0x30], prefixLength := 12 },
   { type := .exact, key := [0x01, 0x20] },
   { type := .valid, key := [1] },
   { type := .range, key := [0x00, 0x10], mask := [0x01, 0x00] }]) := by decide +kernel

/-- A packet that meets all the parameters: the stored key is matched. -/
example : (do
    let kb ← KeyB.build exLayout
    let k ← (← kb.buildRange exParams 7)
    let q ← kb.packetKey [[0x0a, 0xb7], [0x12, 0x3f], [0x01, 0x2f], [1], [0x00, 0x80]]
    rangeCmp 9 q k) = some true := by decide +kernel

/-- One that fails only on the range. -/
example : (do
    let kb ← KeyB.build exLayout
    let k ← (← kb.buildRange exParams 7)
    let q ← kb.packetKey [[0x0a, 0xb7], [0x12, 0x3f], [0x01, 0x2f], [1], [0x01, 0x01]]
    rangeCmp 9 q k) = some false := by decide +kernel

/-- An LPM layout whose prefix field is declared first. -/
example : LpmLayout [⟨.lpm, 32, none⟩, ⟨.exact, 9, none⟩, ⟨.valid, 8, none⟩] 0 := by
  refine ⟨by decide, rfl, ?_⟩
  intro i hi hne
  match i, hi, hne with
  | 1, _, _ => exact .inl rfl
  | 2, _, _ => exact .inr rfl

example : createMask 13 4 = some [0xff, 0xf8, 0, 0] ∧ prefLenFromMask [0xff, 0xf8, 0, 0] = 13 := by
  decide +kernel

end Bm
