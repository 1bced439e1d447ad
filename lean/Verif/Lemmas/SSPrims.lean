import Verif.Spec.SSPrims
import Verif.Lemmas.SimpleSwitch

/-!
# Lemmas on the primitives of simple_switch
-/

namespace Bm.SSwitch
open Bm.Spec

theorem set_fsame {f f' : Field} {inv : Bool} {v : Int} (e : f.set inv v = some f') : FSame f f' := by
  simp only [Field.set, Field.exportBytes, Option.bind_eq_bind] at e
  obtain ⟨b, _, e1⟩ := Option.bind_eq_some_iff.1 e
  cases e1
  exact ⟨rfl, rfl, rfl, rfl, rfl, fun _ => ⟨rfl, rfl, rfl, rfl, rfl⟩⟩

/-- What changing a header of the packet keeps. -/
structure HKeeps (b b' : Header) : Prop where
  typeId : b'.typeId = b.typeId
  vlOffset : b'.vlOffset = b.vlOffset
  metadata : b'.metadata = b.metadata
  len : b'.fields.length = b.fields.length
  fields : ∀ (i : Nat) (f g : Field), b.fields[i]? = some f → b'.fields[i]? = some g → FSame f g
  nbytes : b'.nbytesPacket = b.nbytesPacket

theorem HKeeps.trans {a b d : Header} (h : HKeeps a b) (k : HKeeps b d) : HKeeps a d := by
  refine ⟨k.typeId.trans h.typeId, k.vlOffset.trans h.vlOffset, k.metadata.trans h.metadata, k.len.trans h.len, ?_,
    k.nbytes.trans h.nbytes⟩
  intro i f g hf hg
  obtain ⟨x, hx⟩ : ∃ x, b.fields[i]? = some x := by
    obtain ⟨hlt, _⟩ := List.getElem?_eq_some_iff.1 hf
    exact ⟨_, List.getElem?_eq_getElem (by rw [h.len]; exact hlt)⟩
  exact (h.fields i f x hf hx).trans (k.fields i x g hx hg)

theorem setValidField_keeps {b b' : Header} {v : Int} (e : b.setValidField v = some b') :
    HKeeps b b' ∧ b'.valid = b.valid := by
  simp only [Header.setValidField, Option.bind_eq_bind] at e
  obtain ⟨f, h1, e1⟩ := Option.bind_eq_some_iff.1 e
  obtain ⟨f', h2, e2⟩ := Option.bind_eq_some_iff.1 e1
  cases e2
  refine ⟨⟨rfl, rfl, rfl, by simp, ?_, rfl⟩, rfl⟩
  intro i x y hx hy
  rw [List.getElem?_set] at hy
  split at hy
  · rename_i hi
    split at hy
    · cases hy
      rw [← hi, h1] at hx
      cases hx
      exact set_fsame h2
    · cases hy
  · rw [hx] at hy
    cases hy
    exact .refl _

theorem markValid_keeps {b b' : Header} (e : b.markValid = some b') : HKeeps b b' ∧ b'.valid = true := by
  obtain ⟨h1, h2⟩ := setValidField_keeps e
  exact ⟨⟨h1.typeId, h1.vlOffset, h1.metadata, h1.len, h1.fields, h1.nbytes⟩, h2⟩

theorem markInvalid_keeps {b b' : Header} (e : b.markInvalid = some b') : HKeeps b b' ∧ b'.valid = false := by
  obtain ⟨h1, h2⟩ := setValidField_keeps e
  exact ⟨⟨h1.typeId, h1.vlOffset, h1.metadata, h1.len, h1.fields, h1.nbytes⟩, h2⟩

theorem reset_keeps {b b' : Header} {inv : Bool} (e : b.reset inv = some b') : HKeeps b b' ∧ b'.valid = b.valid := by
  simp only [Header.reset, Option.bind_eq_bind] at e
  obtain ⟨fs, h1, e1⟩ := Option.bind_eq_some_iff.1 e
  cases e1
  have hl := Phv.mapM_length h1
  have hg := Phv.mapM_getElem? h1
  refine ⟨⟨rfl, rfl, rfl, hl, ?_, rfl⟩, rfl⟩
  intro i x y hx hy
  simp only at hy
  rw [hg i, hx, Option.bind_some] at hy
  exact set_fsame hy

/-- What changing headers of the packet keeps. -/
structure PKeeps (p p' : Phv) : Prop where
  layout : Phv.SameLayout p p'
  len : p'.headers.length = p.headers.length
  headers : ∀ (h : Nat) (a b : Header), p.headers[h]? = some a → p'.headers[h]? = some b →
    HKeeps a b ∧ (a.metadata = true → b = a)

theorem HKeeps.refl (a : Header) : HKeeps a a :=
  ⟨rfl, rfl, rfl, rfl, fun i f g hf hg => by rw [hf] at hg; cases hg; exact .refl _, rfl⟩

theorem PKeeps.refl (p : Phv) : PKeeps p p :=
  ⟨.refl p, rfl, fun h a b ha hb => by rw [ha] at hb; cases hb; exact ⟨.refl _, fun _ => rfl⟩⟩

theorem PKeeps.trans {p q r : Phv} (a : PKeeps p q) (b : PKeeps q r) : PKeeps p r := by
  refine ⟨a.layout.trans b.layout, b.len.trans a.len, ?_⟩
  intro h x z hx hz
  obtain ⟨y, hy⟩ : ∃ y, q.headers[h]? = some y := by
    obtain ⟨hlt, _⟩ := List.getElem?_eq_some_iff.1 hx
    exact ⟨_, List.getElem?_eq_getElem (by rw [a.len]; exact hlt)⟩
  obtain ⟨k1, k2⟩ := a.headers h x y hx hy
  obtain ⟨l1, l2⟩ := b.headers h y z hy hz
  exact ⟨k1.trans l1, fun hm => by rw [l2 (k1.metadata.trans hm), k2 hm]⟩

theorem PKeeps.made {p0 p p' : Phv} (m : Made p0 p) (k : PKeeps p p') : Made p0 p' := by
  refine ⟨m.layout.trans k.layout, k.len.trans m.len, ?_⟩
  intro h a z ha hz
  obtain ⟨y, hy⟩ : ∃ y, p.headers[h]? = some y := by
    obtain ⟨hlt, _⟩ := List.getElem?_eq_some_iff.1 ha
    exact ⟨_, List.getElem?_eq_getElem (by rw [m.len]; exact hlt)⟩
  obtain ⟨l1, l2⟩ := k.headers h y z hy hz
  have hay := m.headers h a y ha hy
  by_cases hm : y.metadata = true
  · rw [l2 hm]; exact hay
  · refine ⟨l1.typeId.trans hay.typeId, l1.vlOffset.trans hay.vlOffset, l1.metadata.trans hay.metadata,
      l1.len.trans hay.len, ?_, fun ha => absurd (hay.metadata.trans ha) hm⟩
    intro i f g hf hg
    obtain ⟨x, hx⟩ : ∃ x, y.fields[i]? = some x := by
      obtain ⟨hlt, _⟩ := List.getElem?_eq_some_iff.1 hf
      exact ⟨_, List.getElem?_eq_getElem (by rw [hay.len]; exact hlt)⟩
    exact (hay.fields i f x hf hx).trans (l1.fields i x g hx hg)

theorem PKeeps.mfield {p p' : Phv} (k : PKeeps p p') (r : Ref) : mfield p' r = mfield p r := by
  unfold SSwitch.mfield
  cases h : p.headers[r.1]? with
  | none =>
    have : p'.headers[r.1]? = none := by
      rw [List.getElem?_eq_none_iff] at h ⊢
      rw [k.len]; exact h
    rw [this]
  | some a =>
    obtain ⟨b, hb⟩ : ∃ y, p'.headers[r.1]? = some y := by
      obtain ⟨hlt, _⟩ := List.getElem?_eq_some_iff.1 h
      exact ⟨_, List.getElem?_eq_getElem (by rw [k.len]; exact hlt)⟩
    rw [hb]
    obtain ⟨l1, l2⟩ := k.headers _ a b h hb
    simp only [Option.bind_some]
    by_cases hm : a.metadata = true
    · rw [l2 hm]
    · have : b.metadata ≠ true := by rw [l1.metadata]; exact hm
      rw [if_neg hm, if_neg this]

theorem PKeeps.mval {p p' : Phv} (k : PKeeps p p') (r : Ref) : mval p' r = mval p r := by
  unfold SSwitch.mval; rw [k.mfield]

/-- Changing one header of the packet. -/
theorem upd_keeps {p p' : Phv} {h : Nat} {f : Header → Option Header} (e : p.updHeader h f = some p')
    (hf : ∀ a b, p.headers[h]? = some a → f a = some b → HKeeps a b ∧ a.metadata = false) :
    PKeeps p p' ∧ ∃ a b, p.headers[h]? = some a ∧ f a = some b ∧ p' = { p with headers := p.headers.set h b } := by
  simp only [Phv.updHeader, Option.bind_eq_bind] at e
  obtain ⟨a, h1, e1⟩ := Option.bind_eq_some_iff.1 e
  obtain ⟨b, h2, e2⟩ := Option.bind_eq_some_iff.1 e1
  cases e2
  obtain ⟨k1, k2⟩ := hf a b h1 h2
  refine ⟨⟨⟨rfl, rfl, rfl, rfl⟩, by simp, ?_⟩, a, b, h1, h2, rfl⟩
  intro i x y hx hy
  simp only [List.getElem?_set] at hy
  split at hy
  · rename_i hi
    subst hi
    split at hy
    · cases hy
      rw [hx] at h1
      cases h1
      exact ⟨k1, fun hm => by rw [k2] at hm; cases hm⟩
    · cases hy
  · rw [hx] at hy
    cases hy
    exact ⟨.refl _, fun _ => rfl⟩

theorem unions_keeps {p : Phv} {u : Nat} {un un' : HUnion} (h : p.unions[u]? = some un)
    (hm : un'.members = un.members) : PKeeps p { p with unions := p.unions.set u un' } := by
  refine ⟨⟨rfl, ?_, rfl, rfl⟩, rfl, fun i a b ha hb => ?_⟩
  · apply List.ext_getElem?
    intro i
    simp only [List.getElem?_map, List.getElem?_set]
    split
    · rename_i hi
      subst hi
      rw [h]
      split
      · simp [hm]
      · rename_i hlt
        exact absurd (List.getElem?_eq_some_iff.1 h).1 hlt
    · rfl
  · rw [ha] at hb; cases hb; exact ⟨.refl _, fun _ => rfl⟩

/-- Marking a header of the packet invalid. -/
theorem pmarkInvalid_keeps {p p' : Phv} {h : Nat} {a : Header} (ha : p.headers[h]? = some a)
    (hm : a.metadata = false) (e : p.markInvalid h = some p') :
    PKeeps p p' ∧ ∃ b, HKeeps a b ∧ b.valid = false ∧ p'.headers = p.headers.set h b := by
  simp only [Phv.markInvalid, Option.bind_eq_bind] at e
  obtain ⟨p1, h1, e1⟩ := Option.bind_eq_some_iff.1 e
  obtain ⟨mb, h2, e2⟩ := Option.bind_eq_some_iff.1 e1
  clear e e1
  obtain ⟨k, a', b, g1, g2, g3⟩ := upd_keeps h1 (fun x y hx hy => by
    rw [ha] at hx; cases hx
    exact ⟨(markInvalid_keeps hy).1, hm⟩)
  rw [ha] at g1
  cases g1
  obtain ⟨l1, l2⟩ := markInvalid_keeps g2
  cases mb with
  | none =>
    cases e2
    exact ⟨k, b, l1, l2, by rw [g3]⟩
  | some ui =>
    simp only [Phv.makeHeaderInvalid, Option.bind_eq_bind] at e2
    obtain ⟨un, h3, e3⟩ := Option.bind_eq_some_iff.1 e2
    cases e3
    refine ⟨k.trans (unions_keeps h3 ?_), b, l1, l2, by rw [g3]⟩
    split <;> rfl

/-- Unions have headers of the packet only. -/
def UnionsOk (p0 : Phv) : Prop :=
  ∀ u ∈ p0.unions, ∀ h ∈ u.members, ∀ a, p0.headers[h]? = some a → a.metadata = false

theorem UnionsOk.keeps {p p' : Phv} (h : UnionsOk p) (k : PKeeps p p') : UnionsOk p' := by
  intro u hu i hi a ha
  have : u.members ∈ p.unions.map (·.members) := by
    rw [← k.layout.unions]
    exact List.mem_map_of_mem hu
  obtain ⟨v, hv, hvm⟩ := List.mem_map.1 this
  obtain ⟨x, hx⟩ : ∃ y, p.headers[i]? = some y := by
    obtain ⟨hlt, _⟩ := List.getElem?_eq_some_iff.1 ha
    exact ⟨_, List.getElem?_eq_getElem (by rw [← k.len]; exact hlt)⟩
  rw [(k.headers i x a hx ha).1.metadata]
  exact h v hv i (by rw [hvm]; exact hi) x hx

/-- Marking a header of the packet valid. -/
theorem pmarkValid_keeps {p p' : Phv} (hu : UnionsOk p) {h : Nat} {a : Header} (ha : p.headers[h]? = some a)
    (hm : a.metadata = false) (e : p.markValid h = some p') :
    PKeeps p p' ∧ (p.memb[h]? = some none →
      ∃ b, HKeeps a b ∧ b.valid = true ∧ p'.headers = p.headers.set h b) := by
  simp only [Phv.markValid, Option.bind_eq_bind] at e
  obtain ⟨p1, h1, e1⟩ := Option.bind_eq_some_iff.1 e
  obtain ⟨mb, h2, e2⟩ := Option.bind_eq_some_iff.1 e1
  clear e e1
  obtain ⟨k, a', b, g1, g2, g3⟩ := upd_keeps h1 (fun x y hx hy => by
    rw [ha] at hx; cases hx
    exact ⟨(markValid_keeps hy).1, hm⟩)
  rw [ha] at g1
  cases g1
  obtain ⟨l1, l2⟩ := markValid_keeps g2
  have hmb : p1.memb = p.memb := by rw [g3]
  cases mb with
  | none =>
    cases e2
    exact ⟨k, fun _ => ⟨b, l1, l2, by rw [g3]⟩⟩
  | some ui =>
    refine ⟨?_, fun hn => by rw [hmb, hn] at h2; cases h2⟩
    simp only [Phv.makeHeaderValid, Option.bind_eq_bind] at e2
    obtain ⟨un, h3, e3⟩ := Option.bind_eq_some_iff.1 e2
    obtain ⟨p2, h4, e4⟩ := Option.bind_eq_some_iff.1 e3
    obtain ⟨un', h5, e5⟩ := Option.bind_eq_some_iff.1 e4
    cases e5
    have hk : PKeeps p1 p2 := by
      unfold Phv.invalidateOther at h4
      split at h4
      · simp only [Option.bind_eq_bind] at h4
        obtain ⟨j, h6, h7⟩ := Option.bind_eq_some_iff.1 h4
        cases hj : p1.headers[j]? with
        | none =>
          simp [Phv.markInvalid, Phv.updHeader, hj] at h7
        | some x =>
          exact (pmarkInvalid_keeps hj
            (hu.keeps k un (List.mem_of_getElem? h3) j (List.mem_of_getElem? h6) x hj) h7).1
      · cases h4
        exact .refl _
    exact k.trans (hk.trans (unions_keeps h5 rfl))

variable {c : Cfg} {p0 : Phv}

theorem UnionsOk.made {p : Phv} (h : UnionsOk p0) (m : Made p0 p) : UnionsOk p := by
  intro u hu i hi a ha
  have : u.members ∈ p0.unions.map (·.members) := by
    rw [← m.layout.unions]
    exact List.mem_map_of_mem hu
  obtain ⟨v, hv, hvm⟩ := List.mem_map.1 this
  obtain ⟨x, hx⟩ : ∃ y, p0.headers[i]? = some y := by
    obtain ⟨hlt, _⟩ := List.getElem?_eq_some_iff.1 ha
    exact ⟨_, List.getElem?_eq_getElem (by rw [← m.len]; exact hlt)⟩
  rw [(m.headers i x a hx ha).metadata]
  exact h v hv i (by rw [hvm]; exact hi) x hx

/-- `add_header`: nothing, or the header is made valid and the length grows. -/
theorem addHeader_spec (hu : UnionsOk p0) {p q : Pkt} {h : Nat} (m : Made p0 p.phv)
    (e : prAddHeader c p h = some q) :
    PKeeps p.phv q.phv ∧ (∃ a, p.phv.headers[h]? = some a ∧
      ((a.isValid = true ∧ q = p) ∨
       (a.isValid = false ∧ (∃ n, q = { p with phv := q.phv, regs := setReg p.regs lenReg n }) ∧
         (p.phv.memb[h]? = some none → q.regs lenReg = p.regs lenReg + BitVec.ofNat 64 a.nbytesPacket ∧
           ∃ b, b.nbytesPacket = a.nbytesPacket ∧ b.metadata = false ∧ b.valid = true ∧
             q.phv.headers = p.phv.headers.set h b)))) := by
  simp only [prAddHeader, Option.bind_eq_bind] at e
  obtain ⟨a, h1, e1⟩ := Option.bind_eq_some_iff.1 e
  clear e
  by_cases hv : a.isValid = true
  · rw [if_pos hv] at e1
    cases e1
    exact ⟨.refl _, a, h1, .inl ⟨hv, rfl⟩⟩
  · rw [if_neg hv] at e1
    simp only [Bool.not_eq_true] at hv
    have hm : a.metadata = false := by
      unfold Header.isValid at hv
      simp only [Bool.or_eq_false_iff] at hv
      exact hv.1
    obtain ⟨p1, h2, e2⟩ := Option.bind_eq_some_iff.1 e1
    obtain ⟨p2, h3, e3⟩ := Option.bind_eq_some_iff.1 e2
    obtain ⟨b2, h4, e4⟩ := Option.bind_eq_some_iff.1 e3
    cases e4
    clear e1 e2 e3
    obtain ⟨k, a', b, g1, g2, g3⟩ := upd_keeps h2 (fun x y hx hy => by
      rw [h1] at hx; cases hx
      exact ⟨(reset_keeps hy).1, hm⟩)
    rw [h1] at g1
    cases g1
    have hlt := (List.getElem?_eq_some_iff.1 h1).1
    obtain ⟨l1, l2⟩ := reset_keeps g2
    have hb : p1.headers[h]? = some b := by
      rw [g3]
      simp [hlt]
    obtain ⟨n1, n2⟩ := pmarkValid_keeps ((hu.made m).keeps k) hb (l1.metadata.trans hm) h3
    refine ⟨k.trans n1, a, h1, .inr ⟨hv, ⟨_, rfl⟩, fun hn => ?_⟩⟩
    have hn' : p1.memb[h]? = some none := by rw [g3]; exact hn
    obtain ⟨b', o1, o2, o3⟩ := n2 hn'
    have hb2 : b2 = b' := by
      rw [o3, g3] at h4
      simp [hlt] at h4
      exact h4.symm
    subst hb2
    refine ⟨?_, b2, o1.nbytes.trans l1.nbytes, o1.metadata.trans (l1.metadata.trans hm), o2, ?_⟩
    · simp [setReg, o1.nbytes, l1.nbytes]
    · rw [o3, g3]
      simp

/-- `remove_header`. -/
theorem removeHeader_spec {p q : Pkt} {h : Nat} (hm : ∀ a, p.phv.headers[h]? = some a → a.metadata = false)
    (e : prRemoveHeader p h = some q) :
    PKeeps p.phv q.phv ∧ (∃ a, p.phv.headers[h]? = some a ∧
      ((a.valid = false ∧ q = p) ∨
       (a.valid = true ∧
         q = { p with phv := q.phv, regs := setReg p.regs lenReg (p.regs lenReg - BitVec.ofNat 64 a.nbytesPacket) } ∧
         ∃ b, b.nbytesPacket = a.nbytesPacket ∧ b.metadata = false ∧ b.valid = false ∧
           q.phv.headers = p.phv.headers.set h b))) := by
  simp only [prRemoveHeader, Option.bind_eq_bind] at e
  obtain ⟨a, h1, e1⟩ := Option.bind_eq_some_iff.1 e
  clear e
  have ham := hm a h1
  have hiv : a.isValid = a.valid := by unfold Header.isValid; simp [ham]
  rw [hiv] at e1
  by_cases hv : a.valid = true
  · rw [if_pos hv] at e1
    obtain ⟨p1, h2, e2⟩ := Option.bind_eq_some_iff.1 e1
    cases e2
    obtain ⟨k1, b, k2, k3, k4⟩ := pmarkInvalid_keeps h1 ham h2
    exact ⟨k1, a, h1, .inr ⟨hv, rfl, b, k2.nbytes, k2.metadata.trans ham, k3, k4⟩⟩
  · rw [if_neg hv] at e1
    cases e1
    exact ⟨.refl _, a, h1, .inl ⟨by simpa using hv, rfl⟩⟩

end Bm.SSwitch
