import Verif.Spec.SimpleSwitch

/-!
# Lemmas on `simple_switch`: metadata and headers under the operations of the target
-/

namespace Bm.SSwitch
open Bm.Spec

/-! ## Fields -/

theorem set_plain {f : Field} (hf : f.Shape) (hs : f.isSigned = false) (ht : f.isSaturating = false) {v : Int}
    {f' : Field} (e : f.set false v = some f') : f'.value = v % 2 ^ f.nbits := by
  obtain ⟨g, h1, _, _, _, _, _, _, _, _, h2, _⟩ := Field.set_spec hf v
  rw [e] at h1
  cases h1
  obtain ⟨h3, h4⟩ := h2 (fun h => by have := h.1; rw [hs] at this; cases this)
  unfold Kind.Assigned Field.kind at h4
  unfold Kind.Fits Kind.lowest Kind.highest Field.kind at h3
  simp only [ht, hs, Bool.false_eq_true, if_false] at h3 h4
  rw [← Int.emod_eq_of_lt h3.1 (by omega : f'.value < 2 ^ f.nbits)]
  exact (Int.emod_eq_emod_iff_emod_sub_eq_zero.2 (Int.emod_eq_zero_of_dvd h4.2)).symm

theorem set_held {f : Field} (hf : f.Shape) {v : Int} (hv : Held f v) {f' : Field}
    (e : f.set false v = some f') : f'.value = v := by
  obtain ⟨g, h1, _, _, _, _, _, _, _, _, h2, h3⟩ := Field.set_spec hf v
  rw [e] at h1
  cases h1
  by_cases ho : f.Odd v
  · exact h3 ho
  · obtain ⟨h4, h5⟩ := h2 ho
    have hv := hv.resolve_right ho
    unfold Kind.Assigned at h5
    split at h5
    · exact h5.2.2 hv
    · unfold Kind.Fits at h4 hv
      obtain ⟨k, hk⟩ := h5.2
      have hgap : f.kind.highest - f.kind.lowest < 2 ^ f.kind.w := by
        unfold Kind.highest Kind.lowest
        split
        · rename_i hs
          have := Field.two_pow_half (hf.sgn hs)
          have hw : f.kind.w = f.nbits := rfl
          rw [hw]
          omega
        · omega
      generalize (2 ^ f.kind.w : Int) = M at *
      have h6 : k = 0 := by
        rcases lt_trichotomy k 0 with h | h | h
        · exfalso
          have : M * k ≤ -M := by nlinarith
          omega
        · exact h
        · exfalso
          have : M * k ≥ M := by nlinarith
          omega
      rw [h6] at hk
      omega

theorem held_zero {f : Field} (hf : f.Shape) : Held f 0 := by
  left
  unfold Kind.Fits Kind.highest Kind.lowest
  have h1 : (0 : Int) < 2 ^ (f.kind.w - 1) := by positivity
  have h2 : (0 : Int) < 2 ^ f.kind.w := by positivity
  split <;> omega

/-- What an assignment leaves alone. -/
theorem set_same {f : Field} (hf : f.Shape) {v : Int} {f' : Field} (e : f.set false v = some f') :
    f'.Shape ∧ FSame f f' ∧ Held f' f'.value := by
  obtain ⟨g, h1, h2, h3, h4, h5, h6, _, h7, h8, h9, h10⟩ := Field.set_spec hf v
  rw [e] at h1
  cases h1
  have hk : f'.nbits = f.nbits ∧ f'.isSigned = f.isSigned ∧ f'.isSaturating = f.isSaturating := by
    unfold Field.kind at h3
    injection h3 with a b d
    exact ⟨a, b, d⟩
  refine ⟨h2, ⟨h4, hk.2.1, h5, h6, hk.2.2, fun _ => ⟨hk.1, ?_, ?_, ?_, ?_⟩⟩, ?_⟩
  · rw [h2.nbytes, hf.nbytes, hk.1]
  · rw [h2.mask, hf.mask, hk.1]
  · rw [h2.max, hf.max, h3]
  · rw [h2.min, hf.min, h3]
  · by_cases ho : f.Odd v
    · right
      rw [h10 ho]
      obtain ⟨a, b, d, e⟩ := ho
      exact ⟨hk.2.1.trans a, hk.2.2.trans b, by rw [hk.1]; exact d, by rw [hk.1]; exact e⟩
    · left
      rw [h3]
      exact (h9 ho).1

theorem FSame.refl (f : Field) : FSame f f := ⟨rfl, rfl, rfl, rfl, rfl, fun _ => ⟨rfl, rfl, rfl, rfl, rfl⟩⟩

theorem FSame.trans {f g k : Field} (a : FSame f g) (b : FSame g k) : FSame f k :=
  ⟨b.arith.trans a.arith, b.isSigned.trans a.isSigned, b.hidden.trans a.hidden, b.vl.trans a.vl,
    b.isSaturating.trans a.isSaturating, fun h => by
      obtain ⟨a1, a2, a3, a4, a5⟩ := a.width h
      obtain ⟨b1, b2, b3, b4, b5⟩ := b.width (a.vl.trans h)
      exact ⟨b1.trans a1, b2.trans a2, b3.trans a3, b4.trans a4, b5.trans a5⟩⟩

theorem FSame.symm {f g : Field} (a : FSame f g) : FSame g f :=
  ⟨a.arith.symm, a.isSigned.symm, a.hidden.symm, a.vl.symm, a.isSaturating.symm, fun h => by
      obtain ⟨a1, a2, a3, a4, a5⟩ := a.width (a.vl.symm.trans h)
      exact ⟨a1.symm, a2.symm, a3.symm, a4.symm, a5.symm⟩⟩

theorem FSame.kind {f g : Field} (a : FSame f g) (h : f.vl = false) : g.kind = f.kind := by
  unfold Field.kind
  rw [(a.width h).1, a.isSigned, a.isSaturating]

/-- A copied field is the source. -/
theorem copyValue_same {f s : Field} (h : FSame f s) : f.copyValue s false = s := by
  unfold Field.copyValue Field.getValue
  obtain ⟨h1, h2, h3, h4, h5, h6⟩ := h
  cases f with | mk a1 a2 a3 a4 a5 a6 a7 a8 a9 a10 a11 a12 =>
  cases s with | mk b1 b2 b3 b4 b5 b6 b7 b8 b9 b10 b11 b12 =>
  simp only at *
  subst h1 h2 h3 h4 h5
  cases b8 with
  | true => simp
  | false =>
    obtain ⟨rfl, rfl, rfl, rfl, rfl⟩ := h6 rfl
    simp

/-! ## Header vectors -/

theorem Made.at {p0 p : Phv} (m : Made p0 p) (r : Ref) :
    (mfield p0 r = none ∧ mfield p r = none) ∨
    ∃ f g, mfield p0 r = some f ∧ mfield p r = some g ∧ FSame f g ∧ g.Shape ∧ g.vl = false ∧ Held g g.value := by
  unfold SSwitch.mfield
  cases h0 : p0.headers[r.1]? with
  | none =>
    left
    have : p.headers[r.1]? = none := by
      rw [List.getElem?_eq_none_iff] at h0 ⊢
      rw [m.len]; exact h0
    simp [this]
  | some a =>
    obtain ⟨b, hb⟩ : ∃ b, p.headers[r.1]? = some b := by
      obtain ⟨hlt, _⟩ := List.getElem?_eq_some_iff.1 h0
      exact ⟨_, List.getElem?_eq_getElem (by rw [m.len]; exact hlt)⟩
    have hs := m.headers _ _ _ h0 hb
    rw [hb]
    simp only [Option.bind_some, hs.metadata]
    by_cases hm : a.metadata = true
    · rw [if_pos hm, if_pos hm]
      cases hf : a.fields[r.2]? with
      | none =>
        left
        refine ⟨rfl, ?_⟩
        rw [List.getElem?_eq_none_iff] at hf ⊢
        rw [hs.len]; exact hf
      | some f =>
        right
        obtain ⟨hlt, _⟩ := List.getElem?_eq_some_iff.1 hf
        obtain ⟨g, hg⟩ : ∃ g, b.fields[r.2]? = some g :=
          ⟨_, List.getElem?_eq_getElem (by rw [hs.len]; exact hlt)⟩
        obtain ⟨h1, h2, h3⟩ := hs.ok hm _ _ hg
        exact ⟨f, _, rfl, hg, hs.fields _ _ _ hf hg, h1, h2, h3⟩
    · left
      simp [hm]

theorem SameHeaders.refl (p : Phv) : SameHeaders p p :=
  ⟨rfl, rfl, rfl, fun _ a h hm => ⟨a, h, hm, rfl, fun _ => rfl⟩⟩

theorem SameHeaders.trans {p q r : Phv} (a : SameHeaders p q) (b : SameHeaders q r) : SameHeaders p r :=
  ⟨b.unions.trans a.unions, b.hstacks.trans a.hstacks, b.unionStacks.trans a.unionStacks, fun h x hx hm => by
    obtain ⟨y, h1, h2, h3, h4⟩ := a.headers h x hx hm
    obtain ⟨z, h5, h6, h7, h8⟩ := b.headers h y h1 h2
    exact ⟨z, h5, h6, h7.trans h3, fun hv => by
      rw [← h4 hv]
      exact h8 (h3.trans hv)⟩⟩

/-- Writing a metadata field. -/
theorem setF_gen {rz : Bool} {p0 p p' : Phv} (m : Made p0 p) {r : Ref} {f0 : Field} (hr : mfield p0 r = some f0)
    {v : Int} (e : setF rz p r v = some p') :
    Made p0 p' ∧ SameHeaders p p' ∧ (∀ r', r' ≠ r → mfield p' r' = mfield p r') ∧
      ∃ f f', mfield p r = some f ∧ mfield p' r = some f' ∧ f.set false v = some f' := by
  rcases m.at r with h | ⟨g0, f, h1, h2, h3, h4, h5, _⟩
  · rw [h.1] at hr; cases hr
  rw [hr] at h1
  cases h1
  unfold SSwitch.mfield at h2
  cases hb : p.headers[r.1]? with
  | none => rw [hb] at h2; cases h2
  | some b =>
  rw [hb] at h2
  simp only [Option.bind_some] at h2
  by_cases hm : b.metadata = true
  swap
  · rw [if_neg hm] at h2; cases h2
  rw [if_pos hm] at h2
  have hv : b.isValid = true := by unfold Header.isValid; simp [hm]
  simp only [setF, Parse.updField, Phv.updHeader, hb, Option.bind_eq_bind, Option.bind_some, h2, hv,
    Bool.not_true, Bool.and_false, Bool.false_and] at e
  cases hf' : f.set false v with
  | none => rw [hf'] at e; cases e
  | some f' =>
  rw [hf'] at e
  cases e
  obtain ⟨hlt, _⟩ := List.getElem?_eq_some_iff.1 hb
  obtain ⟨hlt2, _⟩ := List.getElem?_eq_some_iff.1 h2
  obtain ⟨k1, k2, k3⟩ := set_same h4 hf'
  refine ⟨⟨?_, by simp [m.len], ?_⟩, ⟨rfl, rfl, rfl, ?_⟩, ?_, f, f', ?_, ?_, hf'⟩
  · exact ⟨m.layout.memb, m.layout.unions, m.layout.hstacks, m.layout.unionStacks⟩
  · intro h a x ha hx
    simp only [List.getElem?_set] at hx
    split at hx
    · rename_i heq
      subst heq
      cases hx
      have hs := m.headers _ _ _ ha hb
      refine ⟨hs.typeId, hs.vlOffset, hs.metadata, by simp [hs.len], ?_, ?_⟩
      · intro i y z hy hz
        simp only [List.getElem?_set] at hz
        split at hz
        · rename_i heq
          subst heq
          cases hz
          exact (hs.fields _ _ _ hy h2).trans k2
        · exact hs.fields _ _ _ hy hz
      · intro hma i z hz
        simp only [List.getElem?_set] at hz
        split at hz
        · rename_i heq
          subst heq
          cases hz
          exact ⟨k1, k2.vl.trans h5, k3⟩
        · exact hs.ok hma _ _ hz
    · exact m.headers _ _ _ ha hx
  · intro h a ha hma
    by_cases heq : r.1 = h
    · subst heq
      rw [hb] at ha
      cases ha
      rw [hm] at hma
      cases hma
    · refine ⟨a, ?_, hma, rfl, fun _ => rfl⟩
      simp only [List.getElem?_set, if_neg heq]
      exact ha
  · intro r' hne
    unfold SSwitch.mfield
    by_cases heq : r.1 = r'.1
    · have hne2 : r.2 ≠ r'.2 := fun h => hne (Prod.ext heq.symm h.symm)
      have hb' : p.headers[r'.1]? = some b := by rw [← heq]; exact hb
      simp only [hb', Option.bind_some, ← heq, List.getElem?_set, hlt, if_true, hm, if_neg hne2]
      rw [hb, Option.bind_some, if_pos hm]
    · simp only [List.getElem?_set, if_neg heq]
  · unfold SSwitch.mfield
    rw [hb, Option.bind_some, if_pos hm, h2]
  · unfold SSwitch.mfield
    simp only [List.getElem?_set, hlt, if_true, Option.bind_some, hm, hlt2]

theorem setF_plain {rz : Bool} {p0 p p' : Phv} (m : Made p0 p) {r : Ref}
    (hr : ∃ f, mfield p0 r = some f ∧ f.isSigned = false ∧ f.isSaturating = false)
    {v : Int} (e : setF rz p r v = some p') :
    Made p0 p' ∧ SameHeaders p p' ∧
      ∀ r', mval p' r' = if r' = r then some (stored p0 r v) else mval p r' := by
  obtain ⟨f0, h1, h2, h3⟩ := hr
  obtain ⟨k1, k2, k3, f, f', k4, k5, k6⟩ := setF_gen m h1 e
  refine ⟨k1, k2, fun r' => ?_⟩
  split
  · rename_i heq
    subst heq
    rcases m.at r' with h | ⟨g0, g, a1, a2, a3, a4, a5, _⟩
    · rw [h.1] at h1; cases h1
    rw [h1] at a1
    cases a1
    rw [k4] at a2
    cases a2
    unfold mval
    rw [k5, Option.map_some, set_plain a4 (a3.isSigned.trans h2) (a3.isSaturating.trans h3) k6]
    unfold stored width
    rw [h1, (a3.width (a3.vl.symm.trans a5)).1]
    rfl
  · rename_i hne
    unfold mval
    rw [k3 _ hne]

/-- Writing a value held by another vector of the same layout. -/
theorem setF_held {rz : Bool} {p0 p p' src : Phv} (m : Made p0 p) (ms : Made p0 src) {r : Ref}
    {v : Int} (hv : mval src r = some v) (e : setF rz p r v = some p') :
    Made p0 p' ∧ SameHeaders p p' ∧ ∀ r', mval p' r' = if r' = r then mval src r else mval p r' := by
  rcases ms.at r with h | ⟨f0, g, a1, a2, a3, a4, a5, a6⟩
  · unfold mval at hv; rw [h.2] at hv; cases hv
  obtain ⟨k1, k2, k3, f, f', k4, k5, k6⟩ := setF_gen m a1 e
  refine ⟨k1, k2, fun r' => ?_⟩
  split
  · rename_i heq
    subst heq
    rw [hv]
    unfold mval at hv ⊢
    rw [a2] at hv
    cases hv
    rcases m.at r' with h | ⟨g0, x, b1, b2, b3, b4, b5, _⟩
    · rw [h.1] at a1; cases a1
    rw [a1] at b1
    cases b1
    rw [k4] at b2
    cases b2
    rw [k5, Option.map_some]
    refine congrArg some (set_held b4 ?_ k6)
    have hk : f.kind = g.kind := by
      rw [b3.kind (b3.vl.symm.trans b5), a3.kind (a3.vl.symm.trans a5)]
    unfold Held at a6 ⊢
    unfold Field.Odd at a6 ⊢
    have hk' : f.nbits = g.nbits ∧ f.isSigned = g.isSigned ∧ f.isSaturating = g.isSaturating := by
      unfold Field.kind at hk
      injection hk with a b d
      exact ⟨a, b, d⟩
    rw [hk, hk'.1, hk'.2.1, hk'.2.2]
    exact a6
  · rename_i hne
    unfold mval
    rw [k3 _ hne]

theorem getF_meta {rz : Bool} {p : Phv} {r : Ref} (h : (mfield p r).isSome = true) :
    getF rz p r = mval p r := by
  unfold getF mval mfield at *
  cases hb : p.headers[r.1]? with
  | none => rfl
  | some b =>
    rw [hb] at h
    simp only [Option.bind_eq_bind, Option.bind_some] at h ⊢
    split at h
    · rename_i hm
      rw [if_pos hm]
      have hv : b.isValid = true := by unfold Header.isValid; simp [hm]
      cases b.fields[r.2]? with
      | none => rfl
      | some f => simp [Field.getValue, hv]
    · cases h

theorem Made.some_of {p0 p : Phv} (m : Made p0 p) {r : Ref} (h : (mfield p0 r).isSome = true) :
    (mfield p r).isSome = true := by
  rcases m.at r with k | ⟨f, g, k1, k2, _⟩
  · rw [k.1] at h; cases h
  · rw [k2]; rfl

/-- Copying a list of metadata fields. -/
theorem copyList_spec {rz : Bool} {p0 src : Phv} (ms : Made p0 src) : ∀ {l : List Ref} {p p' : Phv},
    (∀ r ∈ l, (mfield p0 r).isSome = true) → Made p0 p → copyList rz p src l = some p' →
    Made p0 p' ∧ SameHeaders p p' ∧ ∀ r, mval p' r = if r ∈ l then mval src r else mval p r
  | [], p, p', _, m, e => by
    cases e
    exact ⟨m, .refl p, fun r => by simp⟩
  | r :: l, p, p', hl, m, e => by
    simp only [copyList, Option.bind_eq_bind, Option.bind_eq_some_iff] at e
    obtain ⟨v, hv, q, hq, e⟩ := e
    rw [getF_meta (ms.some_of (hl r List.mem_cons_self))] at hv
    obtain ⟨a1, a2, a3⟩ := setF_held m ms hv hq
    obtain ⟨b1, b2, b3⟩ := copyList_spec ms (fun x hx => hl x (List.mem_cons_of_mem _ hx)) a1 e
    refine ⟨b1, a2.trans b2, fun x => ?_⟩
    rw [b3, a3]
    by_cases h1 : x ∈ l
    · simp [h1]
    · by_cases h2 : x = r
      · subst h2; simp [h1]
      · simp [h1, h2]

/-- `reset_metadata`. -/
theorem reset_spec {rz : Bool} {p0 p p' : Phv} (m : Made p0 p) (e : Phv.resetHeaders rz false p = some p') :
    Made p0 p' ∧ SameHeaders p p' ∧ ∀ r, mval p' r = (mval p0 r).map fun _ => 0 := by
  simp only [Phv.resetHeaders, Option.bind_eq_bind, Option.bind_eq_some_iff, Bool.false_or] at e
  obtain ⟨hs, e1, e⟩ := e
  cases e
  have hlen := Phv.mapM_length e1
  have hget := Phv.mapM_getElem? e1
  -- one header
  have hone : ∀ (h : Nat) (b : Header), p.headers[h]? = some b → b.metadata = true →
      ∃ fs, hs[h]? = some { b with fields := fs } ∧ b.fields.mapM (fun f => f.set false 0) = some fs := by
    intro h b hb hm
    have hv : b.isValid = true := by unfold Header.isValid; simp [hm]
    have h1 := hget h
    rw [hb, Option.bind_some, if_pos hm, hv] at h1
    obtain ⟨hlt, _⟩ := List.getElem?_eq_some_iff.1 hb
    rw [← hlen] at hlt
    rw [List.getElem?_eq_getElem hlt] at h1 ⊢
    simp only [Header.reset, Option.bind_eq_bind, Bool.not_true, Bool.and_false, Bool.false_and] at h1
    obtain ⟨fs, h2, h3⟩ := Option.bind_eq_some_iff.1 h1.symm
    exact ⟨fs, by rw [← h3]; rfl, h2⟩
  have hno : ∀ (h : Nat) (b : Header), p.headers[h]? = some b → b.metadata = false → hs[h]? = some b := by
    intro h b hb hm
    have h1 := hget h
    rw [hb, Option.bind_some, if_neg (by simp [hm])] at h1
    exact h1
  have hmade : Made p0 { p with headers := hs } := by
    refine ⟨⟨m.layout.memb, m.layout.unions, m.layout.hstacks, m.layout.unionStacks⟩, hlen.trans m.len, ?_⟩
    intro h a x ha hx
    obtain ⟨b, hb⟩ : ∃ b, p.headers[h]? = some b := by
      obtain ⟨hlt, _⟩ := List.getElem?_eq_some_iff.1 ha
      exact ⟨_, List.getElem?_eq_getElem (by rw [m.len]; exact hlt)⟩
    have hab := m.headers _ _ _ ha hb
    by_cases hm : b.metadata = true
    · obtain ⟨fs, h1, h2⟩ := hone h b hb hm
      simp only at hx
      rw [h1] at hx
      cases hx
      have hl := Phv.mapM_length h2
      have hg := Phv.mapM_getElem? h2
      have hma : a.metadata = true := hab.metadata.symm.trans hm
      have key : ∀ (i : Nat) (g : Field), fs[i]? = some g →
          ∃ f, b.fields[i]? = some f ∧ f.set false 0 = some g := by
        intro i g hgi
        rw [hg i] at hgi
        obtain ⟨f, h3, h4⟩ := Option.bind_eq_some_iff.1 hgi
        exact ⟨f, h3, h4⟩
      refine ⟨hab.typeId, hab.vlOffset, hab.metadata, hl.trans hab.len, ?_, ?_⟩
      · intro i x y hx hy
        obtain ⟨f, h3, h4⟩ := key i y hy
        exact (hab.fields _ _ _ hx h3).trans (set_same (hab.ok hma _ _ h3).1 h4).2.1
      · intro _ i y hy
        obtain ⟨f, h3, h4⟩ := key i y hy
        obtain ⟨k1, k2, k3⟩ := hab.ok hma _ _ h3
        obtain ⟨s1, s2, s3⟩ := set_same k1 h4
        exact ⟨s1, s2.vl.trans k2, s3⟩
    · have := hno h b hb (by simpa using hm)
      simp only at hx
      rw [this] at hx
      cases hx
      exact hab
  refine ⟨hmade, ⟨rfl, rfl, rfl, ?_⟩, ?_⟩
  · intro h a ha hm
    exact ⟨a, hno h a ha hm, hm, rfl, fun _ => rfl⟩
  · intro r
    unfold mval
    rcases hmade.at r with k | ⟨f0, g, k1, k2, k3, k4, k5, _⟩
    · rw [k.1, k.2]; rfl
    · rw [k1, k2]
      simp only [Option.map_some, Option.some.injEq]
      unfold SSwitch.mfield at k2
      obtain ⟨x, hx, k2⟩ := Option.bind_eq_some_iff.1 k2
      split at k2
      swap
      · cases k2
      rename_i hxm
      simp only at hx
      obtain ⟨b, hb⟩ : ∃ b, p.headers[r.1]? = some b := by
        obtain ⟨hlt, _⟩ := List.getElem?_eq_some_iff.1 hx
        exact ⟨_, List.getElem?_eq_getElem (by rw [← hlen]; exact hlt)⟩
      have hm : b.metadata = true := by
        by_contra hm
        have := hno _ b hb (by simpa using hm)
        rw [hx] at this
        cases this
        exact hm hxm
      obtain ⟨fs, h1, h2⟩ := hone _ b hb hm
      rw [hx] at h1
      cases h1
      rw [Phv.mapM_getElem? h2] at k2
      obtain ⟨f, h3, h4⟩ := Option.bind_eq_some_iff.1 k2
      have hm0 : (SSwitch.mfield p r).isSome = true := m.some_of (by rw [k1]; rfl)
      rcases m.at r with k | ⟨f0', g', c1, c2, c3, c4, _⟩
      · rw [k.2] at hm0; cases hm0
      unfold SSwitch.mfield at c2
      rw [hb, Option.bind_some, if_pos hm, h3] at c2
      cases c2
      exact set_held c4 (held_zero c4) h4

/-- `copy_headers` into a vector of the same factory. -/
theorem copy_spec {rz : Bool} {p0 p src : Phv} (m : Made p0 p) (ms : Made p0 src) :
    Made p0 (Phv.copyHeaders rz p src) ∧ SameHeaders src (Phv.copyHeaders rz p src) ∧
      ∀ r, mfield (Phv.copyHeaders rz p src) r = mfield src r := by
  have hl : p.headers.length = src.headers.length := m.len.trans ms.len.symm
  have hst : ∀ (h : Nat) (x s : Header), p.headers[h]? = some x → src.headers[h]? = some s →
      HSame x s ∨ ∃ a, HSame a x ∧ HSame a s := by
    intro h x s hx hs
    obtain ⟨a, ha⟩ : ∃ a, p0.headers[h]? = some a := by
      obtain ⟨hlt, _⟩ := List.getElem?_eq_some_iff.1 hx
      exact ⟨_, List.getElem?_eq_getElem (by rw [← m.len]; exact hlt)⟩
    exact Or.inr ⟨a, m.headers _ _ _ ha hx, ms.headers _ _ _ ha hs⟩
  have hcopy : ∀ (a x s : Header), HSame a x → HSame a s → (s.valid || s.metadata) = true →
      Phv.copyHeader rz x s = s := by
    intro a x s hax has hv
    have hiv : s.isValid = true := by
      unfold Header.isValid
      rw [Bool.or_comm]; exact hv
    unfold Phv.copyHeader Header.copyFields
    simp only [hv, if_true, hiv, Bool.not_true, Bool.and_false, Bool.false_and]
    have hfs : List.zipWith (fun f s => f.copyValue s false) x.fields s.fields = s.fields := by
      apply List.ext_getElem?
      intro i
      rw [List.getElem?_zipWith]
      cases hf : x.fields[i]? with
      | none =>
        have : s.fields[i]? = none := by
          rw [List.getElem?_eq_none_iff] at hf ⊢
          rw [has.len, ← hax.len]; exact hf
        rw [this]
      | some f =>
        obtain ⟨hlt, _⟩ := List.getElem?_eq_some_iff.1 hf
        obtain ⟨y, h1⟩ : ∃ y, s.fields[i]? = some y :=
          ⟨_, List.getElem?_eq_getElem (by rw [has.len, ← hax.len]; exact hlt)⟩
        obtain ⟨z, h0⟩ : ∃ z, a.fields[i]? = some z :=
          ⟨_, List.getElem?_eq_getElem (by rw [← hax.len]; exact hlt)⟩
        rw [h1]
        simp only
        rw [copyValue_same ((hax.fields _ _ _ h0 hf).symm.trans (has.fields _ _ _ h0 h1))]
    rw [hfs]
    cases x; cases s
    simp only [Header.mk.injEq]
    have h1 := hax.typeId
    have h2 := hax.vlOffset
    have h3 := has.typeId
    have h4 := has.vlOffset
    simp only at h1 h2 h3 h4
    exact ⟨h1.trans h3.symm, h2.trans h4.symm, trivial, trivial, trivial, trivial⟩
  have hget : ∀ h : Nat, (Phv.copyHeaders rz p src).headers[h]? =
      (match p.headers[h]?, src.headers[h]? with
        | some x, some s => some (Phv.copyHeader rz x s) | _, _ => none) := by
    intro h
    unfold Phv.copyHeaders
    simp only [List.getElem?_zipWith]
    cases p.headers[h]? <;> cases src.headers[h]? <;> rfl
  have hx : ∀ (h : Nat) (s : Header), src.headers[h]? = some s → ∃ a x, p.headers[h]? = some x ∧ HSame a x ∧ HSame a s := by
    intro h s hs
    obtain ⟨hlt, _⟩ := List.getElem?_eq_some_iff.1 hs
    obtain ⟨y, h1⟩ : ∃ y, p.headers[h]? = some y := ⟨_, List.getElem?_eq_getElem (by rw [hl]; exact hlt)⟩
    obtain ⟨z, h0⟩ : ∃ z, p0.headers[h]? = some z := ⟨_, List.getElem?_eq_getElem (by rw [← ms.len]; exact hlt)⟩
    exact ⟨_, _, h1, m.headers _ _ _ h0 h1, ms.headers _ _ _ h0 hs⟩
  have hstk : ∀ (l l' : List Stack), l.map (·.elements) = l'.map (·.elements) →
      List.zipWith (fun s t => { s with next := t.next }) l l' = l' := by
    intro l
    induction l with
    | nil => intro l' h; cases l' with
      | nil => rfl
      | cons => simp at h
    | cons x l ih => intro l' h; cases l' with
      | nil => simp at h
      | cons y l' =>
        simp only [List.map_cons, List.cons.injEq] at h
        simp only [List.zipWith_cons_cons, ih l' h.2, h.1]
  have hun : ∀ (l l' : List HUnion), l.map (·.members) = l'.map (·.members) →
      List.zipWith (fun x y => { x with valid := y.valid, idx := y.idx }) l l' = l' := by
    intro l
    induction l with
    | nil => intro l' h; cases l' with
      | nil => rfl
      | cons => simp at h
    | cons x l ih => intro l' h; cases l' with
      | nil => simp at h
      | cons y l' =>
        simp only [List.map_cons, List.cons.injEq] at h
        simp only [List.zipWith_cons_cons, ih l' h.2, h.1]
  have lay := m.layout.symm.trans ms.layout
  have e1 : (Phv.copyHeaders rz p src).unions = src.unions := hun _ _ lay.unions.symm
  have e2 : (Phv.copyHeaders rz p src).hstacks = src.hstacks := hstk _ _ lay.hstacks.symm
  have e3 : (Phv.copyHeaders rz p src).unionStacks = src.unionStacks := hstk _ _ lay.unionStacks.symm
  refine ⟨⟨⟨m.layout.memb, ?_, ?_, ?_⟩, ?_, ?_⟩, ⟨congrArg _ e1, e2, e3, ?_⟩, ?_⟩
  · rw [e1]; exact ms.layout.unions
  · rw [e2]; exact ms.layout.hstacks
  · rw [e3]; exact ms.layout.unionStacks
  · simp [Phv.copyHeaders, hl, ms.len]
  · intro h a b ha hb
    rw [hget] at hb
    cases h1 : p.headers[h]? with
    | none => rw [h1] at hb; cases hb
    | some x =>
    cases h2 : src.headers[h]? with
    | none => rw [h1, h2] at hb; cases hb
    | some s =>
    rw [h1, h2] at hb
    cases hb
    have hax := m.headers _ _ _ ha h1
    have has := ms.headers _ _ _ ha h2
    by_cases hv : (s.valid || s.metadata) = true
    · rw [hcopy a x s hax has hv]
      exact has
    · unfold Phv.copyHeader
      simp only [hv]
      refine ⟨hax.typeId, hax.vlOffset, has.metadata, hax.len, hax.fields, fun hm => ?_⟩
      exfalso
      apply hv
      rw [has.metadata, hm]
      simp
  · intro h s hs hm
    obtain ⟨a, x, h1, hax, has⟩ := hx h s hs
    refine ⟨Phv.copyHeader rz x s, ?_, ?_, ?_, fun hv => ?_⟩
    · rw [hget, h1, hs]
    · unfold Phv.copyHeader Header.copyFields
      simp only
      split <;> exact hm
    · unfold Phv.copyHeader Header.copyFields
      simp only
      split <;> rfl
    · exact hcopy a x s hax has (by rw [hv]; rfl)
  · intro r
    unfold SSwitch.mfield
    rw [hget]
    cases h2 : src.headers[r.1]? with
    | none =>
      cases h1 : p.headers[r.1]? <;> rfl
    | some s =>
      obtain ⟨a, x, h1, hax, has⟩ := hx _ s h2
      rw [h1]
      simp only [Option.bind_some]
      by_cases hm : s.metadata = true
      · rw [hcopy a x s hax has (by rw [hm]; simp)]
      · have : (Phv.copyHeader rz x s).metadata = s.metadata := by
          unfold Phv.copyHeader Header.copyFields
          simp only
          split <;> rfl
        rw [this, if_neg hm, if_neg hm]

/-! ## Names -/

theorem mem_all {n : Names} : n.ingressPort ∈ n.all ∧ n.packetLength ∈ n.all ∧ n.instanceType ∈ n.all ∧
    n.egressSpec ∈ n.all ∧ n.egressPort ∈ n.all := by
  unfold Names.all
  simp

theorem mem_mcast {n : Names} {r : Ref} (h : n.mcastGrp = some r) : r ∈ n.all := by
  unfold Names.all
  simp [h]

theorem mem_rid {n : Names} {r : Ref} (h : n.egressRid = some r) : r ∈ n.all := by
  unfold Names.all
  simp [h]

theorem mem_priority {n : Names} {r : Ref} (h : n.priority = some r) : r ∈ n.all := by
  unfold Names.all
  simp [h]

theorem mem_queueing {n : Names} {a b d e : Ref} (h : n.queueing = some (a, b, d, e)) :
    a ∈ n.all ∧ b ∈ n.all ∧ d ∈ n.all ∧ e ∈ n.all := by
  unfold Names.all
  simp [h]

theorem rid_ne_priority {n : Names} (h : n.all.Nodup) {r r' : Ref} (hr : n.egressRid = some r)
    (hp : n.priority = some r') : r' ≠ r := by
  rintro rfl
  unfold Names.all at h
  rw [hr, hp] at h
  simp only [Option.toList_some, List.nodup_append, List.mem_append, List.mem_singleton] at h
  grind

variable {c : Cfg} {p0 : Phv}

theorem Std.isSome (hc : Std c p0) {r : Ref} (h : r ∈ c.names.all) : (mfield p0 r).isSome = true := by
  obtain ⟨f, h1, _⟩ := hc.plain r h
  rw [h1]; rfl

theorem getF_name (hc : Std c p0) {p : Phv} (m : Made p0 p) {r : Ref} (h : r ∈ c.names.all) :
    getF c.rz p r = mval p r := getF_meta (m.some_of (hc.isSome h))

/-- Values of standard metadata are natural numbers. -/
theorem mval_nat (hc : Std c p0) {p : Phv} (m : Made p0 p) {r : Ref} (h : r ∈ c.names.all) :
    ∃ n : Nat, mval p r = some (n : Int) := by
  obtain ⟨f0, h1, h2, h3⟩ := hc.plain r h
  rcases m.at r with k | ⟨g0, f, k1, k2, k3, k4, k5, k6⟩
  · rw [k.1] at h1; cases h1
  · rw [h1] at k1
    cases k1
    have hs := k3.isSigned.trans h2
    have h0 : 0 ≤ f.value := by
      rcases k6 with k6 | k6
      · unfold Kind.Fits Kind.lowest Field.kind at k6
        simp only [hs, Bool.false_eq_true, if_false] at k6
        exact k6.1
      · have := k6.1
        rw [hs] at this
        cases this
    refine ⟨f.value.toNat, ?_⟩
    unfold mval
    rw [k2, Option.map_some, Int.toNat_of_nonneg h0]

theorem priority_exists (hc : Std c p0) {p : Phv} (m : Made p0 p) : ∃ n, PriorityIs c (mval p) n := by
  unfold PriorityIs
  cases h : c.names.priority with
  | none => exact ⟨0, rfl⟩
  | some r => exact mval_nat hc m (mem_priority h)

/-! ## Flags -/

theorem getFlag_len {f : Flag} (hf : f ∈ flags) (r : Regs) (v : BitVec 64) :
    getFlag f (setReg r lenReg v) = getFlag f r := by
  have : ∀ f ∈ flags, f.reg ≠ lenReg := by decide
  unfold getFlag setReg
  rw [if_neg (this f hf)]

theorem noFlags_new (r : Regs) (v : BitVec 64) : ∀ f ∈ flags, getFlag f (setReg (clearAll r) lenReg v) = 0 := by
  intro f hf
  rw [getFlag_len hf]
  exact (C41_clear r).1 f hf

theorem size_new (r : Regs) (v : BitVec 64) : setReg r lenReg v lenReg = v := by
  simp [setReg]

/-! ## Queueing -/

theorem enqueue_spec (hc : Std c p0) {w : World} {port : Nat} {p : Pkt} (m : Made p0 p.phv) {es : List Eff}
    (e : enqueue c w port p = some es) :
    ∃ prio, PriorityIs c (mval p.phv) prio ∧ (c.nbQueues ≤ prio → es = []) ∧
      (prio < c.nbQueues → ∃ phv, es = [.enqueue port prio { p with ePort := port, phv }] ∧ Made p0 phv ∧
        SameHeaders p.phv phv ∧ ∀ r, r ∉ queueRefs c → mval phv r = mval p.phv r) := by
  simp only [enqueue, Option.bind_eq_bind] at e
  obtain ⟨prio, h1, e⟩ := Option.bind_eq_some_iff.1 e
  refine ⟨prio, ?_, ?_, ?_⟩
  · unfold PriorityIs
    unfold priorityOf at h1
    cases hp : c.names.priority with
    | none => rw [hp] at h1; cases h1; rfl
    | some r =>
      rw [hp] at h1
      simp only at h1
      rw [getF_name hc m (mem_priority hp)] at h1
      obtain ⟨n, hn⟩ := mval_nat hc m (mem_priority hp)
      rw [hn, Option.bind_eq_bind, Option.bind_some] at h1
      unfold getSize at h1
      split at h1
      · cases h1
        simpa using hn
      · cases h1
  · intro h
    rw [if_pos h] at e
    cases e
    rfl
  · intro h
    rw [if_neg (by omega)] at e
    obtain ⟨phv, h2, e⟩ := Option.bind_eq_some_iff.1 e
    cases e
    refine ⟨phv, rfl, ?_⟩
    unfold queueRefs
    unfold stamp at h2
    cases hq : c.names.queueing with
    | none =>
      rw [hq] at h2
      cases h2
      exact ⟨m, .refl _, fun _ _ => rfl⟩
    | some t =>
      obtain ⟨a, b, d, e'⟩ := t
      rw [hq] at h2
      simp only at h2 ⊢
      obtain ⟨phv1, h3, h4⟩ := Option.bind_eq_some_iff.1 h2
      obtain ⟨ma, mb, _, _⟩ := mem_queueing hq
      obtain ⟨a1, a2, a3⟩ := setF_plain m (hc.plain _ ma) h3
      obtain ⟨b1, b2, b3⟩ := setF_plain a1 (hc.plain _ mb) h4
      refine ⟨b1, a2.trans b2, fun r hr => ?_⟩
      simp only [List.mem_cons, List.not_mem_nil, or_false, not_or] at hr
      rw [b3, if_neg hr.2, a3, if_neg hr.1]

/-- The content of a packet as it is queued. -/
theorem enqueue_unicasts (hc : Std c p0) {w : World} {port : Nat} {p : Pkt} (m : Made p0 p.phv) {es : List Eff}
    (e : enqueue c w port p = some es) {x : Content} (hx : p.inPort = x.inPort ∧ p.inLen = x.inLen ∧
      p.data = x.data ∧ p.regs lenReg = x.size) (hh : SameHeaders x.headers p.phv)
    (hm : ∀ r, mval p.phv r = x.md r) :
    Unicasts c x port es ∧ ∀ port' prio q, Eff.enqueue port' prio q ∈ es →
      q.regs = p.regs ∧ q.trunc = p.trunc := by
  obtain ⟨prio, h1, h2, h3⟩ := enqueue_spec hc m e
  have hpr : PriorityIs c x.md prio := by
    unfold PriorityIs at h1 ⊢
    cases hp : c.names.priority with
    | none => rw [hp] at h1; exact h1
    | some r => rw [hp] at h1; simp only at h1 ⊢; rw [← hm]; exact h1
  refine ⟨⟨prio, hpr, fun h => ?_, h2⟩, fun port' prio' q hq => ?_⟩
  · obtain ⟨phv, h4, h5, h6, h7⟩ := h3 h
    exact ⟨_, h4, prio, _, rfl, hpr, h, rfl,
      ⟨hx.1, hx.2.1, hx.2.2.1, hx.2.2.2, hh.trans h6, fun r hr => by
        rw [← hm, ← h7 r hr]⟩⟩
  · rcases lt_or_ge prio c.nbQueues with h | h
    · obtain ⟨phv, h4, _⟩ := h3 h
      rw [h4] at hq
      simp only [List.mem_singleton, Eff.enqueue.injEq] at hq
      obtain ⟨_, _, rfl⟩ := hq
      exact ⟨rfl, rfl⟩
    · rw [h2 h] at hq
      cases hq

theorem Md.put_put (m : Md) (p0 : Phv) (r : Ref) (v w : Int) : (m.put p0 r v).put p0 r w = m.put p0 r w := by
  funext x
  unfold Md.put
  split <;> rfl

theorem priority_put (hc : Std c p0) {m : Md} {rid : Ref} (hr : c.names.egressRid = some rid) {v : Int}
    {n : Nat} : PriorityIs c (m.put p0 rid v) n ↔ PriorityIs c m n := by
  unfold PriorityIs Md.put
  cases hp : c.names.priority with
  | none => exact Iff.rfl
  | some r =>
    simp only
    rw [if_neg (rid_ne_priority hc.apart hr hp)]

theorem PriorityIs.inj {m : Md} {n k : Nat} (h : PriorityIs c m n) (h' : PriorityIs c m k) : n = k := by
  unfold PriorityIs at h h'
  cases hp : c.names.priority with
  | none => rw [hp] at h h'; exact h.trans h'.symm
  | some r =>
    rw [hp] at h h'
    simp only at h h'
    rw [h] at h'
    simpa using h'

/-- The loop of `multicast`. -/
theorem loop_spec (hc : Std c p0) {rid : Ref} (hr : c.names.egressRid = some rid) {size : BitVec 64} {prio : Nat} :
    ∀ {outs : List (Nat × Nat)} {o : Oracle} {p p' : Pkt} {es : List Eff},
    (∀ i, Made p0 (o i).stale) → Made p0 p.phv → PriorityIs c (mval p.phv) prio →
    multicastLoop c size rid o p outs = some (p', es) →
    (∃ phv, p' = { p with phv } ∧ Made p0 phv ∧ SameHeaders p.phv phv ∧
      ∀ r, mval phv r = leftRid c p0 outs (mval p.phv) r) ∧
    (prio < c.nbQueues → List.Forall₂ (fun out e => QueuesNew c
        { inPort := p.inPort, inLen := p.inLen, data := p.data, size, headers := p.phv,
          md := Md.put (mval p.phv) p0 rid (out.2 : Nat) } out.1 e) outs es) ∧
    (c.nbQueues ≤ prio → es = [])
  | [], o, p, p', es, _, m, _, e => by
    cases e
    refine ⟨⟨p.phv, rfl, m, .refl _, fun r => ?_⟩, fun _ => .nil, fun _ => rfl⟩
    unfold leftRid
    rw [hr]
    rfl
  | (port, rv) :: outs, o, p, p', es, ho, m, hp, e => by
    simp only [multicastLoop, Option.bind_eq_bind] at e
    obtain ⟨phv1, h1, e⟩ := Option.bind_eq_some_iff.1 e
    obtain ⟨es1, h2, e⟩ := Option.bind_eq_some_iff.1 e
    obtain ⟨⟨p2, es2⟩, h3, e⟩ := Option.bind_eq_some_iff.1 e
    cases e
    obtain ⟨a1, a2, a3⟩ := setF_plain m (hc.plain _ (mem_rid hr)) h1
    have hmd : ∀ r, mval phv1 r = Md.put (mval p.phv) p0 rid (rv : Nat) r := a3
    have hp1 : PriorityIs c (mval phv1) prio := by
      have : mval phv1 = Md.put (mval p.phv) p0 rid (rv : Nat) := funext hmd
      rw [this]
      exact (priority_put hc hr).2 hp
    obtain ⟨⟨phv, b1, b2, b3, b4⟩, b5, b6⟩ := loop_spec hc hr (p := { p with phv := phv1 })
      (fun i => ho (1 + i)) a1 hp1 h3
    -- the copy
    obtain ⟨c1, c2, c3⟩ := copy_spec (rz := c.rz) (ho 0) a1
    have hq := enqueue_unicasts hc (p := { cloneWithPhv c.rz (o 0) { p with phv := phv1 } with
        regs := setReg (clearAll (cloneWithPhv c.rz (o 0) { p with phv := phv1 }).regs) lenReg size }) c1 h2
      (x := { inPort := p.inPort, inLen := p.inLen, data := p.data, size, headers := p.phv,
              md := Md.put (mval p.phv) p0 rid (rv : Nat) })
      ⟨rfl, rfl, rfl, size_new (clearAll (o 0).regs) size⟩ (a2.trans c2) (fun r => by
        refine Eq.trans ?_ (hmd r)
        unfold mval
        exact congrArg _ (c3 r))
    obtain ⟨⟨prio', d1, d2, d3⟩, d4⟩ := hq
    have hpp : prio' = prio := ((priority_put hc hr).1 d1).inj hp
    subst hpp
    refine ⟨⟨phv, by rw [b1], b2, a2.trans b3, fun r => ?_⟩, fun h => ?_, fun h => ?_⟩
    · rw [b4, funext hmd]
      unfold leftRid
      rw [hr]
      cases hl : outs.getLast? with
      | none =>
        have : outs = [] := List.getLast?_eq_none_iff.1 hl
        subst this
        rfl
      | some out =>
        rw [List.getLast?_cons, hl]
        simp only [Option.getD_some, Md.put_put]
    · obtain ⟨e1, f1, f2⟩ := d2 h
      subst f1
      refine List.Forall₂.cons ⟨f2, fun port' prio q hq => ?_⟩ ?_
      · obtain ⟨g1, g2⟩ := d4 port' prio q (by rw [hq]; exact List.mem_singleton_self _)
        refine ⟨fun f hf => ?_, g2⟩
        rw [g1]
        exact noFlags_new (o 0).regs size f hf
      · have := b5 h
        refine List.Forall₂.imp (fun out e' he => ?_) this
        obtain ⟨⟨pr, q, k1, k2, k3, k4, k5⟩, k6⟩ := he
        refine ⟨⟨pr, q, k1, ?_, k3, k4, ⟨k5.inPort, k5.inLen, k5.data, k5.size, a2.trans k5.headers, ?_⟩⟩, k6⟩
        · rw [funext hmd] at k2
          simp only [Md.put_put] at k2
          exact k2
        · intro r hrq
          have := k5.md r hrq
          simp only [funext hmd, Md.put_put] at this
          exact this
    · rw [d3 h, b6 h]
      rfl

theorem multicast_spec (hc : Std c p0) {o : Oracle} {p p' : Pkt} {g : Nat} {es : List Eff}
    (ho : ∀ i, Made p0 (o i).stale) (m : Made p0 p.phv) (e : multicast c o p g = some (p', es)) {x : Content}
    (hx : p.inPort = x.inPort ∧ p.inLen = x.inLen ∧ p.data = x.data ∧ p.regs lenReg = x.size)
    (hh : SameHeaders x.headers p.phv) (hm : ∀ r, mval p.phv r = x.md r) :
    ∃ outs, Multicasts c p0 x g outs es ∧
      ∃ phv, p' = { p with phv } ∧ Made p0 phv ∧ SameHeaders p.phv phv ∧ ∀ r, mval phv r = leftRid c p0 outs x.md r := by
  simp only [multicast, Option.bind_eq_bind] at e
  obtain ⟨rid, h1, e⟩ := Option.bind_eq_some_iff.1 e
  obtain ⟨outs, h2, e⟩ := Option.bind_eq_some_iff.1 e
  obtain ⟨prio, hp⟩ := priority_exists hc m
  obtain ⟨h3, h4, h5⟩ := loop_spec hc h1 ho m hp e
  have hmd : mval p.phv = x.md := funext hm
  rw [hmd] at h3 h4 hp
  refine ⟨outs, ⟨rid, prio, h1, h2, hp, fun h => ?_, h5⟩, h3⟩
  refine List.Forall₂.imp (fun out e' he => ?_) (h4 h)
  obtain ⟨⟨pr, q, k1, k2, k3, k4, k5⟩, k6⟩ := he
  exact ⟨⟨pr, q, k1, k2, k3, k4, ⟨k5.inPort.trans hx.1, k5.inLen.trans hx.2.1, k5.data.trans hx.2.2.1,
    k5.size.trans hx.2.2.2, hh.trans k5.headers, k5.md⟩⟩, k6⟩

theorem sendClone_spec (hc : Std c p0) {o : Oracle} {s : Session} {q : Pkt} {es : List Eff}
    (ho : ∀ i, Made p0 (o i).stale) (m : Made p0 q.phv) (e : sendClone c o s q = some es) {x : Content}
    (hx : q.inPort = x.inPort ∧ q.inLen = x.inLen ∧ q.data = x.data ∧ q.regs lenReg = x.size)
    (hh : SameHeaders x.headers q.phv) (hm : ∀ r, mval q.phv r = x.md r) (hf : NoFlags q)
    (ht : q.trunc = noTrunc) : Mirrors c p0 s x es := by
  simp only [sendClone, Option.bind_eq_bind] at e
  obtain ⟨⟨q', em⟩, h1, e⟩ := Option.bind_eq_some_iff.1 e
  obtain ⟨eu, h2, e⟩ := Option.bind_eq_some_iff.1 e
  cases e
  simp only at h2
  -- after multicast
  have key : ∃ outs, (s.mgid = none → outs = [] ∧ em = []) ∧
      (∀ g, s.mgid = some g → Multicasts c p0 x g outs em) ∧
      ∃ phv, q' = { q with phv } ∧ Made p0 phv ∧ SameHeaders q.phv phv ∧
        ∀ r, mval phv r = leftRid c p0 outs x.md r := by
    unfold cloneGroup at h1
    cases hg : s.mgid with
    | none =>
      rw [hg] at h1
      cases h1
      refine ⟨[], fun _ => ⟨rfl, rfl⟩, fun g h => (by cases h), q.phv, rfl, m, .refl _, fun r => ?_⟩
      rw [hm]
      unfold leftRid
      cases c.names.egressRid <;> rfl
    | some g =>
      rw [hg] at h1
      simp only at h1
      obtain ⟨outs, k1, k2⟩ := multicast_spec hc ho m h1 hx hh hm
      exact ⟨outs, fun h => (by cases h), fun g' h => (by cases h; exact k1), k2⟩
  obtain ⟨outs, k1, k2, phv, k3, k4, k5, k6⟩ := key
  subst k3
  refine ⟨outs, em, eu, rfl, k1, k2, fun h => ?_, fun port h => ?_⟩
  · unfold clonePort at h2
    rw [h] at h2
    cases h2
    rfl
  · unfold clonePort at h2
    rw [h] at h2
    simp only at h2
    obtain ⟨a1, a2⟩ := enqueue_unicasts hc (p := { q with phv }) k4 h2
      (x := { x with md := leftRid c p0 outs x.md }) hx (hh.trans k5) k6
    refine ⟨a1, fun port' prio y hy => ?_⟩
    obtain ⟨b1, b2⟩ := a2 port' prio y hy
    exact ⟨fun f hf' => by rw [b1]; exact hf f hf', b2.trans ht⟩

theorem copyListSetType_spec (hc : Std c p0) {src dst dst' : Phv} {type : Int} {n : Nat} (ms : Made p0 src)
    (md : Made p0 dst) (e : copyListSetType c src dst type n = some dst') :
    ∃ l, c.fieldLists n = some l ∧ Made p0 dst' ∧ SameHeaders dst dst' ∧
      ∀ r, mval dst' r = (zeroBut p0 l (mval src)).put p0 c.names.instanceType type r := by
  simp only [copyListSetType, Option.bind_eq_bind] at e
  obtain ⟨d1, h1, e⟩ := Option.bind_eq_some_iff.1 e
  obtain ⟨l, h2, e⟩ := Option.bind_eq_some_iff.1 e
  obtain ⟨d2, h3, e⟩ := Option.bind_eq_some_iff.1 e
  obtain ⟨a1, a2, a3⟩ := reset_spec md h1
  obtain ⟨b1, b2, b3⟩ := copyList_spec ms (hc.lists n l h2) a1 h3
  obtain ⟨k1, k2, k3⟩ := setF_plain b1 (hc.plain _ mem_all.2.2.1) e
  refine ⟨l, h2, k1, a2.trans (b2.trans k2), fun r => ?_⟩
  rw [k3]
  unfold Md.put zeroBut
  rw [b3, a3]

theorem setFlag_self {f : Flag} (hf : f ∈ flags) (r : Regs) (v : BitVec 16) : getFlag f (setFlag f r v) = v :=
  (C41 f hf r v).1

theorem setFlag_ne {f g : Flag} (hf : f ∈ flags) (hg : g ∈ flags) (h : g ≠ f) (r : Regs) (v : BitVec 16) :
    getFlag g (setFlag f r v) = getFlag g r :=
  (C41 f hf r v).2.1 g hg h

theorem setFlag_len {f : Flag} (hf : f ∈ flags) (r : Regs) (v : BitVec 16) :
    setFlag f r v lenReg = r lenReg :=
  (C41 f hf r v).2.2.1

theorem ingressClone_spec (hc : Std c p0) {o : Oracle} {p p' : Pkt} {saved : Bytes} {size : BitVec 64}
    {es : List Eff} (ho : ∀ i, Made p0 (o i).stale) (m : Made p0 p.phv)
    (e : ingressClone c o p saved size = some (p', es)) :
    Clones c p0 (o 0).stale p saved size es ∧ ∃ regs, p' = { p with regs } ∧ regs lenReg = p.regs lenReg ∧
      getFlag cloneSession regs = 0 ∧
      ∀ f ∈ flags, f ≠ cloneSession → f ≠ cloneList → getFlag f regs = getFlag f p.regs := by
  simp only [ingressClone] at e
  split at e
  · rename_i h0
    cases e
    exact ⟨⟨fun _ => rfl, fun h => absurd h0 h, fun h => absurd h0 h⟩, p.regs, rfl, rfl, h0, fun _ _ _ _ => rfl⟩
  · rename_i h0
    have hregs : (setFlag cloneList (setFlag cloneSession p.regs 0) 0) lenReg = p.regs lenReg ∧
        getFlag cloneSession (setFlag cloneList (setFlag cloneSession p.regs 0) 0) = 0 ∧
        ∀ f ∈ flags, f ≠ cloneSession → f ≠ cloneList →
          getFlag f (setFlag cloneList (setFlag cloneSession p.regs 0) 0) = getFlag f p.regs := by
      have c1 : cloneSession ∈ flags := by decide
      have c2 : cloneList ∈ flags := by decide
      refine ⟨?_, ?_, fun f hf h1 h2 => ?_⟩
      · rw [setFlag_len c2, setFlag_len c1]
      · rw [setFlag_ne c2 c1 (by decide), setFlag_self c1]
      · rw [setFlag_ne c2 hf h2, setFlag_ne c1 hf h1]
    split at e
    · rename_i hs
      cases e
      exact ⟨⟨fun h => absurd h h0, fun _ _ => rfl, fun _ s h => by rw [hs] at h; cases h⟩, _, rfl, hregs⟩
    · rename_i s hs
      simp only [Option.bind_eq_bind] at e
      obtain ⟨phv1, h1, e⟩ := Option.bind_eq_some_iff.1 e
      obtain ⟨r, h2, e⟩ := Option.bind_eq_some_iff.1 e
      obtain ⟨phv2, h3, e⟩ := Option.bind_eq_some_iff.1 e
      obtain ⟨es', h4, e⟩ := Option.bind_eq_some_iff.1 e
      cases e
      obtain ⟨a1, a2, a3⟩ := setF_plain (p := (o 0).stale) (ho 0) (hc.plain _ mem_all.1) h1
      have b1 := hc.parser _ _ _ _ a1 h2
      obtain ⟨l, d1, d2, d3, d4⟩ := copyListSetType_spec hc m b1 h3
      refine ⟨⟨fun h => absurd h h0, fun _ h => (by rw [hs] at h; cases h), fun _ s' h => ?_⟩, _, rfl, hregs⟩
      rw [hs] at h
      cases h
      refine ⟨l, phv1, r, d1, a1, a2, ?_, h2, ?_⟩
      · rw [a3, if_pos rfl]
      · refine sendClone_spec hc (fun i => ho (1 + i)) ?_ h4 ⟨rfl, rfl, rfl, ?_⟩ d3 d4 ?_ rfl
        · exact d2
        · exact size_new (clearAll (o 0).regs) size
        · exact fun f hf => noFlags_new (o 0).regs size f hf

theorem resubmit_spec (hc : Std c p0) {w : World} {p : Pkt} {saved : Bytes} {size : BitVec 64} {flag : BitVec 16}
    {es : List Eff} (ho : Made p0 w.stale) (m : Made p0 p.phv) (e : resubmit c w p saved size flag = some es) :
    ∃ list q, es = [.resubmit q] ∧ c.fieldLists flag.toNat = some list ∧ NoFlags q ∧ q.trunc = noTrunc ∧
      Has c q { inPort := p.inPort, inLen := p.inLen, data := saved, size, headers := w.stale,
                md := ((zeroBut p0 list (mval p.phv)).put p0 c.names.instanceType 6).put p0
                  c.names.packetLength size.toNat } := by
  simp only [resubmit, Option.bind_eq_bind] at e
  obtain ⟨phv1, h1, e⟩ := Option.bind_eq_some_iff.1 e
  obtain ⟨phv2, h2, e⟩ := Option.bind_eq_some_iff.1 e
  cases e
  obtain ⟨l, d1, d2, d3, d4⟩ := copyListSetType_spec hc (src := p.phv) m (dst := w.stale) ho h1
  obtain ⟨k1, k2, k3⟩ := setF_plain d2 (hc.plain _ mem_all.2.1) h2
  refine ⟨l, _, rfl, d1, fun f hf => noFlags_new w.regs size f hf, rfl, rfl, rfl, rfl,
    size_new (clearAll w.regs) size, d3.trans k2, fun r _ => ?_⟩
  simp only
  rw [k3]
  unfold Md.put at d4 ⊢
  rw [d4]
  rfl

theorem getUint_nat {n k : Nat} (h : Data.getUint (n : Int) = some k) : k = n := by
  unfold Data.getUint at h
  split at h
  · cases h; rfl
  · cases h

theorem groupOf_spec (hc : Std c p0) {p : Phv} (m : Made p0 p) {g : Nat} (e : groupOf c p = some g) :
    GroupIs c (mval p) g := by
  unfold groupOf at e
  unfold GroupIs
  cases h : c.names.mcastGrp with
  | none => rw [h] at e; cases e; rfl
  | some r =>
    rw [h] at e
    simp only at e ⊢
    obtain ⟨n, hn⟩ := mval_nat hc m (mem_mcast h)
    rw [getF_name hc m (mem_mcast h), hn, Option.bind_eq_bind, Option.bind_some] at e
    rw [getUint_nat e]
    exact hn

theorem ingressRest_spec (hc : Std c p0) {o : Oracle} {p : Pkt} {saved : Bytes} {size : BitVec 64} {spec mgid : Nat}
    {es : List Eff} (ho : ∀ i, Made p0 (o i).stale) (m : Made p0 p.phv)
    (hs : mval p.phv c.names.egressSpec = some (spec : Int)) (hg : GroupIs c (mval p.phv) mgid)
    (hcl : getFlag cloneSession p.regs = 0) (e : ingressRest c o p saved size spec mgid = some es) :
    Fate c p0 p saved size es := by
  simp only [ingressRest] at e
  split at e
  · rename_i h0
    obtain ⟨l, q, h1, h2, h3, h4, h5⟩ := resubmit_spec hc (ho 0) m e
    subst h1
    exact .resubmit l q _ h0 h2 (ho 0) h3 h4 h5
  · rename_i h0
    have h0 : getFlag resubmitFlag p.regs = 0 := by simpa using h0
    have hinst := hc.plain _ (mem_all (n := c.names)).2.2.1
    split at e
    · rename_i h1
      simp only [Option.bind_eq_bind] at e
      obtain ⟨phv, h2, e⟩ := Option.bind_eq_some_iff.1 e
      obtain ⟨⟨p', es'⟩, h3, e⟩ := Option.bind_eq_some_iff.1 e
      cases e
      obtain ⟨a1, a2, a3⟩ := setF_plain m hinst h2
      obtain ⟨outs, b1, _⟩ := multicast_spec hc ho (p := { p with phv }) a1 h3
        (x := { p.content with md := p.content.md.put p0 c.names.instanceType 5 }) ⟨rfl, rfl, rfl, rfl⟩ a2 a3
      exact .multicast mgid outs _ h0 hg h1 b1
    · rename_i h1
      have h1 : mgid = 0 := by simpa using h1
      subst h1
      split at e
      · rename_i h2
        cases e
        rw [h2] at hs
        exact .drop h0 hg hs
      · rename_i h2
        simp only [Option.bind_eq_bind] at e
        obtain ⟨phv, h3, e⟩ := Option.bind_eq_some_iff.1 e
        obtain ⟨a1, a2, a3⟩ := setF_plain m hinst h3
        obtain ⟨b1, b2⟩ := enqueue_unicasts hc (p := { p with phv }) a1 e
          (x := { p.content with md := p.content.md.put p0 c.names.instanceType 0 }) ⟨rfl, rfl, rfl, rfl⟩ a2 a3
        refine .unicast spec es h0 hg hs h2 b1 fun port' prio q hq => ?_
        obtain ⟨k1, k2⟩ := b2 _ _ _ hq
        exact ⟨k2, by rw [k1]; exact hcl⟩

end Bm.SSwitch
