import Verif.Spec.Assign
import Verif.Lemmas.Header

/-!
# Lemmas on the assignment of headers
-/

namespace Bm.Assign

open Bm.Assign.Spec Bm.Spec Bm.Field

theorem set_whole {f : Field} (hf : f.Shape) {v : Int} (h1 : f.kind.lowest ≤ v) (h2 : v < 2 ^ f.nbits)
    (h3 : f.isSaturating = true → v ≤ f.kind.highest) :
    ∃ f', f.set false v = some f' ∧ f'.Shape ∧ f'.kind = f.kind ∧ sig f' = sig f ∧ f'.value = v ∧
      f'.nbytes = f.nbytes ∧ IsBytesOf f.nbits v f'.bytes := by
  obtain ⟨f', e, s, k, _, hh, hv, hb, hl, hh', ho, ho'⟩ := set_spec hf v
  have hval : f'.value = v := by
    by_cases od : f.Odd v
    · exact ho' od
    · obtain ⟨fit, as⟩ := ho od
      have hfit : f.kind.Fits v := by
        refine ⟨h1, ?_⟩
        by_cases hs : f.isSaturating = true
        · exact h3 hs
        · cases hg : f.isSigned with
          | false =>
            have : f.kind.highest = 2 ^ f.nbits - 1 := by simp [Kind.highest, kind, hg]
            rw [this]; omega
          | true =>
            have : f.kind.highest = 2 ^ (f.nbits - 1) - 1 := by simp [Kind.highest, kind, hg]
            rw [this]
            unfold Field.Odd at od
            have hns : f.isSaturating = false := by simpa using hs
            have : ¬ (2 ^ (f.nbits - 1) ≤ v) := fun h => od ⟨hg, hns, h, h2⟩
            omega
      have hw := wrap_fits hf hfit
      have hsat : f.saturate v = v := by
        by_cases hs : f.isSaturating = true
        · obtain ⟨_, a⟩ := (saturate_spec hf v).2 hs
          unfold Kind.Assigned at a
          rw [show f.kind.saturating = true from hs, if_pos rfl] at a
          exact a.2.2 hfit
        · exact (saturate_spec hf v).1 (by simpa using hs)
      unfold Field.set Field.exportBytes at e
      simp only [Option.bind_eq_bind, Option.bind_eq_some_iff] at e
      obtain ⟨l, _, e⟩ := e
      cases e
      have hw' : Field.wrap { f with value := v } (Field.saturate { f with value := v }
          (Field.getValue { f with value := v } false)) = v := by
        show f.wrap (f.saturate v) = v
        rw [hsat, hw]
      simp only [hw']
      simp [Field.getValue]
  have hn : f'.nbytes = f.nbytes := by
    rw [s.nbytes, hf.nbytes, show f'.nbits = f.nbits from congrArg Kind.w k]
  refine ⟨f', e, s, k, ?_, hval, hn, hval ▸ hb⟩
  unfold sig
  rw [hh, hv, show f'.nbits = f.nbits from congrArg Kind.w k,
    show f'.isSigned = f.isSigned from congrArg Kind.signed k,
    show f'.isSaturating = f.isSaturating from congrArg Kind.saturating k]

theorem bytes_unique {w : Nat} {v : Int} {l m : Bytes} (h1 : IsBytesOf w v l) (h2 : IsBytesOf w v m) :
    l = m := by
  apply bytesBits_inj
  rw [h1.2, h2.2, h1.1, h2.1]

theorem sig_eq {f g : Field} (h : sig f = sig g) : f.isSigned = g.isSigned ∧ f.hidden = g.hidden ∧
    f.vl = g.vl ∧ f.isSaturating = g.isSaturating ∧ (f.vl = false → f.nbits = g.nbits) := by
  unfold sig at h
  simp only [Sig.mk.injEq] at h
  obtain ⟨h1, h2, h3, h4, h5⟩ := h
  refine ⟨h1, h2, h3, h4, fun hv => ?_⟩
  rw [← h3, hv] at h5
  simpa using h5

/-- The field once `assign_VL` has copied the width. -/
def vlBase (f g : Field) : Field :=
  { f with
    nbits := g.nbits, nbytes := g.nbytes, mask := g.mask, max := g.max, min := g.min
    bytes := (f.bytes ++ List.replicate g.nbytes 0).take g.nbytes }

theorem assignField_spec {f g : Field} {rz : Bool} (hs : sig f = sig g) (hf : f.vl = false → f.Shape)
    (hg : Whole g) :
    ∃ f', Phv.assignField f g rz false false = some f' ∧ SameContents f' g ∧ sig f' = sig f ∧ f'.Shape := by
  obtain ⟨s1, s2, s3, s4, s5⟩ := sig_eq hs
  unfold Phv.assignField
  have hgv : ∀ b, g.getValue (b && false) = g.value := by intro b; simp [Field.getValue]
  cases hv : f.vl with
  | false =>
    have hk : f.kind = g.kind := by unfold Field.kind; rw [s5 hv, s1, s4]
    have hb : f.nbits = g.nbits := s5 hv
    obtain ⟨f', e, h1, h2, h3, h4, h5, h6⟩ := set_whole (hf hv) (v := g.value)
      (by rw [hk]; exact hg.low) (by rw [hb]; exact hg.high) (by rw [hk, s4]; exact hg.sat)
    refine ⟨f', ?_, ⟨?_, ?_, h4, ?_⟩, h3, h1⟩
    · simp [Field.getValue, e]
    · rw [show f'.nbits = f.nbits from congrArg Kind.w h2, hb]
    · rw [h5, (hf hv).nbytes, hg.shape.nbytes, hb]
    · exact bytes_unique (hb ▸ h6) hg.bytes
  | true =>
    simp only [if_true, Phv.assignVL, hv]
    have hf0 : ∃ f0, f0 = vlBase f g := ⟨_, rfl⟩
    obtain ⟨f0, hf0⟩ := hf0
    have hk : f0.kind = g.kind := by unfold Field.kind; rw [hf0]; simp only [vlBase, s1, s4]
    have sh : f0.Shape := by
      refine ⟨?_, ?_, ?_, ?_, ?_, ?_⟩
      · rw [hf0]; exact hg.shape.nbytes
      · simp [hf0, vlBase]
      · rw [hf0]; exact hg.shape.mask
      · rw [hk, hf0]; exact hg.shape.max
      · rw [hk, hf0]; exact hg.shape.min
      · intro h; rw [hf0] at h ⊢; exact hg.shape.sgn (s1 ▸ h)
    obtain ⟨f', e, h1, h2, h3, h4, h5, h6⟩ := set_whole sh (v := g.value)
      (by rw [hk]; exact hg.low) (by rw [hf0]; exact hg.high)
      (by rw [hk, hf0]; intro h; exact hg.sat (s4 ▸ h))
    have hb : f0.nbits = g.nbits := by rw [hf0]; rfl
    refine ⟨f', ?_, ⟨?_, ?_, h4, ?_⟩, ?_, h1⟩
    · rw [← e, hf0]; simp [Field.getValue, vlBase, hv]
    · exact (congrArg Kind.w h2).trans hb
    · rw [h5, hf0]; rfl
    · exact bytes_unique (hb ▸ h6) hg.bytes
    · rw [h3]; simp [hf0, vlBase, sig, hv]

theorem assignAll_spec {rz : Bool} : ∀ (fs gs : List Field), fs.map sig = gs.map sig →
    (∀ f ∈ fs, f.vl = false → f.Shape) → (∀ g ∈ gs, Whole g) →
    ∃ hs, (fs.zip gs).mapM (fun (f, g) => Phv.assignField f g rz false false) = some hs ∧
      List.Forall₂ SameContents hs gs ∧ hs.map sig = fs.map sig ∧ (∀ h ∈ hs, h.Shape)
  | [], [], _, _, _ => ⟨[], by simp, by simp, rfl, by simp⟩
  | [], _ :: _, h, _, _ => by simp at h
  | _ :: _, [], h, _, _ => by simp at h
  | f :: fs, g :: gs, h, hf, hg => by
    simp only [List.map_cons, List.cons.injEq] at h
    obtain ⟨f', e, h1, h2, h3⟩ := assignField_spec (rz := rz) h.1 (hf f (by simp)) (hg g (by simp))
    obtain ⟨hs, e', k1, k2, k3⟩ := assignAll_spec (rz := rz) fs gs h.2 (fun a ha => hf a (by simp [ha]))
      (fun a ha => hg a (by simp [ha]))
    refine ⟨f' :: hs, ?_, List.Forall₂.cons h1 k1, by simp [h2, k2], ?_⟩
    · simp [List.mapM_cons, e, e']
    · intro a ha
      rcases List.mem_cons.1 ha with rfl | ha
      · exact h3
      · exact k3 a ha

theorem visible_same : ∀ {fs gs : List Field}, List.Forall₂ SameContents fs gs →
    fs.map sig = gs.map sig →
    (Header.visible fs).map (·.nbits) = (Header.visible gs).map (·.nbits)
  | [], [], _, _ => rfl
  | f :: fs, g :: gs, h, hs => by
    simp only [List.map_cons, List.cons.injEq] at hs
    cases h with
    | cons h1 h2 =>
      rw [Header.visible_cons, Header.visible_cons, (sig_eq hs.1).2.1]
      split
      · rfl
      · simp [h1.nbits, visible_same h2 hs.2]

theorem assignFields_spec {rz : Bool} {dst src : Header} (hd : dst.isValid = true)
    (hs : src.isValid = true) (ht : dst.fields.map sig = src.fields.map sig)
    (hf : ∀ f ∈ dst.fields, f.vl = false → f.Shape) (hg : ∀ g ∈ src.fields, Whole g)
    (h8 : ((Header.visible src.fields).map (·.nbits)).sum % 8 = 0) :
    ∃ y, Phv.assignFields rz dst src = some y ∧ Copied y src ∧
      y.fields.map sig = dst.fields.map sig ∧ (∀ h ∈ y.fields, h.Shape) ∧ y.valid = dst.valid ∧
      y.metadata = dst.metadata ∧ y.typeId = dst.typeId := by
  obtain ⟨hs', e, k1, k2, k3⟩ := assignAll_spec (rz := rz) dst.fields src.fields ht hf hg
  have hvis := visible_same k1 (k2.trans ht)
  unfold Phv.assignFields
  simp only [hd, hs, Bool.not_true, e, Option.bind_eq_bind, Option.bind_some]
  have hany : hs'.any (·.vl) = dst.fields.any (·.vl) := by
    have h := congrArg (fun l : List Sig => l.any (·.vl)) k2
    simpa [List.any_map, Function.comp_def, sig] using h
  by_cases hv : dst.fields.any (·.vl) = true
  · rw [if_pos hv, hvis, if_pos h8]
    exact ⟨_, rfl, ⟨k1, fun _ => rfl⟩, k2, k3, rfl, rfl, rfl⟩
  · rw [if_neg hv]
    refine ⟨_, rfl, ⟨k1, fun h => ?_⟩, k2, k3, rfl, rfl, rfl⟩
    exact absurd (hany ▸ h) hv

/-- Setting the flag and the field `$valid$`. -/
theorem setValidField_spec {x : Header} (v : Int) {l : List Sig} (hl : ∀ t ∈ l, t.hidden = false)
    (hx : x.fields.map sig = l ++ [validSig]) (hsh : ∀ f ∈ x.fields, f.vl = false → f.Shape) :
    ∃ y, x.setValidField v = some y ∧ y.fields.map sig = x.fields.map sig ∧
      (∀ f ∈ y.fields, f.vl = false → f.Shape) ∧ Header.visible y.fields = Header.visible x.fields ∧
      y.valid = x.valid ∧ y.metadata = x.metadata ∧ y.typeId = x.typeId ∧
      y.nbytesPacket = x.nbytesPacket ∧
      y.fields.dropLast = x.fields.dropLast := by
  have hne : x.fields ≠ [] := by rintro h; rw [h] at hx; simp at hx
  obtain ⟨a, f, hf⟩ : ∃ a f, x.fields = a ++ [f] :=
    ⟨x.fields.dropLast, x.fields.getLast hne, (List.dropLast_append_getLast hne).symm⟩
  rw [hf] at hx
  simp only [List.map_append, List.map_cons, List.map_nil] at hx
  obtain ⟨hx1, hx2⟩ := List.append_inj' hx rfl
  simp only [List.cons.injEq, and_true] at hx2
  have hvl : f.vl = false := congrArg Sig.vl hx2
  have hhid : f.hidden = true := congrArg Sig.hidden hx2
  obtain ⟨g, e, s1, s2, _, s3, s4, _⟩ := set_spec (hsh f (by rw [hf]; simp) hvl) v
  have hsg : sig g = sig f := by
    unfold sig
    rw [s3, s4, show g.nbits = f.nbits from congrArg Kind.w s2,
      show g.isSigned = f.isSigned from congrArg Kind.signed s2,
      show g.isSaturating = f.isSaturating from congrArg Kind.saturating s2]
  have hlast : x.fields[x.fields.length - 1]? = some f := by rw [hf]; simp
  have hset : x.fields.set (x.fields.length - 1) g = a ++ [g] := by rw [hf]; simp
  refine ⟨{ x with fields := a ++ [g] }, ?_, ?_, ?_, ?_, rfl, rfl, rfl, rfl, ?_⟩
  · unfold Header.setValidField
    simp only [hlast, Option.bind_eq_bind, Option.bind_some, e, hset]
    rfl
  · rw [hf]; simp [hsg]
  · intro h hh hv
    rcases List.mem_append.1 hh with hh | hh
    · exact hsh h (by rw [hf]; simp [hh]) hv
    · simp only [List.mem_singleton] at hh
      exact hh ▸ s1
  · show Header.visible (a ++ [g]) = Header.visible x.fields
    have ha : ∀ b ∈ a, b.hidden = false := by
      intro b hb
      have : sig b ∈ l := hx1 ▸ List.mem_map_of_mem hb
      exact hl _ this
    rw [hf]
    unfold Header.visible
    have key : ∀ (c : Field), c.hidden = true → (a ++ [c]).takeWhile (!·.hidden) = a := by
      intro c hc
      rw [List.takeWhile_append_of_pos (by intro b hb; simp [ha b hb])]
      simp [hc]
    rw [key g (s3.trans hhid), key f hhid]
  · rw [hf]; simp

theorem Spec.Body.set {p q : Phv} (hp : Body p) {d : Nat} {x y : Header} (hx : p.headers[d]? = some x)
    (hm : q.memb = p.memb) (hq : q.headers = p.headers.set d y) (ht : y.typeId = x.typeId)
    (hs : y.fields.map sig = x.fields.map sig) (hsh : ∀ f ∈ y.fields, f.vl = false → f.Shape) :
    Body q := by
  have hxm : x ∈ p.headers := List.mem_of_getElem? hx
  have hmem : ∀ z ∈ q.headers, z ∈ p.headers ∨ z = y := by
    intro z hz
    rw [hq] at hz
    exact List.mem_or_eq_of_mem_set hz
  have hrep : ∀ z ∈ q.headers, ∃ w ∈ p.headers, w.typeId = z.typeId ∧ w.fields.map sig = z.fields.map sig := by
    intro z hz
    rcases hmem z hz with h | rfl
    · exact ⟨z, h, rfl, rfl⟩
    · exact ⟨x, hxm, ht.symm, hs.symm⟩
  refine ⟨by rw [hm, hq, List.length_set, hp.memb], ?_, ?_, ?_⟩
  · intro a ha b hb h
    obtain ⟨a', h1, h2, h3⟩ := hrep a ha
    obtain ⟨b', k1, k2, k3⟩ := hrep b hb
    rw [← h3, ← k3]
    exact hp.types a' h1 b' k1 (by rw [h2, k2, h])
  · intro a ha
    obtain ⟨a', h1, h2, h3⟩ := hrep a ha
    rw [← h3]
    exact hp.last a' h1
  · intro a ha
    rcases hmem a ha with h | rfl
    · exact hp.shape a h
    · exact hsh

theorem Spec.Body.congr {p q : Phv} (hp : Body p) (hm : q.memb = p.memb) (hh : q.headers = p.headers) :
    Body q := by
  refine ⟨by rw [hm, hh]; exact hp.memb, ?_, ?_, ?_⟩
  · rw [hh]; exact hp.types
  · rw [hh]; exact hp.last
  · rw [hh]; exact hp.shape

theorem Spec.Body.setValid {p : Phv} (hp : Body p) {d : Nat} {x : Header} (hx : p.headers[d]? = some x)
    (b : Bool) (v : Int) :
    ∃ y, ({ x with valid := b } : Header).setValidField v = some y ∧
      y.fields.map sig = x.fields.map sig ∧
      (∀ f ∈ y.fields, f.vl = false → f.Shape) ∧ Header.visible y.fields = Header.visible x.fields ∧
      y.valid = b ∧ y.metadata = x.metadata ∧ y.typeId = x.typeId ∧
      y.nbytesPacket = x.nbytesPacket := by
  obtain ⟨l, h1, h2⟩ := hp.last x (List.mem_of_getElem? hx)
  obtain ⟨y, e, k1, k2, k3, k4, k5, k6, k7, _⟩ := setValidField_spec (x := { x with valid := b }) v h1 h2
    (hp.shape x (List.mem_of_getElem? hx))
  exact ⟨y, e, k1, k2, k3, k4, k5, k6, k7⟩

/-- Making a header invalid. -/
theorem markInvalid_effect {p : Phv} (hl : Phv.Layout p) (hp : Body p) {d : Nat} {x : Header}
    (hx : p.headers[d]? = some x) :
    ∃ p' y, p.markInvalid d = some p' ∧ Body p' ∧ p'.headers = p.headers.set d y ∧ Dropped x y ∧
      p'.memb = p.memb ∧ p'.hstacks = p.hstacks ∧ p'.unionStacks = p.unionStacks := by
  obtain ⟨y, e, k1, k2, k3, k4, k5, k6, k7⟩ := hp.setValid hx false 0
  have hlt : d < p.headers.length := (List.getElem?_eq_some_iff.1 hx).1
  have hdrop : Dropped x y := ⟨k4, k3, k6, k5, k7⟩
  unfold Phv.markInvalid Phv.updHeader
  have e' : Header.markInvalid x = some y := e
  simp only [hx, e', Option.bind_eq_bind, Option.bind_some]
  obtain ⟨m, hm⟩ : ∃ m, p.memb[d]? = some m := ⟨_, List.getElem?_eq_getElem (by rw [hp.memb]; exact hlt)⟩
  show ∃ p' y', ((p.memb[d]?).bind _) = some p' ∧ _
  rw [hm]
  simp only [Option.bind_some]
  cases m with
  | none =>
    exact ⟨_, y, rfl, hp.set hx rfl rfl k6 k1 k2, rfl, hdrop, rfl, rfl, rfl⟩
  | some ui =>
    obtain ⟨u, i⟩ := ui
    obtain ⟨un, hu, _⟩ := hl.ofMemb d u i hm
    simp only [Phv.makeHeaderInvalid, hu, Option.bind_eq_bind, Option.bind_some]
    exact ⟨_, y, rfl, hp.set hx rfl rfl k6 k1 k2, rfl, hdrop, rfl, rfl, rfl⟩

/-- Making a header valid. -/
theorem markValid_effect {p : Phv} (hi : Phv.Inv p) (hp : Body p) {d : Nat} {x : Header}
    (hx : p.headers[d]? = some x) :
    ∃ p' y, p.markValid d = some p' ∧ Body p' ∧ p'.headers[d]? = some y ∧ y.valid = true ∧
      y.metadata = x.metadata ∧ y.typeId = x.typeId ∧ y.fields.map sig = x.fields.map sig ∧
      p'.memb = p.memb ∧ p'.hstacks = p.hstacks ∧ p'.unionStacks = p.unionStacks ∧
      (∀ k z, k ≠ d → p.headers[k]? = some z → ∃ z', p'.headers[k]? = some z' ∧
        (z' = z ∨ SameUnion p d k ∧ Dropped z z')) := by
  obtain ⟨y, e, k1, k2, k3, k4, k5, k6, k7⟩ := hp.setValid hx true 1
  have hlt : d < p.headers.length := (List.getElem?_eq_some_iff.1 hx).1
  have e' : Header.markValid x = some y := e
  obtain ⟨m, hm⟩ : ∃ m, p.memb[d]? = some m := ⟨_, List.getElem?_eq_getElem (by rw [hp.memb]; exact hlt)⟩
  obtain ⟨p1, hp1⟩ : ∃ p1 : Phv, p1 = { p with headers := p.headers.set d y } := ⟨_, rfl⟩
  have b1 : Body p1 := hp.set hx (by rw [hp1]) (by rw [hp1]) k6 k1 k2
  have hmv : p.markValid d = (p1.memb[d]?).bind fun m => match m with
      | none => some p1
      | some (u, i) => p1.makeHeaderValid u i := by
    unfold Phv.markValid Phv.updHeader
    simp only [hx, e', Option.bind_eq_bind, Option.bind_some, hp1]
    rfl
  have hm1 : p1.memb[d]? = p.memb[d]? := by rw [hp1]
  have hself : (p.headers.set d y)[d]? = some y := Phv.getElem?_set_self' hx
  have hother : ∀ k, k ≠ d → (p.headers.set d y)[k]? = p.headers[k]? := by
    intro k hk; rw [List.getElem?_set_ne (Ne.symm hk)]
  rw [hmv, hm1, hm]
  simp only [Option.bind_some]
  cases m with
  | none =>
    subst hp1
    exact ⟨_, y, rfl, b1, hself, k4, k5, k6, k1, rfl, rfl, rfl, fun k z hk hz =>
      ⟨z, (hother k hk).trans hz, Or.inl rfl⟩⟩
  | some ui =>
    obtain ⟨u, i⟩ := ui
    have hmemb := hm
    obtain ⟨un, hu, hui⟩ := hi.layout.ofMemb d u i hmemb
    have hu1 : p1.unions[u]? = some un := by rw [hp1]; exact hu
    have hl1 : Phv.Layout p1 := by
      rw [hp1]; exact ⟨hi.layout.toMemb, hi.layout.ofMemb, hi.layout.hst, hi.layout.ust⟩
    unfold Phv.makeHeaderValid Phv.invalidateOther
    simp only [hu1, Option.bind_eq_bind, Option.bind_some]
    by_cases hc : un.valid = true ∧ un.idx ≠ i
    · rw [if_pos hc]
      have hidx := hi.idx u un hu hc.1
      have hk : un.members[un.idx]? = some un.members[un.idx] := List.getElem?_eq_getElem hidx
      obtain ⟨o, ho⟩ : ∃ o, o = un.members[un.idx] := ⟨_, rfl⟩
      rw [← ho] at hk
      have hom : p.memb[o]? = some (some (u, un.idx)) := hi.layout.toMemb u un un.idx o hu hk
      have holt : o < p1.headers.length := by
        rw [← b1.memb, hp1]; exact (List.getElem?_eq_some_iff.1 hom).1
      have hod : o ≠ d := by
        rintro rfl
        rw [hmemb] at hom
        simp only [Option.some.injEq, Prod.mk.injEq, true_and] at hom
        exact hc.2 hom.symm
      obtain ⟨p2, w, r2, b2, g1, g2, g3, g4, g5⟩ :=
        markInvalid_effect hl1 b1 (List.getElem?_eq_getElem holt)
      rw [hk, Option.bind_some, r2, Option.bind_some]
      obtain ⟨un2, h2u, _⟩ := (Phv.markInvalid_frame r2).2 u un hu1
      rw [h2u, Option.bind_some]
      refine ⟨_, y, rfl, b2.congr rfl rfl, ?_, k4, k5, k6, k1, ?_, ?_, ?_, ?_⟩
      · show p2.headers[d]? = some y
        rw [g1, List.getElem?_set_ne hod, hp1]; exact hself
      · rw [← show p1.memb = p.memb by rw [hp1]]; exact g3
      · rw [← show p1.hstacks = p.hstacks by rw [hp1]]; exact g4
      · rw [← show p1.unionStacks = p.unionStacks by rw [hp1]]; exact g5
      · intro k z hkd hz
        have hz1 : p1.headers[k]? = some z := by rw [hp1]; exact (hother k hkd).trans hz
        by_cases hko : k = o
        · subst hko
          refine ⟨w, ?_, Or.inr ⟨⟨u, i, un.idx, hmemb, hom⟩, ?_⟩⟩
          · show p2.headers[k]? = some w
            rw [g1]; exact Phv.getElem?_set_self' hz1
          · have : p1.headers[k] = z := by
              rw [List.getElem?_eq_getElem holt] at hz1
              exact Option.some.inj hz1
            exact this ▸ g2
        · refine ⟨z, ?_, Or.inl rfl⟩
          show p2.headers[k]? = some z
          rw [g1, List.getElem?_set_ne (Ne.symm hko)]; exact hz1
    · rw [if_neg hc]
      simp only [Option.bind_some, hu1]
      refine ⟨_, y, rfl, b1.congr rfl rfl, ?_, k4, k5, k6, k1, ?_, ?_, ?_, ?_⟩
      · show p1.headers[d]? = some y
        rw [hp1]; exact hself
      · show p1.memb = _
        rw [hp1]
      · show p1.hstacks = _
        rw [hp1]
      · show p1.unionStacks = _
        rw [hp1]
      · intro k z hkd hz
        refine ⟨z, ?_, Or.inl rfl⟩
        show p1.headers[k]? = some z
        rw [hp1]; exact (hother k hkd).trans hz

/-- One assignment. -/
theorem assignHeader_spec {rz : Bool} {p : Phv} (hs : Sound p) {d s : Nat} {x y : Header}
    (hx : p.headers[d]? = some x) (hy : p.headers[s]? = some y) (ht : x.typeId = y.typeId)
    (hds : d ≠ s) (hu : ¬ SameUnion p d s) (hsrc : Source y) :
    ∃ p' x', Phv.assignHeader rz p d s = some p' ∧ Sound p' ∧ Phv.SameLayout p p' ∧
      p'.hstacks = p.hstacks ∧ p'.unionStacks = p.unionStacks ∧
      p'.headers[d]? = some x' ∧ Is x' y ∧ x'.typeId = x.typeId ∧ x'.metadata = x.metadata ∧
      (∀ k z, k ≠ d → p.headers[k]? = some z → ∃ z', p'.headers[k]? = some z' ∧
        (z' = z ∨ y.isValid = true ∧ SameUnion p d k ∧ Dropped z z')) := by
  unfold Phv.assignHeader
  simp only [hy, Option.bind_eq_bind, Option.bind_some]
  by_cases hv : y.isValid = true
  · rw [if_neg (by simp [hv])]
    obtain ⟨p1, x1, r1, b1, h1, h2, h3, h4, h5, h6, h7, h8, h9⟩ := markValid_effect hs.inv hs.body hx
    obtain ⟨i1, l1, _⟩ := Phv.markValid_inv hs.inv (Or.inl rfl) r1
    obtain ⟨y1, hy1, hc⟩ := h9 s y (Ne.symm hds) hy
    have : y1 = y := by
      rcases hc with h | ⟨h, _⟩
      · exact h
      · exact absurd h hu
    subst this
    have hy1m := List.mem_of_getElem? hy1
    have hx1m := List.mem_of_getElem? h1
    obtain ⟨w8, h8'⟩ := hsrc hv
    obtain ⟨x2, r2, c1, c2, c3, c4, c5, c6⟩ := assignFields_spec (rz := rz) (dst := x1) (src := y1)
      (by simp [Header.isValid, h2]) hv (b1.types x1 hx1m y1 hy1m (h4.trans ht)) (b1.shape x1 hx1m) w8 h8'
    simp only [r1, h1, hy1, h4, ht, if_true, Option.bind_eq_bind, Option.bind_some, Phv.updHeader, r2]
    have g := i1.setHeader h1 c5 c4
    refine ⟨_, x2, rfl, ⟨g, b1.set h1 rfl rfl c6 c2 (fun f hf _ => c3 f hf)⟩, ?_, ?_, ?_,
      Phv.getElem?_set_self' h1, ⟨?_, fun _ => c1⟩, ?_, ?_, ?_⟩
    · exact ⟨l1.memb, l1.unions, l1.hstacks, l1.unionStacks⟩
    · exact h7
    · exact h8
    · rw [c4, h2, hv]
    · rw [c6, h4, ht]
    · rw [c5, h3]
    · intro k z hk hz
      obtain ⟨z', hz', h⟩ := h9 k z hk hz
      refine ⟨z', ?_, ?_⟩
      · show (p1.headers.set d x2)[k]? = some z'
        rw [List.getElem?_set_ne (Ne.symm hk)]; exact hz'
      · rcases h with h | ⟨h, h'⟩
        · exact Or.inl h
        · exact Or.inr ⟨hv, h, h'⟩
  · rw [if_pos (by simp [hv])]
    obtain ⟨p1, x1, r1, b1, h1, h2, h3, h4, h5⟩ := markInvalid_effect hs.inv.layout hs.body hx
    obtain ⟨i1, l1, _⟩ := Phv.markInvalid_inv hs.inv (Or.inl rfl) r1
    refine ⟨p1, x1, r1, ⟨i1, b1⟩, l1, h4, h5, ?_, ⟨?_, fun h => absurd h hv⟩, h2.typeId, h2.metadata, ?_⟩
    · rw [h1]; exact Phv.getElem?_set_self' hx
    · rw [h2.valid]; simpa using hv
    · intro k z hk hz
      refine ⟨z, ?_, Or.inl rfl⟩
      rw [h1, List.getElem?_set_ne (Ne.symm hk)]; exact hz

theorem Spec.Dropped.trans {a b c : Header} (h : Dropped a b) (k : Dropped b c) : Dropped a c :=
  ⟨k.valid, k.visible.trans h.visible, k.typeId.trans h.typeId, k.metadata.trans h.metadata,
    k.nbytesPacket.trans h.nbytesPacket⟩

/-- The header is valid. -/
def ValidIn (p : Phv) (b : Nat) : Prop := ∃ y, p.headers[b]? = some y ∧ y.isValid = true

theorem sameUnion_congr {p q : Phv} (h : q.memb = p.memb) (a b : Nat) :
    SameUnion q a b ↔ SameUnion p a b := by
  unfold SameUnion
  rw [h]

/-- A header and what is assigned to it. -/
def Fits (p : Phv) (a b : Nat) : Prop :=
  ∃ x y, p.headers[a]? = some x ∧ p.headers[b]? = some y ∧ x.typeId = y.typeId ∧ Source y

/-- Headers that were assigned. -/
def Done (p p' : Phv) (a b : Nat) : Prop :=
  ∃ x' y, p'.headers[a]? = some x' ∧ p.headers[b]? = some y ∧ Is x' y

theorem assignHeaders_spec {rz : Bool} : ∀ (ds ss : List Nat) (p : Phv), Sound p → ds.Nodup →
    (∀ a ∈ ds, ∀ b ∈ ss, a ≠ b ∧ ¬ SameUnion p a b) → List.Forall₂ (Fits p) ds ss →
    (ds.zip ss).Pairwise (fun q r => ValidIn p q.2 → ValidIn p r.2 → ¬ SameUnion p q.1 r.1) →
    ∃ p', Phv.assignHeaders rz p ds ss = some p' ∧ Sound p' ∧ Phv.SameLayout p p' ∧
      p'.hstacks = p.hstacks ∧ p'.unionStacks = p.unionStacks ∧ List.Forall₂ (Done p p') ds ss ∧
      (∀ k z, k ∉ ds → p.headers[k]? = some z → ∃ z', p'.headers[k]? = some z' ∧
        (z' = z ∨ Dropped z z' ∧ ∃ q ∈ ds.zip ss, ValidIn p q.2 ∧ SameUnion p q.1 k))
  | [], _, p, hs, _, _, hf, _ => by
    cases hf
    exact ⟨p, rfl, hs, Phv.SameLayout.refl _, rfl, rfl, List.Forall₂.nil,
      fun k z _ hz => ⟨z, hz, Or.inl rfl⟩⟩
  | d :: ds, [], p, hs, _, _, hf, _ => by cases hf
  | d :: ds, s :: ss, p, hs, hn, ha, hf, ho => by
    cases hf with
    | cons f1 f2 =>
    obtain ⟨x, y, hx, hy, ht, hsrc⟩ := f1
    obtain ⟨hd, hn⟩ := List.nodup_cons.1 hn
    simp only [List.zip_cons_cons, List.pairwise_cons] at ho
    obtain ⟨ho1, ho2⟩ := ho
    obtain ⟨p1, x1, r1, s1, l1, e1, e2, h1, h2, h3, h4, h5⟩ := assignHeader_spec (rz := rz) hs hx hy ht
      (ha d (by simp) s (by simp)).1 (ha d (by simp) s (by simp)).2 hsrc
    have hsu := sameUnion_congr l1.memb
    -- sources are as before
    have keep : ∀ b ∈ ss, ∀ z, p.headers[b]? = some z → p1.headers[b]? = some z := by
      intro b hb z hz
      obtain ⟨k1, k2⟩ := ha d (by simp) b (by simp [hb])
      obtain ⟨z', hz', h⟩ := h5 b z (Ne.symm k1) hz
      rcases h with rfl | ⟨_, h, _⟩
      · exact hz'
      · exact absurd h k2
    have keepv : ∀ b ∈ ss, (∃ z, p.headers[b]? = some z) → ValidIn p1 b → ValidIn p b := by
      rintro b hb ⟨z, hz⟩ ⟨w, hw, hv⟩
      rw [keep b hb z hz] at hw
      cases hw
      exact ⟨_, hz, hv⟩
    have hex : ∀ q ∈ ds.zip ss, q.1 ∈ ds ∧ q.2 ∈ ss ∧ ∃ z, p.headers[q.2]? = some z := by
      intro q hq
      obtain ⟨a, b⟩ := q
      obtain ⟨m1, m2⟩ := List.of_mem_zip hq
      refine ⟨m1, m2, ?_⟩
      have := (List.forall₂_iff_zip.1 f2).2 hq
      obtain ⟨_, z, _, hz, _⟩ := this
      exact ⟨z, hz⟩
    have f2' : List.Forall₂ (Fits p1) ds ss := by
      rw [List.forall₂_iff_zip] at f2 ⊢
      refine ⟨f2.1, fun {a b} hab => ?_⟩
      obtain ⟨xa, yb, g1, g2, g3, g4⟩ := f2.2 hab
      obtain ⟨m1, m2⟩ := List.of_mem_zip hab
      have hne : a ≠ d := by rintro rfl; exact hd m1
      obtain ⟨z', hz', h⟩ := h5 a xa hne g1
      refine ⟨z', yb, hz', keep b m2 yb g2, ?_, g4⟩
      rcases h with rfl | ⟨_, _, h⟩
      · exact g3
      · rw [h.typeId]; exact g3
    obtain ⟨p2, r2, s2, l2, e3, e4, d2, fr2⟩ := assignHeaders_spec (rz := rz) ds ss p1 s1 hn
      (fun a haa b hb => ⟨(ha a (by simp [haa]) b (by simp [hb])).1, fun h =>
        (ha a (by simp [haa]) b (by simp [hb])).2 ((hsu a b).1 h)⟩) f2'
      (by
        refine ho2.imp_of_mem ?_
        intro q r hq hr h v1 v2 h3
        obtain ⟨_, m1, z1⟩ := hex q hq
        obtain ⟨_, m2, z2⟩ := hex r hr
        exact h (keepv _ m1 z1 v1) (keepv _ m2 z2 v2) ((hsu _ _).1 h3))
    refine ⟨p2, by simp [Phv.assignHeaders, r1, r2], s2, l1.trans l2, e3.trans e1, e4.trans e2, ?_, ?_⟩
    · refine List.Forall₂.cons ?_ ?_
      · obtain ⟨z', hz', h⟩ := fr2 d x1 hd h1
        refine ⟨z', y, hz', hy, ?_⟩
        rcases h with rfl | ⟨hdr, q, hq, v, su⟩
        · exact h2
        · obtain ⟨_, m1, z1⟩ := hex q hq
          have hv' := keepv _ m1 z1 v
          have hny : ¬ y.isValid = true := by
            intro hv
            have := ho1 q hq ⟨y, hy, hv⟩ hv'
            obtain ⟨u, i, j, w1, w2⟩ := (hsu _ _).1 su
            exact this ⟨u, j, i, w2, w1⟩
          refine ⟨?_, fun h => absurd h hny⟩
          rw [hdr.valid]; simpa using hny
      · rw [List.forall₂_iff_zip] at d2 ⊢
        refine ⟨d2.1, fun {a b} hab => ?_⟩
        obtain ⟨x', w, g1, g2, g3⟩ := d2.2 hab
        obtain ⟨_, m2, z, hz⟩ := hex (a, b) hab
        have := keep b m2 z hz
        rw [g2] at this
        cases this
        exact ⟨x', _, g1, hz, g3⟩
    · intro k z hk hz
      simp only [List.mem_cons, not_or] at hk
      obtain ⟨z1, hz1, h⟩ := h5 k z hk.1 hz
      obtain ⟨z2, hz2, h'⟩ := fr2 k z1 hk.2 hz1
      refine ⟨z2, hz2, ?_⟩
      have lift : (∃ q ∈ ds.zip ss, ValidIn p1 q.2 ∧ SameUnion p1 q.1 k) →
          ∃ q ∈ (d :: ds).zip (s :: ss), ValidIn p q.2 ∧ SameUnion p q.1 k := by
        rintro ⟨q, hq, v, su⟩
        obtain ⟨_, m1, z1⟩ := hex q hq
        exact ⟨q, by simp [hq], keepv _ m1 z1 v, (hsu _ _).1 su⟩
      rcases h with rfl | ⟨hv, su, hdr⟩
      · rcases h' with rfl | ⟨hdr', h'⟩
        · exact Or.inl rfl
        · exact Or.inr ⟨hdr', lift h'⟩
      · rcases h' with rfl | ⟨hdr', h'⟩
        · exact Or.inr ⟨hdr, (d, s), by simp, ⟨y, hy, hv⟩, su⟩
        · exact Or.inr ⟨hdr.trans hdr', lift h'⟩

/-- The members of a union. -/
def members (p : Phv) (u : Nat) : Option (List Nat) := (p.unions[u]?).map (·.members)

theorem members_same {p q : Phv} (h : Phv.SameLayout p q) (u : Nat) : members q u = members p u := by
  unfold members
  have := congrArg (fun l => l[u]?) h.unions
  simpa only [List.getElem?_map] using this

theorem members_some {p : Phv} {u : Nat} {ms : List Nat} (h : members p u = some ms) :
    ∃ x : HUnion, p.unions[u]? = some x ∧ x.members = ms := by
  unfold members at h
  cases e : p.unions[u]? with
  | none => rw [e] at h; cases h
  | some x => rw [e] at h; exact ⟨x, rfl, by simpa using h⟩

/-- A union and what is assigned to it. -/
def FitsU (p : Phv) (u v : Nat) : Prop :=
  ∃ ds ss, members p u = some ds ∧ members p v = some ss ∧ List.Forall₂ (Fits p) ds ss

/-- Unions that were assigned. -/
def DoneU (p p' : Phv) (u v : Nat) : Prop :=
  ∃ ds ss, members p u = some ds ∧ members p v = some ss ∧ List.Forall₂ (Done p p') ds ss

theorem disjoint_members {p : Phv} (hl : Phv.Layout p) {u v : Nat} (huv : u ≠ v) {ds ss : List Nat}
    (hu : members p u = some ds) (hv : members p v = some ss) : ∀ a ∈ ds, a ∉ ss := by
  obtain ⟨x, hx, rfl⟩ := members_some hu
  obtain ⟨y, hy, rfl⟩ := members_some hv
  have := hl.members_nodup hx hy huv
  intro a ha hb
  exact (List.nodup_append.1 this).2.2 a ha a hb rfl

theorem nodup_members {p : Phv} (hl : Phv.Layout p) {u : Nat} {ds : List Nat}
    (hu : members p u = some ds) : ds.Nodup := by
  obtain ⟨x, hx, rfl⟩ := members_some hu
  rw [List.nodup_iff_getElem?_ne_getElem?]
  intro i j hij hj heq
  have hj' : x.members[j]? = some x.members[j] := List.getElem?_eq_getElem hj
  have := (hl.inj hx (heq.trans hj') hx hj').2
  omega

theorem memb_of_mem {p : Phv} (hl : Phv.Layout p) {u : Nat} {ds : List Nat}
    (hu : members p u = some ds) {a : Nat} (ha : a ∈ ds) : ∃ i, p.memb[a]? = some (some (u, i)) := by
  obtain ⟨x, hx, rfl⟩ := members_some hu
  obtain ⟨i, hi⟩ := List.getElem?_of_mem ha
  exact ⟨i, hl.toMemb u x i a hx hi⟩

theorem isValid_member {p : Phv} (hi : Phv.Inv p) {u i b : Nat} {x : HUnion} {y : Header}
    (hu : p.unions[u]? = some x) (hb : x.members[i]? = some b) (hy : p.headers[b]? = some y) :
    y.isValid = (x.valid && decide (x.idx = i)) ∧ y.isValid = y.valid := by
  have hm : y.metadata = false := by
    have := hi.nometa u x i b hu hb
    unfold Phv.hm at this
    rw [hy] at this
    simpa using this
  have hv : y.isValid = y.valid := by simp [Header.isValid, hm]
  refine ⟨?_, hv⟩
  rw [hv]
  exact hi.flag u x i b y.valid hu hb (by simp) (by simp [Phv.hv, hy])

theorem assignUnion_spec {rz : Bool} {p : Phv} (hs : Sound p) {u v : Nat} (huv : u ≠ v)
    (hf : FitsU p u v) :
    ∃ p', Phv.assignUnion rz p u v = some p' ∧ Sound p' ∧ Phv.SameLayout p p' ∧
      p'.hstacks = p.hstacks ∧ p'.unionStacks = p.unionStacks ∧ DoneU p p' u v ∧
      (∀ k ds, members p u = some ds → k ∉ ds → p'.headers[k]? = p.headers[k]?) := by
  obtain ⟨ds, ss, hu, hv, hff⟩ := hf
  have hl := hs.inv.layout
  have hdis := disjoint_members hl huv hu hv
  obtain ⟨p', r, s', l', e1, e2, d', fr⟩ := assignHeaders_spec (rz := rz) ds ss p hs (nodup_members hl hu)
    (by
      intro a ha b hb
      refine ⟨fun h => hdis a ha (h ▸ hb), ?_⟩
      rintro ⟨w, i, j, h1, h2⟩
      obtain ⟨i', h3⟩ := memb_of_mem hl hu ha
      obtain ⟨j', h4⟩ := memb_of_mem hl hv hb
      rw [h1] at h3
      rw [h2] at h4
      simp only [Option.some.injEq, Prod.mk.injEq] at h3 h4
      exact huv (h3.1.symm.trans h4.1)) hff
    (by
      rw [List.pairwise_iff_getElem]
      intro i j hi hj hij v1 v2
      obtain ⟨y, hy, rfl⟩ := members_some hv
      simp only [List.getElem_zip] at v1 v2
      simp only [List.length_zip] at hi hj
      obtain ⟨y1, g1, g2⟩ := v1
      obtain ⟨y2, k1, k2⟩ := v2
      have a1 := (isValid_member hs.inv hy (List.getElem?_eq_getElem (by omega)) g1).1
      have a2 := (isValid_member hs.inv hy (List.getElem?_eq_getElem (by omega)) k1).1
      rw [g2] at a1
      rw [k2] at a2
      have b1 : y.idx = i := by
        have := (Bool.and_eq_true _ _).mp a1.symm
        simpa using this.2
      have b2 : y.idx = j := by
        have := (Bool.and_eq_true _ _).mp a2.symm
        simpa using this.2
      omega)
  refine ⟨p', ?_, s', l', e1, e2, ⟨ds, ss, hu, hv, d'⟩, ?_⟩
  · obtain ⟨x, hx, rfl⟩ := members_some hu
    obtain ⟨y, hy, rfl⟩ := members_some hv
    unfold Phv.assignUnion
    simp only [hx, hy, Option.bind_eq_bind, Option.bind_some, hff.length_eq, if_true, r]
  · intro k ds' hds' hk
    rw [hu] at hds'
    cases hds'
    cases hz : p.headers[k]? with
    | none =>
      have h1 : p'.headers.length = p.headers.length := by
        rw [← s'.body.memb, ← hs.body.memb, l'.memb]
      rw [List.getElem?_eq_none_iff] at hz ⊢
      omega
    | some z =>
      obtain ⟨z', hz', h⟩ := fr k z hk hz
      rcases h with rfl | ⟨_, q, hq, _, w, i, j, h1, h2⟩
      · exact hz'
      · exfalso
        obtain ⟨i', h3⟩ := memb_of_mem hl hu (List.of_mem_zip hq).1
        rw [h1] at h3
        simp only [Option.some.injEq, Prod.mk.injEq] at h3
        obtain ⟨x, hx, hxj⟩ := hl.ofMemb k w j h2
        rw [h3.1] at hx
        obtain ⟨x', hx', rfl⟩ := members_some hu
        rw [hx] at hx'
        cases hx'
        exact hk (List.mem_of_getElem? hxj)

theorem assignUnions_spec {rz : Bool} : ∀ (ds ss : List Nat) (p : Phv), Sound p → (ds.Nodup) →
    (∀ a ∈ ds, a ∉ ss) → List.Forall₂ (FitsU p) ds ss →
    ∃ p', Phv.assignUnions rz p ds ss = some p' ∧ Sound p' ∧ Phv.SameLayout p p' ∧
      p'.hstacks = p.hstacks ∧ p'.unionStacks = p.unionStacks ∧ List.Forall₂ (DoneU p p') ds ss ∧
      (∀ k, (∀ u ∈ ds, ∀ ms, members p u = some ms → k ∉ ms) → p'.headers[k]? = p.headers[k]?)
  | [], _, p, hs, _, _, hf => by
    cases hf
    exact ⟨p, rfl, hs, Phv.SameLayout.refl _, rfl, rfl, List.Forall₂.nil, fun _ _ => rfl⟩
  | _ :: _, [], p, hs, _, _, hf => by cases hf
  | u :: ds, v :: ss, p, hs, hn, ha, hf => by
    cases hf with
    | cons f1 f2 =>
    obtain ⟨hu, hn⟩ := List.nodup_cons.1 hn
    have huv : u ≠ v := fun h => ha u (by simp) (by simp [h])
    obtain ⟨p1, r1, s1, l1, e1, e2, d1, fr1⟩ := assignUnion_spec (rz := rz) hs huv f1
    have hmem := members_same l1
    obtain ⟨us, vs, mu, mv, dd1⟩ := d1
    have hl := hs.inv.layout
    -- members of other unions are as before
    have keep : ∀ w, w ≠ u → ∀ ms, members p w = some ms → ∀ k ∈ ms, p1.headers[k]? = p.headers[k]? := by
      intro w hw ms hms k hk
      exact fr1 k us mu (fun h => disjoint_members hl hw hms mu k hk h)
    have hkeepF : ∀ w x, w ≠ u → x ≠ u → FitsU p w x → FitsU p1 w x := by
      rintro w x hw hx ⟨as, bs, m1, m2, ff⟩
      refine ⟨as, bs, by rw [hmem, m1], by rw [hmem, m2], ?_⟩
      rw [List.forall₂_iff_zip] at ff ⊢
      refine ⟨ff.1, fun {a b} hab => ?_⟩
      obtain ⟨x1, y1, g1, g2, g3⟩ := ff.2 hab
      obtain ⟨n1, n2⟩ := List.of_mem_zip hab
      exact ⟨x1, y1, by rw [keep w hw as m1 a n1, g1], by rw [keep x hx bs m2 b n2, g2], g3⟩
    have hne : ∀ q ∈ ds.zip ss, q.1 ≠ u ∧ q.2 ≠ u := by
      intro q hq
      obtain ⟨n1, n2⟩ := List.of_mem_zip hq
      exact ⟨fun h => hu (h ▸ n1), fun h => ha u (by simp) (by simp [← h, n2])⟩
    obtain ⟨p2, r2, s2, l2, e3, e4, d2, fr2⟩ := assignUnions_spec (rz := rz) ds ss p1 s1 hn
      (fun a h1 h2 => ha a (by simp [h1]) (by simp [h2]))
      (by
        rw [List.forall₂_iff_zip] at f2 ⊢
        exact ⟨f2.1, fun {a b} hab => hkeepF a b (hne _ hab).1 (hne _ hab).2 (f2.2 hab)⟩)
    refine ⟨p2, by simp [Phv.assignUnions, r1, r2], s2, l1.trans l2, e3.trans e1, e4.trans e2, ?_, ?_⟩
    · refine List.Forall₂.cons ⟨us, vs, mu, mv, ?_⟩ ?_
      · rw [List.forall₂_iff_zip] at dd1 ⊢
        refine ⟨dd1.1, fun {a b} hab => ?_⟩
        obtain ⟨x', y, g1, g2, g3⟩ := dd1.2 hab
        refine ⟨x', y, ?_, g2, g3⟩
        rw [fr2 a ?_, g1]
        intro w hw ms hms hma
        rw [hmem] at hms
        exact disjoint_members hl (fun h : w = u => hu (h ▸ hw)) hms mu a hma (List.of_mem_zip hab).1
      · rw [List.forall₂_iff_zip] at d2 ⊢
        refine ⟨d2.1, fun {w x} hwx => ?_⟩
        obtain ⟨as, bs, m1, m2, dd⟩ := d2.2 hwx
        rw [hmem] at m1 m2
        refine ⟨as, bs, m1, m2, ?_⟩
        rw [List.forall₂_iff_zip] at dd ⊢
        refine ⟨dd.1, fun {a b} hab => ?_⟩
        obtain ⟨x', y, g1, g2, g3⟩ := dd.2 hab
        refine ⟨x', y, g1, ?_, g3⟩
        rw [← keep x (hne _ hwx).2 bs m2 b (List.of_mem_zip hab).2, g2]
    · intro k hk
      rw [fr2 k ?_, fr1 k us mu (hk u (by simp) us mu)]
      intro w hw ms hms
      rw [hmem] at hms
      exact hk w (by simp [hw]) ms hms

/-- Assigned unions name corresponding members. -/
theorem doneU_named {p p' : Phv} (hs : Sound p) (hs' : Sound p') (hl : Phv.SameLayout p p') {u v : Nat}
    (hd : DoneU p p' u v) : ∃ X' Y : HUnion, p'.unions[u]? = some X' ∧ p.unions[v]? = some Y ∧
      X'.valid = Y.valid ∧ (Y.valid = true → X'.idx = Y.idx) := by
  obtain ⟨ds, ss, mu, mv, dd⟩ := hd
  rw [← members_same hl] at mu
  obtain ⟨X', hX, rfl⟩ := members_some mu
  obtain ⟨Y, hY, rfl⟩ := members_some mv
  refine ⟨X', Y, hX, hY, ?_⟩
  have hlen := dd.length_eq
  rw [List.forall₂_iff_get] at dd
  have key : ∀ i, i < Y.members.length → (X'.valid && decide (X'.idx = i)) = (Y.valid && decide (Y.idx = i)) := by
    intro i hi
    obtain ⟨x', y, g1, g2, g3, _⟩ := dd.2 i (by omega) hi
    have a1 := isValid_member hs'.inv hX (List.getElem?_eq_getElem (by omega)) g1
    have a2 := isValid_member hs.inv hY (List.getElem?_eq_getElem hi) g2
    rw [← a1.1, ← a2.1, a1.2, g3]
  cases hyv : Y.valid with
  | true =>
    have hlt := hs.inv.idx v Y hY hyv
    have := key Y.idx hlt
    rw [hyv] at this
    simp only [decide_true, Bool.and_self, Bool.and_eq_true, decide_eq_true_eq] at this
    exact ⟨this.1, fun _ => this.2⟩
  | false =>
    refine ⟨?_, by simp⟩
    cases hxv : X'.valid with
    | false => rfl
    | true =>
      have hlt := hs'.inv.idx u X' hX hxv
      have := key X'.idx (by omega)
      rw [hxv, hyv] at this
      simp at this

end Bm.Assign
