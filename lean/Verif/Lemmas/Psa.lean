import Verif.Spec.Psa
import Verif.Lemmas.SimpleSwitch

/-!
# Lemmas about `psa_switch`
-/

namespace Bm.Psa
open Bm.SSwitch

/-! ## `PHV::reset` -/

theorem set_fsame {f f' : Field} {inv : Bool} {v : Int} (e : f.set inv v = some f') : FSame f f' := by
  unfold Field.set Field.exportBytes at e
  simp only [Option.bind_eq_bind] at e
  obtain ⟨b, _, e⟩ := Option.bind_eq_some_iff.1 e
  cases e
  exact ⟨rfl, rfl, rfl, rfl, rfl, fun _ => ⟨rfl, rfl, rfl, rfl, rfl⟩⟩

/-- Invalidating a header. -/
theorem markInvalid_same {a b b' : Header} (hs : HSame a b) (e : b.markInvalid = some b') :
    HSame a b' ∧ b'.valid = false ∧ ∀ i : Nat, i + 1 ≠ a.fields.length → b'.fields[i]? = b.fields[i]? := by
  have hv := (Phv.markInvalid_flags e).1
  unfold Header.markInvalid Header.setValidField at e
  simp only [Option.bind_eq_bind] at e
  obtain ⟨f, h1, e⟩ := Option.bind_eq_some_iff.1 e
  obtain ⟨f', h2, e⟩ := Option.bind_eq_some_iff.1 e
  cases e
  refine ⟨⟨hs.typeId, hs.vlOffset, hs.metadata, by simp [hs.len], ?_, ?_⟩, hv, ?_⟩
  · intro i y z hy hz
    simp only [List.getElem?_set] at hz
    split at hz
    · rename_i heq
      subst heq
      split at hz
      · cases hz
        exact (hs.fields _ _ _ hy h1).trans (set_fsame h2)
      · cases hz
    · exact hs.fields _ _ _ hy hz
  · intro hma i z hz
    simp only [List.getElem?_set] at hz
    split at hz
    · rename_i heq
      subst heq
      split at hz
      · cases hz
        obtain ⟨k1, k2, _⟩ := hs.ok hma _ _ h1
        obtain ⟨k3, k4, k5⟩ := set_same k1 h2
        exact ⟨k3, k4.vl.trans k2, k5⟩
      · cases hz
    · exact hs.ok hma _ _ hz
  · intro i hi
    simp only [List.getElem?_set]
    rw [if_neg]
    obtain ⟨hlt, _⟩ := List.getElem?_eq_some_iff.1 h1
    have := hs.len
    omega

/-- The variable-length field of a header becomes empty. -/
theorem resetVL_same {a b b' : Header} (hs : HSame a b) {k : Nat} (e : Phv.resetVLHeader b k = some b') :
    HSame a b' ∧ b'.valid = b.valid ∧ (a.metadata = true → False) := by
  unfold Phv.resetVLHeader at e
  simp only [Option.bind_eq_bind] at e
  obtain ⟨f, h1, e⟩ := Option.bind_eq_some_iff.1 e
  obtain ⟨f', h2, e⟩ := Option.bind_eq_some_iff.1 e
  cases e
  unfold Phv.resetVL at h2
  split at h2
  swap
  · cases h2
  rename_i hvl
  cases h2
  have hno : a.metadata = true → False := fun hma => by
    have := (hs.ok hma _ _ h1).2.1
    rw [hvl] at this
    cases this
  refine ⟨⟨hs.typeId, hs.vlOffset, hs.metadata, by simp [hs.len], ?_, fun hma => (hno hma).elim⟩, rfl, hno⟩
  intro i y z hy hz
  simp only [List.getElem?_set] at hz
  split at hz
  · rename_i heq
    subst heq
    split at hz
    · cases hz
      have := hs.fields _ _ _ hy h1
      refine ⟨this.arith, this.isSigned, this.hidden, this.vl, this.isSaturating, fun h => ?_⟩
      rw [this.vl] at hvl
      rw [h] at hvl
      cases hvl
    · cases hz
  · exact hs.fields _ _ _ hy hz

/-- What stays when one header is replaced. -/
theorem made_set {p0 p : Phv} (m : Made p0 p) {h : Nat} {b' : Header} (us : List HUnion)
    (hu : us.map (·.members) = p.unions.map (·.members))
    (hb : ∀ a : Header, p0.headers[h]? = some a → HSame a b') :
    Made p0 { p with headers := p.headers.set h b', unions := us } := by
  refine ⟨⟨m.layout.memb, hu.trans m.layout.unions, m.layout.hstacks, m.layout.unionStacks⟩, by simp [m.len], ?_⟩
  intro k a x ha hx
  simp only [List.getElem?_set] at hx
  split at hx
  · rename_i heq
    subst heq
    split at hx
    · cases hx
      exact hb _ ha
    · cases hx
  · exact m.headers _ _ _ ha hx

theorem unions_set {l : List HUnion} {u : Nat} {x y : HUnion} (h : l[u]? = some x) (hm : y.members = x.members) :
    (l.set u y).map (·.members) = l.map (·.members) := by
  rw [List.map_set]
  apply List.ext_getElem?
  intro i
  simp only [List.getElem?_set, List.getElem?_map]
  split
  · rename_i heq
    subst heq
    rw [h]
    simp only [List.length_map, Option.map_some, hm]
    obtain ⟨hlt, _⟩ := List.getElem?_eq_some_iff.1 h
    simp [hlt]
  · rfl

structure Reset (p0 p p' : Phv) : Prop where
  made : Made p0 p'
  hstacks : p'.hstacks = p.hstacks
  unionStacks : p'.unionStacks = p.unionStacks
  md : MdIs p0 p' (mval p)

/-- One header of the loop. -/
theorem resetOne_spec {p0 p p' : Phv} {h : Nat} (m : Made p0 p) (e : Phv.resetOne p h = some p') :
    Reset p0 p p' ∧ (∀ k, k ≠ h → p'.headers[k]? = p.headers[k]?) ∧
      ∀ b : Header, p'.headers[h]? = some b → b.valid = false := by
  unfold Phv.resetOne at e
  simp only [Option.bind_eq_bind] at e
  obtain ⟨p1, h1, e⟩ := Option.bind_eq_some_iff.1 e
  obtain ⟨x, h2, e⟩ := Option.bind_eq_some_iff.1 e
  -- the header is invalidated
  obtain ⟨b, b', us, k1, k2, k3, k4⟩ : ∃ b b' us, p.headers[h]? = some b ∧ b.markInvalid = some b' ∧
      p1 = { p with headers := p.headers.set h b', unions := us } ∧
      us.map (·.members) = p.unions.map (·.members) := by
    unfold Phv.markInvalid at h1
    simp only [Option.bind_eq_bind] at h1
    obtain ⟨q, g1, h1⟩ := Option.bind_eq_some_iff.1 h1
    obtain ⟨mm, g2, h1⟩ := Option.bind_eq_some_iff.1 h1
    obtain ⟨b, b', f1, f2, rfl, f3, f4⟩ := Phv.updHeader_spec g1
    cases mm with
    | none => cases h1; exact ⟨b, b', p.unions, f1, f2, rfl, rfl⟩
    | some ui =>
      simp only at h1
      unfold Phv.makeHeaderInvalid at h1
      simp only [Option.bind_eq_bind] at h1
      obtain ⟨un, g3, h1⟩ := Option.bind_eq_some_iff.1 h1
      cases h1
      exact ⟨b, b', _, f1, f2, rfl, unions_set g3 (by split <;> rfl)⟩
  subst k3
  obtain ⟨hlt, _⟩ := List.getElem?_eq_some_iff.1 k1
  have hx : x = b' := by
    simp only [List.getElem?_set, hlt, if_true] at h2
    cases h2; rfl
  subst hx
  have m1 : Made p0 { p with headers := p.headers.set h x, unions := us } :=
    made_set m us k4 fun a ha => (markInvalid_same (m.headers _ _ _ ha k1) k2).1
  have md1 : MdIs p0 { p with headers := p.headers.set h x, unions := us } (mval p) := by
    intro r hr
    unfold mval mfield
    by_cases heq : h = r.1
    · subst heq
      have hlt0 := hlt
      rw [m.len] at hlt0
      have ha := List.getElem?_eq_getElem hlt0
      obtain ⟨s1, _, s3⟩ := markInvalid_same (m.headers _ _ _ ha k1) k2
      have h0 := m.headers _ _ _ ha k1
      simp only [List.getElem?_set, hlt, if_true, k1, Option.bind_some, s1.metadata, h0.metadata]
      rw [s3 r.2 (hr _ ha)]
    · simp only [List.getElem?_set, if_neg heq]
  have e1 : ∀ k, k ≠ h → (p.headers.set h x)[k]? = p.headers[k]? := fun k hk => by
    simp only [List.getElem?_set, if_neg (Ne.symm hk)]
  have hval : x.valid = false := (Phv.markInvalid_flags k2).1
  cases hvl : x.vlOffset with
  | none =>
    rw [hvl] at e
    cases e
    refine ⟨⟨m1, rfl, rfl, md1⟩, e1, fun b hb => ?_⟩
    simp only [List.getElem?_set, hlt, if_true] at hb
    cases hb
    exact hval
  | some k =>
    rw [hvl] at e
    simp only at e
    obtain ⟨y, z, f1, f2, f3, f4, f5⟩ := Phv.updHeader_spec e
    have hyx : y = x := by
      rw [h2] at f1; cases f1; rfl
    subst hyx
    subst f3
    have hlt0 := hlt
    rw [m.len] at hlt0
    have ha := List.getElem?_eq_getElem hlt0
    have hs := m1.headers _ _ _ ha h2
    obtain ⟨g1, g2, g3⟩ := resetVL_same hs f2
    refine ⟨⟨made_set m1 _ rfl fun a ha' => ?_, rfl, rfl, fun r hr => ?_⟩, fun k' hk' => ?_, fun b hb => ?_⟩
    · rw [ha] at ha'
      cases ha'
      exact g1
    · rw [← md1 r hr]
      unfold mval mfield
      by_cases heq : h = r.1
      · subst heq
        rw [f4, h2]
        simp only [Option.bind_some]
        rw [if_neg, if_neg]
        · rw [hs.metadata]; exact fun h => g3 h
        · rw [g1.metadata]; exact fun h => g3 h
      · rw [f5 _ (Ne.symm heq)]
    · rw [f5 _ hk']; exact e1 _ hk'
    · rw [f4] at hb
      cases hb
      exact g2.trans hval

/-- The loop. -/
theorem resetList_spec {p0 : Phv} : ∀ {l : List Nat} {p p' : Phv}, Made p0 p → l.foldlM Phv.resetOne p = some p' →
    Reset p0 p p' ∧ (∀ (k : Nat) (b : Header), p'.headers[k]? = some b → k ∈ l ∨ (∃ b0 : Header, p.headers[k]? = some b0 ∧
      b0.valid = false) → b.valid = false)
  | [], p, p', m, e => by
    cases e
    refine ⟨⟨m, rfl, rfl, fun _ _ => rfl⟩, fun k b hb h => ?_⟩
    rcases h with h | ⟨b0, h, hv⟩
    · cases h
    · rw [hb] at h; cases h; exact hv
  | h :: l, p, p', m, e => by
    simp only [List.foldlM_cons, Option.bind_eq_bind] at e
    obtain ⟨p1, h1, e⟩ := Option.bind_eq_some_iff.1 e
    obtain ⟨a1, a2, a3⟩ := resetOne_spec m h1
    obtain ⟨b1, b2⟩ := resetList_spec a1.made e
    refine ⟨⟨b1.made, b1.hstacks.trans a1.hstacks, b1.unionStacks.trans a1.unionStacks, fun r hr =>
      (b1.md r hr).trans (a1.md r hr)⟩, fun k b hb hk => ?_⟩
    have hlen : p'.headers.length = p1.headers.length := by rw [b1.made.len, a1.made.len]
    obtain ⟨hlt, _⟩ := List.getElem?_eq_some_iff.1 hb
    rw [hlen] at hlt
    have hk1 := List.getElem?_eq_getElem hlt
    by_cases hkh : k = h
    · subst hkh
      exact b2 k b hb (.inr ⟨_, hk1, a3 _ hk1⟩)
    · refine b2 k b hb ?_
      rcases hk with hk | ⟨b0, hk, hv⟩
      · rcases List.mem_cons.1 hk with hk | hk
        · exact absurd hk hkh
        · exact .inl hk
      · exact .inr ⟨b0, by rw [a2 k hkh]; exact hk, hv⟩

theorem phvReset_spec {p0 p p' : Phv} (m : Made p0 p) (e : p.reset = some p') :
    Reset p0 p p' ∧ ∀ b ∈ p'.headers, b.valid = false := by
  unfold Phv.reset at e
  obtain ⟨a, b⟩ := resetList_spec m e
  refine ⟨a, fun x hx => ?_⟩
  obtain ⟨k, hk⟩ := List.mem_iff_getElem?.1 hx
  obtain ⟨hlt, _⟩ := List.getElem?_eq_some_iff.1 hk
  rw [a.made.len, ← m.len] at hlt
  exact b k x hk (.inl (List.mem_range.2 hlt))

/-! ## Names -/

variable {c : Cfg} {p0 : Phv}

theorem Std.ne (hc : Std c p0) (i j : Nat) {a b : Ref} (ha : c.names.all[i]? = some a)
    (hb : c.names.all[j]? = some b) (hij : i ≠ j) : a ≠ b := by
  rintro rfl
  obtain ⟨h1, k1⟩ := List.getElem?_eq_some_iff.1 ha
  obtain ⟨h2, k2⟩ := List.getElem?_eq_some_iff.1 hb
  exact hij ((List.Nodup.getElem_inj_iff hc.apart).1 (k1.trans k2.symm))

theorem Std.at (hc : Std c p0) (i : Nat) {a : Ref} (ha : c.names.all[i]? = some a) : a ∈ c.names.all :=
  List.mem_of_getElem? ha

theorem Std.isSome (hc : Std c p0) {r : Ref} (h : r ∈ c.names.all) : (mfield p0 r).isSome = true := by
  obtain ⟨f, h1, _⟩ := hc.plain r h
  rw [h1]; rfl

theorem getF_name (hc : Std c p0) {p : Phv} (m : Made p0 p) {r : Ref} (h : r ∈ c.names.all) :
    getF c.rz p r = mval p r := getF_meta (m.some_of (hc.isSome h))

/-- Values of the metadata of the architecture are natural numbers. -/
theorem mval_nat (hc : Std c p0) {p : Phv} (m : Made p0 p) {r : Ref} (h : r ∈ c.names.all) :
    ∃ n : Nat, mval p r = some (n : Int) := by
  obtain ⟨f0, h1, h2, h3⟩ := hc.plain r h
  rcases m.at r with k | ⟨g0, f, k1, k2, k3, k4, k5, k6⟩
  · rw [k.1] at h1; cases h1
  · rw [h1] at k1
    cases k1
    have hs := k3.isSigned.trans h2
    have h0 : 0 ≤ f.value := by
      rcases k6 with k6 | k6
      · unfold Spec.Kind.Fits Spec.Kind.lowest Field.kind at k6
        simp only [hs, Bool.false_eq_true, if_false] at k6
        exact k6.1
      · have := k6.1
        rw [hs] at this
        cases this
    refine ⟨f.value.toNat, ?_⟩
    unfold mval
    rw [k2, Option.map_some, Int.toNat_of_nonneg h0]

/-- Reading a number. -/
theorem reads (hc : Std c p0) {p : Phv} (m : Made p0 p) {r : Ref} (h : r ∈ c.names.all) {v : Int}
    (e1 : getF c.rz p r = some v) {k : Nat} (e2 : Data.getUint v = some k) : Reads p r k := by
  obtain ⟨n, hn⟩ := mval_nat hc m h
  rw [getF_name hc m h, hn] at e1
  cases e1
  rw [getUint_nat e2]
  exact hn

theorem reads_inj {p : Phv} {r : Ref} {n k : Nat} (h : Reads p r n) (h' : Reads p r k) : n = k := by
  unfold Reads at h h'
  rw [h] at h'
  simpa using h'

/-- Writing a name. -/
theorem put_name (hc : Std c p0) {p p' : Phv} (m : Made p0 p) {r : Ref} (h : r ∈ c.names.all) {v : Int}
    (e : setF c.rz p r v = some p') :
    Made p0 p' ∧ SameHeaders p p' ∧ mval p' = Md.put (mval p) p0 r v := by
  obtain ⟨a, b, d⟩ := setF_plain m (hc.plain r h) e
  exact ⟨a, b, funext d⟩

theorem copyF_name (hc : Std c p0) {p p' : Phv} (m : Made p0 p) {r s : Ref} (h : r ∈ c.names.all)
    (hs : s ∈ c.names.all) (e : copyF c p r s = some p') :
    Made p0 p' ∧ SameHeaders p p' ∧ mval p' = fun x => if x = r then (mval p s).map (stored p0 r) else mval p x := by
  unfold copyF at e
  simp only [Option.bind_eq_bind] at e
  obtain ⟨v, h1, e⟩ := Option.bind_eq_some_iff.1 e
  obtain ⟨a, b, d⟩ := setF_plain m (hc.plain r h) e
  rw [getF_name hc m hs] at h1
  refine ⟨a, b, funext fun x => ?_⟩
  rw [d, h1]
  rfl

theorem put_ne {m : Md} {r x : Ref} {v : Int} (h : x ≠ r) : m.put p0 r v x = m x := if_neg h

theorem put_self {m : Md} {r : Ref} {v : Int} : m.put p0 r v r = some (stored p0 r v) := if_pos rfl

theorem stored_zero (r : Ref) : stored p0 r 0 = 0 := by simp [stored]

/-! ## Multicast and clones -/

theorem stampCopy_spec (hc : Std c p0) {cos rid : Nat} {path : Int} {p p' : Phv} (m : Made p0 p)
    (e : stampCopy c cos rid path p = some p') :
    Made p0 p' ∧ SameHeaders p p' ∧ mval p' = copyMd c p0 cos rid path (mval p) := by
  simp only [stampCopy, Option.bind_eq_bind] at e
  obtain ⟨p1, h1, e⟩ := Option.bind_eq_some_iff.1 e
  obtain ⟨p2, h2, e⟩ := Option.bind_eq_some_iff.1 e
  obtain ⟨a1, a2, a3⟩ := put_name hc m (hc.at 15 rfl) h1
  obtain ⟨b1, b2, b3⟩ := put_name hc a1 (hc.at 18 rfl) h2
  obtain ⟨d1, d2, d3⟩ := put_name hc b1 (hc.at 14 rfl) e
  exact ⟨d1, a2.trans (b2.trans d2), by rw [d3, b3, a3]; rfl⟩

/-- Stamping twice is stamping once. -/
theorem copyMd_twice (hc : Std c p0) {cos cos' rid rid' : Nat} {path path' : Int} {m : Md} :
    copyMd c p0 cos rid path (copyMd c p0 cos' rid' path' m) = copyMd c p0 cos rid path m := by
  funext r
  unfold copyMd Md.put
  by_cases h1 : r = c.names.epPath
  · rw [if_pos h1, if_pos h1]
  by_cases h2 : r = c.names.eiInstance
  · simp only [if_neg h1, if_pos h2]
  by_cases h3 : r = c.names.eiCos
  · simp only [if_neg h1, if_neg h2, if_pos h3]
  · simp only [if_neg h1, if_neg h2, if_neg h3]

/-- As `Multicasts`, for a length given. -/
theorem loop_spec (hc : Std c p0) {size : BitVec 64} {cos : Nat} {path : Int} :
    ∀ {outs : List (Nat × Nat)} {o : Oracle} {p p' : Pkt} {es : List Eff},
    (∀ i, Made p0 (o i).stale) → Made p0 p.phv → multicastLoop c size cos path o p outs = some (p', es) →
    (∃ phv, p' = { p with phv } ∧ Made p0 phv ∧ SameHeaders p.phv phv ∧
      mval phv = match outs.getLast? with
        | none => mval p.phv
        | some out => copyMd c p0 cos out.2 path (mval p.phv)) ∧
    List.Forall₂ (fun out e => ∃ q, e = Eff.enqueue out.1 q ∧ q.ePort = out.1 ∧ q.trunc = noTrunc ∧
      Is p0 q { inPort := p.inPort, inLen := p.inLen, data := p.data, size, headers := p.phv,
                md := copyMd c p0 cos out.2 path (mval p.phv) }) outs es
  | [], o, p, p', es, _, m, e => by
    cases e
    exact ⟨⟨p.phv, rfl, m, .refl _, rfl⟩, .nil⟩
  | (port, rid) :: outs, o, p, p', es, ho, m, e => by
    simp only [multicastLoop, Option.bind_eq_bind] at e
    obtain ⟨phv1, h1, e⟩ := Option.bind_eq_some_iff.1 e
    obtain ⟨⟨p2, es2⟩, h3, e⟩ := Option.bind_eq_some_iff.1 e
    cases e
    obtain ⟨a1, a2, a3⟩ := stampCopy_spec hc m h1
    obtain ⟨⟨phv, b1, b2, b3, b4⟩, b5⟩ := loop_spec hc (p := { p with phv := phv1 }) (fun i => ho (1 + i)) a1 h3
    obtain ⟨c1, c2, c3⟩ := copy_spec (rz := c.rz) (ho 0) a1
    refine ⟨⟨phv, by rw [b1], b2, a2.trans b3, ?_⟩, List.Forall₂.cons ⟨_, rfl, rfl, rfl, ?_⟩ ?_⟩
    · rw [b4]
      rw [List.getLast?_cons]
      cases hl : outs.getLast? with
      | none => simp only [Option.getD_none]; rw [a3]
      | some out =>
        simp only [Option.getD_some, a3]
        exact copyMd_twice hc
    · refine ⟨rfl, rfl, rfl, size_new (o 0).regs size, a2.trans c2, fun r _ => ?_, c1⟩
      rw [← a3]
      unfold mval
      exact congrArg _ (c3 r)
    · refine List.Forall₂.imp (fun out e' he => ?_) b5
      obtain ⟨q, k1, k2, k3, k4⟩ := he
      refine ⟨q, k1, k2, k3, ⟨k4.inPort, k4.inLen, k4.data, k4.size, a2.trans k4.headers, fun r hr => ?_, k4.made⟩⟩
      have := k4.md r hr
      simp only [a3, copyMd_twice hc] at this
      exact this

theorem multicast_spec (hc : Std c p0) {o : Oracle} {p p' : Pkt} {g cos : Nat} {path : Int} {es : List Eff}
    (ho : ∀ i, Made p0 (o i).stale) (m : Made p0 p.phv) (e : multicast c o p g cos path = some (p', es)) :
    ∃ outs, Multicasts c p0 (content p p.data p.phv (mval p.phv)) g cos path outs es ∧
      ∃ phv, p' = { p with phv } ∧ Made p0 phv ∧ SameHeaders p.phv phv ∧
        mval phv = match outs.getLast? with
          | none => mval p.phv
          | some out => copyMd c p0 cos out.2 path (mval p.phv) := by
  simp only [multicast, Option.bind_eq_bind] at e
  obtain ⟨outs, h2, e⟩ := Option.bind_eq_some_iff.1 e
  obtain ⟨h3, h4⟩ := loop_spec hc ho m e
  exact ⟨outs, ⟨h2, h4⟩, h3⟩

/-- The clone `q` as made; `x` says what it is once its metadata are set. -/
theorem sendClone_spec (hc : Std c p0) {o : Oracle} {s : Session} {path : Int} {q : Pkt} {es : List Eff}
    (ho : ∀ i, Made p0 (o i).stale) (m : Made p0 q.phv) (ht : q.trunc = noTrunc)
    (e : sendClone c o s path q = some es) :
    Mirrors c p0 s path (content q q.data q.phv ((zero p0).put p0 c.names.epPath path)) es := by
  simp only [sendClone, Option.bind_eq_bind] at e
  obtain ⟨phv1, g1, e⟩ := Option.bind_eq_some_iff.1 e
  obtain ⟨phv2, g2, e⟩ := Option.bind_eq_some_iff.1 e
  obtain ⟨⟨q', em⟩, h1, e⟩ := Option.bind_eq_some_iff.1 e
  cases e
  obtain ⟨a1, a2, a3⟩ := reset_spec m g1
  obtain ⟨b1, b2, b3⟩ := put_name hc a1 (hc.at 14 rfl) g2
  have hz : mval phv2 = (zero p0).put p0 c.names.epPath path := by
    rw [b3, funext a3]; rfl
  have hh := a2.trans b2
  have key : ∃ outs, (s.mgid = none → outs = [] ∧ em = []) ∧
      (∀ g, s.mgid = some g → Multicasts c p0 (content q q.data q.phv ((zero p0).put p0 c.names.epPath path)) g 0 path
        outs em) ∧
      ∃ phv, q' = { q with phv } ∧ Made p0 phv ∧ SameHeaders q.phv phv ∧
        mval phv = leftMd c p0 outs path ((zero p0).put p0 c.names.epPath path) := by
    unfold cloneGroup at h1
    cases hg : s.mgid with
    | none =>
      rw [hg] at h1
      cases h1
      exact ⟨[], fun _ => ⟨rfl, rfl⟩, fun g h => (by cases h), phv2, rfl, b1, hh, hz⟩
    | some g =>
      rw [hg] at h1
      simp only at h1
      obtain ⟨outs, k1, phv, k2, k3, k4, k5⟩ := multicast_spec hc ho b1 h1
      refine ⟨outs, fun h => (by cases h), fun g' h => ?_, phv, k2, k3, hh.trans k4, ?_⟩
      · cases h
        refine ⟨k1.1, List.Forall₂.imp (fun out e' he => ?_) k1.2⟩
        obtain ⟨y, f1, f2, f3, f4⟩ := he
        refine ⟨y, f1, f2, f3, ⟨f4.inPort, f4.inLen, f4.data, f4.size, hh.trans f4.headers, fun r hr => ?_, f4.made⟩⟩
        have := f4.md r hr
        simp only [content, hz] at this
        exact this
      · rw [k5]
        simp only [hz]
        unfold leftMd
        cases outs.getLast? <;> rfl
  obtain ⟨outs, k1, k2, phv, k3, k4, k5, k6⟩ := key
  subst k3
  refine ⟨outs, em, _, rfl, k1, k2, fun h => ?_, fun port h => ?_⟩
  · unfold clonePort
    rw [h]
  · unfold clonePort
    rw [h]
    refine ⟨_, rfl, rfl, ht, ⟨rfl, rfl, rfl, rfl, k5, fun r _ => ?_, k4⟩⟩
    simp only [content]
    rw [k6]

theorem getSessionId_nat {n k : Nat} (h : getSessionId (n : Int) = some k) : k = n := by
  unfold getSessionId at h
  split at h
  · cases h; rfl
  · cases h

theorem ingressClone_spec (hc : Std c p0) {o : Oracle} {p : Pkt} {saved : Bytes} {size : BitVec 64}
    {es : List Eff} (ho : ∀ i, Made p0 (o i).stale) (m : Made p0 p.phv)
    (e : ingressClone c o p saved size = some es) :
    Clones c p0 p.phv c.names.ioClone c.names.ioSession 3
      { inPort := p.inPort, inLen := p.inLen, data := saved, size, headers := (o 0).stale,
        md := (zero p0).put p0 c.names.epPath 3 } es := by
  simp only [ingressClone, Option.bind_eq_bind] at e
  obtain ⟨v, h1, e⟩ := Option.bind_eq_some_iff.1 e
  obtain ⟨k, h2, e⟩ := Option.bind_eq_some_iff.1 e
  have hk := reads hc m (hc.at 7 rfl) h1 h2
  by_cases hk0 : k = 0
  · rw [if_pos hk0] at e
    cases e
    subst hk0
    exact ⟨fun _ => rfl, fun n hn h => absurd (reads_inj h hk) hn⟩
  · rw [if_neg hk0] at e
    obtain ⟨w, h3, e⟩ := Option.bind_eq_some_iff.1 e
    obtain ⟨id, h4, e⟩ := Option.bind_eq_some_iff.1 e
    refine ⟨fun h => absurd (reads_inj hk h) hk0, fun n _ _ => ⟨id, ?_, ?_⟩⟩
    · obtain ⟨n', hn'⟩ := mval_nat hc m (hc.at 8 rfl)
      rw [getF_name hc m (hc.at 8 rfl), hn'] at h3
      cases h3
      rw [getSessionId_nat h4]
      exact hn'
    · cases hs : c.session id with
      | none =>
        rw [hs] at e
        cases e
        exact ⟨fun _ => rfl, fun s h => by cases h⟩
      | some s =>
        rw [hs] at e
        refine ⟨fun h => (by cases h), fun s' h => ?_⟩
        cases h
        have := sendClone_spec hc (o := o.from 1) (fun i => ho (1 + i)) (ho 0)
          (q := { cloneNoPhv (o 0) { p with data := saved } with
            regs := setReg (cloneNoPhv (o 0) { p with data := saved }).regs lenReg size }) rfl e
        have hr : (setReg (o 0).regs lenReg size) lenReg = size := size_new _ _
        simp only [content, cloneNoPhv, hr] at this
        exact this

theorem egressClone_spec (hc : Std c p0) {o : Oracle} {p : Pkt} {es : List Eff} (ho : ∀ i, Made p0 (o i).stale)
    (m : Made p0 p.phv) (e : egressClone c o p = some es) :
    Clones c p0 p.phv c.names.eoClone c.names.eoSession 4
      { inPort := p.inPort, inLen := p.inLen, data := p.data, size := (o 0).regs lenReg, headers := (o 0).stale,
        md := (zero p0).put p0 c.names.epPath 4 } es := by
  simp only [egressClone, Option.bind_eq_bind] at e
  obtain ⟨v, h1, e⟩ := Option.bind_eq_some_iff.1 e
  obtain ⟨k, h2, e⟩ := Option.bind_eq_some_iff.1 e
  have hk := reads hc m (hc.at 21 rfl) h1 h2
  by_cases hk0 : k = 0
  · rw [if_pos hk0] at e
    cases e
    subst hk0
    exact ⟨fun _ => rfl, fun n hn h => absurd (reads_inj h hk) hn⟩
  · rw [if_neg hk0] at e
    obtain ⟨w, h3, e⟩ := Option.bind_eq_some_iff.1 e
    obtain ⟨id, h4, e⟩ := Option.bind_eq_some_iff.1 e
    refine ⟨fun h => absurd (reads_inj hk h) hk0, fun n _ _ => ⟨id, ?_, ?_⟩⟩
    · obtain ⟨n', hn'⟩ := mval_nat hc m (hc.at 22 rfl)
      rw [getF_name hc m (hc.at 22 rfl), hn'] at h3
      cases h3
      rw [getSessionId_nat h4]
      exact hn'
    · cases hs : c.session id with
      | none =>
        rw [hs] at e
        cases e
        exact ⟨fun _ => rfl, fun s h => by cases h⟩
      | some s =>
        rw [hs] at e
        refine ⟨fun h => (by cases h), fun s' h => ?_⟩
        cases h
        have := sendClone_spec hc (o := o.from 1) (fun i => ho (1 + i)) (ho 0) (q := cloneNoPhv (o 0) p) rfl e
        simp only [content, cloneNoPhv] at this
        exact this

/-! ## The rest of ingress -/

theorem ingressRest_spec (hc : Std c p0) {o : Oracle} {p : Pkt} {saved : Bytes} {cos : Nat} {es : List Eff}
    (ho : ∀ i, Made p0 (o i).stale) (m : Made p0 p.phv) (hcos : Reads p.phv c.names.ioCos cos)
    (e : ingressRest c o p saved cos = some es) : IFate c p0 p saved es := by
  simp only [ingressRest, Option.bind_eq_bind] at e
  obtain ⟨v, h1, e⟩ := Option.bind_eq_some_iff.1 e
  obtain ⟨k, h2, e⟩ := Option.bind_eq_some_iff.1 e
  have hk := reads hc m (hc.at 9 rfl) h1 h2
  by_cases hk0 : k ≠ 0
  · rw [if_pos hk0] at e
    cases e
    exact .drop k hk hk0
  rw [if_neg hk0] at e
  have hk1 : k = 0 := not_not.1 hk0
  subst hk1
  obtain ⟨v2, h3, e⟩ := Option.bind_eq_some_iff.1 e
  obtain ⟨k2, h4, e⟩ := Option.bind_eq_some_iff.1 e
  have hk2 := reads hc m (hc.at 10 rfl) h3 h4
  by_cases hr : k2 ≠ 0
  · rw [if_pos hr] at e
    simp only [resubmit, Option.bind_eq_bind] at e
    obtain ⟨phv1, g1, e⟩ := Option.bind_eq_some_iff.1 e
    obtain ⟨phv2, g2, e⟩ := Option.bind_eq_some_iff.1 e
    cases e
    obtain ⟨a1, a2, a3⟩ := reset_spec m g1
    obtain ⟨b1, b2, b3⟩ := put_name hc a1 (hc.at 1 rfl) g2
    refine .resubmit k2 _ hk hk2 hr rfl ⟨rfl, rfl, rfl, rfl, a2.trans b2, fun r _ => ?_, b1⟩
    simp only [content]
    rw [b3, funext a3]
    rfl
  rw [if_neg hr] at e
  have hr0 : k2 = 0 := not_not.1 hr
  subst hr0
  simp only [forward, Option.bind_eq_bind] at e
  obtain ⟨⟨phv, bytes⟩, g1, e⟩ := Option.bind_eq_some_iff.1 e
  obtain ⟨v3, g2, e⟩ := Option.bind_eq_some_iff.1 e
  obtain ⟨mgid, g3, e⟩ := Option.bind_eq_some_iff.1 e
  have md := hc.iDeparser _ _ _ m g1
  have hg := reads hc md (hc.at 11 rfl) g2 g3
  by_cases hm : mgid ≠ 0
  · rw [if_pos hm] at e
    obtain ⟨⟨p', es'⟩, g4, e⟩ := Option.bind_eq_some_iff.1 e
    cases e
    obtain ⟨outs, f1, _⟩ := multicast_spec hc (p := { p with phv, data := bytes }) ho md g4
    exact .multicast phv bytes mgid cos outs es' hk hk2 g1 hg hm hcos f1
  rw [if_neg hm] at e
  have hm0 : mgid = 0 := not_not.1 hm
  subst hm0
  simp only [unicast, Option.bind_eq_bind] at e
  obtain ⟨q1, f1, e⟩ := Option.bind_eq_some_iff.1 e
  obtain ⟨q2, f2, e⟩ := Option.bind_eq_some_iff.1 e
  obtain ⟨q3, f3, e⟩ := Option.bind_eq_some_iff.1 e
  obtain ⟨v4, f4, e⟩ := Option.bind_eq_some_iff.1 e
  obtain ⟨port, f5, e⟩ := Option.bind_eq_some_iff.1 e
  cases e
  obtain ⟨a1, a2, a3⟩ := put_name hc md (hc.at 18 rfl) f1
  obtain ⟨b1, b2, b3⟩ := put_name hc a1 (hc.at 15 rfl) f2
  obtain ⟨d1, d2, d3⟩ := put_name hc b1 (hc.at 14 rfl) f3
  have hp := reads hc d1 (hc.at 12 rfl) f4 f5
  have hp0 : Reads phv c.names.ioPort port := by
    unfold Reads at hp ⊢
    rw [← hp, d3, b3, a3, put_ne (hc.ne 12 14 rfl rfl (by decide)), put_ne (hc.ne 12 15 rfl rfl (by decide)),
      put_ne (hc.ne 12 18 rfl rfl (by decide))]
  refine .unicast phv bytes port cos _ hk hk2 g1 hg hcos hp0 rfl rfl
    ⟨rfl, rfl, rfl, rfl, a2.trans (b2.trans d2), fun r _ => ?_, d1⟩
  simp only [content]
  rw [d3, b3, a3]
  unfold copyMd Md.put
  have hne : c.names.eiCos ≠ c.names.eiInstance := hc.ne 15 18 rfl rfl (by decide)
  by_cases h1 : r = c.names.epPath
  · simp only [if_pos h1]; rfl
  by_cases h2 : r = c.names.eiCos
  · subst h2
    simp only [if_neg h1, if_true, if_neg hne]
  · simp only [if_neg h1, if_neg h2]
    rfl

/-! ## Before the pipelines -/

theorem ingressSetup_spec (hc : Std c p0) {r : Parsed} {phv : Phv} (m : Made p0 r.phv)
    (e : ingressSetup c r = some phv) :
    Made p0 phv ∧ SameHeaders r.phv phv ∧ mval phv = ingressMd c p0 r.error (mval r.phv) := by
  simp only [ingressSetup, Option.bind_eq_bind] at e
  obtain ⟨q1, f1, e⟩ := Option.bind_eq_some_iff.1 e
  obtain ⟨q2, f2, e⟩ := Option.bind_eq_some_iff.1 e
  obtain ⟨q3, f3, e⟩ := Option.bind_eq_some_iff.1 e
  obtain ⟨q4, f4, e⟩ := Option.bind_eq_some_iff.1 e
  obtain ⟨q5, f5, e⟩ := Option.bind_eq_some_iff.1 e
  obtain ⟨q6, f6, e⟩ := Option.bind_eq_some_iff.1 e
  obtain ⟨q7, f7, e⟩ := Option.bind_eq_some_iff.1 e
  obtain ⟨m1, s1, e1⟩ := copyF_name hc m (hc.at 2 rfl) (hc.at 0 rfl) f1
  obtain ⟨m2, s2, e2⟩ := copyF_name hc m1 (hc.at 3 rfl) (hc.at 1 rfl) f2
  obtain ⟨m3, s3, e3⟩ := put_name hc m2 (hc.at 5 rfl) f3
  obtain ⟨m4, s4, e4⟩ := put_name hc m3 (hc.at 6 rfl) f4
  obtain ⟨m5, s5, e5⟩ := put_name hc m4 (hc.at 7 rfl) f5
  obtain ⟨m6, s6, e6⟩ := put_name hc m5 (hc.at 9 rfl) f6
  obtain ⟨m7, s7, e7⟩ := put_name hc m6 (hc.at 10 rfl) f7
  obtain ⟨m8, s8, e8⟩ := put_name hc m7 (hc.at 11 rfl) e
  refine ⟨m8, s1.trans (s2.trans (s3.trans (s4.trans (s5.trans (s6.trans (s7.trans s8)))))), funext fun x => ?_⟩
  have n1 : c.names.ipPath ≠ c.names.iiPort := hc.ne 1 2 rfl rfl (by decide)
  have hd : c.names.ioDrop ≠ c.names.ioCos := hc.ne 9 6 rfl rfl (by decide)
  have hd2 : c.names.ioDrop ≠ c.names.ioClone := hc.ne 9 7 rfl rfl (by decide)
  rw [e8, e7, e6, e5, e4, e3, e2, e1]
  unfold Md.put ingressMd
  simp only [stored_zero, if_neg n1]
  by_cases h1 : x = c.names.ioGroup
  · simp [h1]
  by_cases h2 : x = c.names.ioResubmit
  · simp [h2]
  by_cases h3 : x = c.names.ioDrop
  · subst h3
    simp only [if_neg h1, if_neg h2, if_true, hd, hd2, h1, h2, or_self, if_false]
  by_cases h4 : x = c.names.ioClone
  · subst h4
    simp only [h1, h2, h3, if_false, if_true, or_true, true_or]
  by_cases h5 : x = c.names.ioCos
  · subst h5
    simp only [h1, h2, h3, h4, if_false, if_true, true_or]
  simp only [h1, h2, h3, h4, h5, if_false, or_self]
  by_cases h6 : x = c.names.iiError
  · subst h6; simp only [if_true]
  by_cases h7 : x = c.names.iiPath
  · subst h7; simp only [h6, if_true, if_false]
  by_cases h8 : x = c.names.iiPort
  · subst h8; simp only [h6, h7, if_true, if_false]
  · simp only [h6, h7, h8, if_false]

theorem egressSetup_spec (hc : Std c p0) {r : Parsed} {phv : Phv} (m : Made p0 r.phv)
    (e : egressSetup c r = some phv) :
    Made p0 phv ∧ SameHeaders r.phv phv ∧ mval phv = egressMd c p0 r.error (mval r.phv) := by
  simp only [egressSetup, Option.bind_eq_bind] at e
  obtain ⟨q1, f1, e⟩ := Option.bind_eq_some_iff.1 e
  obtain ⟨q2, f2, e⟩ := Option.bind_eq_some_iff.1 e
  obtain ⟨q3, f3, e⟩ := Option.bind_eq_some_iff.1 e
  obtain ⟨q4, f4, e⟩ := Option.bind_eq_some_iff.1 e
  obtain ⟨m1, s1, e1⟩ := copyF_name hc m (hc.at 16 rfl) (hc.at 13 rfl) f1
  obtain ⟨m2, s2, e2⟩ := copyF_name hc m1 (hc.at 17 rfl) (hc.at 14 rfl) f2
  obtain ⟨m3, s3, e3⟩ := put_name hc m2 (hc.at 20 rfl) f3
  obtain ⟨m4, s4, e4⟩ := put_name hc m3 (hc.at 21 rfl) f4
  obtain ⟨m5, s5, e5⟩ := put_name hc m4 (hc.at 23 rfl) e
  refine ⟨m5, s1.trans (s2.trans (s3.trans (s4.trans s5))), funext fun x => ?_⟩
  have n1 : c.names.epPath ≠ c.names.eiPort := hc.ne 14 16 rfl rfl (by decide)
  rw [e5, e4, e3, e2, e1]
  unfold Md.put egressMd
  simp only [stored_zero, if_neg n1]
  by_cases h1 : x = c.names.eoDrop
  · simp [h1]
  by_cases h2 : x = c.names.eoClone
  · simp [h2]
  simp only [h1, h2, if_false, or_self]
  by_cases h6 : x = c.names.eiError
  · subst h6; simp only [if_true]
  by_cases h7 : x = c.names.eiPath
  · subst h7; simp only [h6, if_true, if_false]
  by_cases h8 : x = c.names.eiPort
  · subst h8; simp only [h6, h7, if_true, if_false]
  · simp only [h6, h7, h8, if_false]

theorem egressEnter_spec (hc : Std c p0) {w : World} {port : Nat} {p : Pkt} {phv : Phv} (m : Made p0 p.phv)
    (e : egressEnter c w port p = some phv) :
    Made p0 phv ∧ NoHeaders phv ∧ phv.hstacks = p.phv.hstacks ∧ phv.unionStacks = p.phv.unionStacks ∧
      MdIs p0 phv (egressParserMd c p0 w port (mval p.phv)) := by
  simp only [egressEnter, Option.bind_eq_bind] at e
  obtain ⟨q1, f1, e⟩ := Option.bind_eq_some_iff.1 e
  obtain ⟨q2, f2, e⟩ := Option.bind_eq_some_iff.1 e
  obtain ⟨r1, r2⟩ := phvReset_spec m f1
  obtain ⟨m2, s2, e2⟩ := put_name hc r1.made (hc.at 13 rfl) f2
  obtain ⟨m3, s3, e3⟩ := put_name hc m2 (hc.at 19 rfl) e
  have s := s2.trans s3
  refine ⟨m3, ?_, s.hstacks.trans r1.hstacks, s.unionStacks.trans r1.unionStacks, fun r hr => ?_⟩
  · intro b hb hbm
    obtain ⟨k, hk⟩ := List.mem_iff_getElem?.1 hb
    obtain ⟨hlt, _⟩ := List.getElem?_eq_some_iff.1 hk
    have hlt1 : k < q1.headers.length := by rw [r1.made.len, ← m3.len]; exact hlt
    have hlt0 : k < p0.headers.length := by rw [← m3.len]; exact hlt
    have ha := List.getElem?_eq_getElem hlt1
    have h0 := List.getElem?_eq_getElem hlt0
    have hma : (q1.headers[k]).metadata = false := by
      rw [(r1.made.headers _ _ _ h0 ha).metadata, ← (m3.headers _ _ _ h0 hk).metadata]
      exact hbm
    obtain ⟨b', g1, _, g2, _⟩ := s.headers k _ ha hma
    rw [hk] at g1
    cases g1
    rw [g2]
    exact r2 _ (List.mem_of_getElem? ha)
  · rw [e3, e2]
    unfold egressParserMd Md.put
    rw [r1.md r hr]

/-- No header is valid, with other metadata. -/
theorem NoHeaders.same {p q : Phv} (m : Made p0 p) (m' : Made p0 q) (s : SameHeaders p q) (h : NoHeaders p) :
    NoHeaders q := by
  intro b hb hbm
  obtain ⟨k, hk⟩ := List.mem_iff_getElem?.1 hb
  obtain ⟨hlt, _⟩ := List.getElem?_eq_some_iff.1 hk
  have hlt1 : k < p.headers.length := by rw [m.len, ← m'.len]; exact hlt
  have hlt0 : k < p0.headers.length := by rw [← m'.len]; exact hlt
  have ha := List.getElem?_eq_getElem hlt1
  have h0 := List.getElem?_eq_getElem hlt0
  have hma : (p.headers[k]).metadata = false := by
    rw [(m.headers _ _ _ h0 ha).metadata, ← (m'.headers _ _ _ h0 hk).metadata]
    exact hbm
  obtain ⟨b', g1, _, g2, _⟩ := s.headers k _ ha hma
  rw [hk] at g1
  cases g1
  rw [g2]
  exact h _ (List.mem_of_getElem? ha) hma

theorem Clean.same {p q : Phv} (m : Made p0 p) (m' : Made p0 q) (s : SameHeaders p q) (h : Clean p) : Clean q :=
  ⟨NoHeaders.same m m' s h.headers, by rw [s.hstacks]; exact h.hstacks, by rw [s.unionStacks]; exact h.unionStacks⟩

/-- A header vector given back to the pool. -/
theorem release_spec {p q : Phv} (m : Made p0 p) (e : p.reset = some q) :
    Made p0 q.resetHeaderStacks ∧ Clean q.resetHeaderStacks := by
  obtain ⟨r1, r2⟩ := phvReset_spec m e
  refine ⟨⟨⟨r1.made.layout.memb, r1.made.layout.unions, ?_, ?_⟩, r1.made.len, r1.made.headers⟩,
    ⟨fun h hh _ => r2 h hh, fun s hs => ?_, fun s hs => ?_⟩⟩
  · rw [← r1.made.layout.hstacks]
    simp [Phv.resetHeaderStacks, Stack.reset, Function.comp_def]
  · rw [← r1.made.layout.unionStacks]
    simp [Phv.resetHeaderStacks, Stack.reset, Function.comp_def]
  · obtain ⟨x, _, rfl⟩ := List.mem_map.1 hs
    rfl
  · obtain ⟨x, _, rfl⟩ := List.mem_map.1 hs
    rfl

/-! ## The rest of egress -/

theorem egressRest_spec (hc : Std c p0) {port : Nat} {p : Pkt} {es : List Eff} (m : Made p0 p.phv)
    (e : egressRest c port p = some es) : EFate c p0 port p p.phv p.data es := by
  simp only [egressRest, Option.bind_eq_bind] at e
  obtain ⟨v, h1, e⟩ := Option.bind_eq_some_iff.1 e
  obtain ⟨k, h2, e⟩ := Option.bind_eq_some_iff.1 e
  have hk := reads hc m (hc.at 23 rfl) h1 h2
  by_cases hk0 : k ≠ 0
  · rw [if_pos hk0] at e
    cases e
    exact .drop k hk hk0
  rw [if_neg hk0] at e
  have hk1 : k = 0 := not_not.1 hk0
  subst hk1
  by_cases hp : port = recirculatePort
  swap
  · rw [if_neg hp] at e
    cases e
    exact .transmit p hk hp (by
      unfold transmit Pkt.dataSize
      congr 1
      rw [List.take_eq_take_iff]
      omega)
  rw [if_pos hp] at e
  simp only [recirculate, Option.bind_eq_bind] at e
  obtain ⟨q1, f1, e⟩ := Option.bind_eq_some_iff.1 e
  obtain ⟨q2, f2, e⟩ := Option.bind_eq_some_iff.1 e
  obtain ⟨q3, f3, e⟩ := Option.bind_eq_some_iff.1 e
  obtain ⟨q4, f4, e⟩ := Option.bind_eq_some_iff.1 e
  cases e
  obtain ⟨m1, c1⟩ := release_spec m f1
  obtain ⟨m2, s2, e2⟩ := reset_spec m1 f2
  obtain ⟨m3, s3, e3⟩ := put_name hc m2 (hc.at 0 rfl) f3
  obtain ⟨m4, s4, e4⟩ := put_name hc m3 (hc.at 1 rfl) f4
  refine .recirculate _ hk hp (c1.same m1 m4 (s2.trans (s3.trans s4))) rfl
    ⟨rfl, rfl, rfl, rfl, .refl _, fun r _ => ?_, m4⟩
  simp only [content]
  rw [e4, e3, funext e2]
  rfl

end Bm.Psa
