import Verif.Model.Phv
import Verif.Lemmas.Stack

/-!
# Lemmas on header unions: the validity flags
-/

namespace Bm.Phv

/-- Validity flag of a header. -/
def hv (p : Phv) (h : Nat) : Option Bool := (p.headers[h]?).map (·.valid)

/-- Metadata flag of a header. -/
def hm (p : Phv) (h : Nat) : Option Bool := (p.headers[h]?).map (·.metadata)

/-- What the constructors establish and nothing changes: membership, members, stacks. -/
structure Layout (p : Phv) : Prop where
  toMemb : ∀ (u : Nat) (x : HUnion) (i h : Nat), p.unions[u]? = some x → x.members[i]? = some h → p.memb[h]? = some (some (u, i))
  ofMemb : ∀ h u i : Nat, p.memb[h]? = some (some (u, i)) →
    ∃ x : HUnion, p.unions[u]? = some x ∧ x.members[i]? = some h
  hst : ∀ st ∈ p.hstacks, ∀ h ∈ st.elements, ∀ m, p.memb[h]? = some m → m = none
  ust : ∀ st ∈ p.unionStacks, st.elements.Nodup

/-- Two vectors with the same layout. -/
structure SameLayout (p q : Phv) : Prop where
  memb : q.memb = p.memb
  unions : q.unions.map (·.members) = p.unions.map (·.members)
  hstacks : q.hstacks.map (·.elements) = p.hstacks.map (·.elements)
  unionStacks : q.unionStacks.map (·.elements) = p.unionStacks.map (·.elements)

theorem SameLayout.refl (p : Phv) : SameLayout p p := ⟨rfl, rfl, rfl, rfl⟩

theorem SameLayout.trans {p q r : Phv} (h : SameLayout p q) (k : SameLayout q r) : SameLayout p r :=
  ⟨k.memb.trans h.memb, k.unions.trans h.unions, k.hstacks.trans h.hstacks,
    k.unionStacks.trans h.unionStacks⟩

theorem SameLayout.symm {p q : Phv} (h : SameLayout p q) : SameLayout q p :=
  ⟨h.memb.symm, h.unions.symm, h.hstacks.symm, h.unionStacks.symm⟩

theorem SameLayout.union {p q : Phv} (h : SameLayout p q) {u : Nat} {x : HUnion}
    (hx : q.unions[u]? = some x) : ∃ y, p.unions[u]? = some y ∧ y.members = x.members := by
  have := congrArg (fun l => l[u]?) h.unions
  simp only [List.getElem?_map, hx, Option.map_some] at this
  cases hy : p.unions[u]? with
  | none => rw [hy] at this; simp at this
  | some y => rw [hy] at this; simp at this; exact ⟨y, rfl, this.symm⟩

theorem mem_of_map_eq {α β : Type} {f : α → β} {l m : List α} (h : l.map f = m.map f) {x : α}
    (hx : x ∈ l) : ∃ y ∈ m, f y = f x := by
  have : f x ∈ m.map f := h ▸ List.mem_map_of_mem hx
  obtain ⟨y, h1, h2⟩ := List.mem_map.1 this
  exact ⟨y, h1, h2⟩

theorem Layout.of_same {p q : Phv} (hp : Layout p) (h : SameLayout p q) : Layout q := by
  refine ⟨?_, ?_, ?_, ?_⟩
  · intro u x i k hx hk
    obtain ⟨y, h1, h2⟩ := h.union hx
    rw [h.memb]
    exact hp.toMemb u y i k h1 (by rw [h2]; exact hk)
  · intro k u i hk
    rw [h.memb] at hk
    obtain ⟨x, h1, h2⟩ := hp.ofMemb k u i hk
    obtain ⟨y, h3, h4⟩ := h.symm.union h1
    exact ⟨y, h3, by rw [h4]; exact h2⟩
  · intro st hst k hk m hm
    obtain ⟨st', h1, h2⟩ := mem_of_map_eq h.hstacks hst
    rw [h.memb] at hm
    exact hp.hst st' h1 k (by rw [h2]; exact hk) m hm
  · intro st hst
    obtain ⟨st', h1, h2⟩ := mem_of_map_eq h.unionStacks hst
    rw [← h2]
    exact hp.ust st' h1

/-- The invariant, with the flag of header `e` possibly wrong. -/
structure InvX (e : Option Nat) (p : Phv) : Prop where
  layout : Layout p
  flag : ∀ (u : Nat) (x : HUnion) (i h : Nat) (b : Bool), p.unions[u]? = some x → x.members[i]? = some h → some h ≠ e → hv p h = some b →
    b = (x.valid && decide (x.idx = i))
  idx : ∀ (u : Nat) (x : HUnion), p.unions[u]? = some x → x.valid = true → x.idx < x.members.length
  nometa : ∀ (u : Nat) (x : HUnion) (i h : Nat), p.unions[u]? = some x → x.members[i]? = some h → hm p h ≠ some true

/-- The invariant: the flags of the headers of a union agree with the state of the union. -/
abbrev Inv (p : Phv) : Prop := InvX none p

theorem updHeader_spec {p p' : Phv} {h : Nat} {f : Header → Option Header}
    (e : p.updHeader h f = some p') :
    ∃ x y, p.headers[h]? = some x ∧ f x = some y ∧ p' = { p with headers := p.headers.set h y } ∧
      p'.headers[h]? = some y ∧ (∀ k, k ≠ h → p'.headers[k]? = p.headers[k]?) := by
  unfold updHeader at e
  simp only [Option.bind_eq_bind, Option.bind_eq_some_iff] at e
  obtain ⟨x, hx, y, hy, e⟩ := e
  cases e
  have hlt : h < p.headers.length := (List.getElem?_eq_some_iff.1 hx).1
  refine ⟨x, y, hx, hy, rfl, ?_, ?_⟩
  · simp [hlt]
  · intro k hk
    simp only [List.getElem?_set, if_neg (Ne.symm hk)]

theorem setValidField_flags {x y : Header} {v : Int} (e : x.setValidField v = some y) :
    y.valid = x.valid ∧ y.metadata = x.metadata := by
  unfold Header.setValidField at e
  simp only [Option.bind_eq_bind, Option.bind_eq_some_iff] at e
  obtain ⟨f, _, g, _, e⟩ := e
  cases e
  exact ⟨rfl, rfl⟩

theorem markValid_flags {x y : Header} (e : x.markValid = some y) :
    y.valid = true ∧ y.metadata = x.metadata := setValidField_flags e

theorem markInvalid_flags {x y : Header} (e : x.markInvalid = some y) :
    y.valid = false ∧ y.metadata = x.metadata := setValidField_flags e

theorem getElem?_set_self' {α : Type} {l : List α} {u : Nat} {x y : α} (hx : l[u]? = some x) :
    (l.set u y)[u]? = some y := by
  have hlt : u < l.length := (List.getElem?_eq_some_iff.1 hx).1
  simp [hlt]

/-- Changing one header other than its metadata flag. -/
theorem InvX.setHeader {e : Option Nat} {p : Phv} {h : Nat} (hi : InvX e p) (he : e = none ∨ e = some h)
    {x y : Header}
    (hx : p.headers[h]? = some x) (hy : y.metadata = x.metadata) :
    InvX (some h) { p with headers := p.headers.set h y } := by
  have hlt : h < p.headers.length := (List.getElem?_eq_some_iff.1 hx).1
  refine ⟨⟨hi.layout.toMemb, hi.layout.ofMemb, hi.layout.hst, hi.layout.ust⟩, ?_, hi.idx, ?_⟩
  · intro u z i k b h1 h2 h3 h4
    have hk : k ≠ h := fun c => h3 (by rw [c])
    refine hi.flag u z i k b h1 h2 ?_ ?_
    · rcases he with rfl | rfl
      · simp
      · exact h3
    · simpa [hv, List.getElem?_set, Ne.symm hk] using h4
  · intro u z i k h1 h2
    have := hi.nometa u z i k h1 h2
    by_cases hk : k = h
    · subst hk
      rw [hm, hx] at this
      rw [hm]
      simp only [getElem?_set_self' hx, Option.map_some, hy]
      exact this
    · simpa [hm, List.getElem?_set, Ne.symm hk] using this

/-- ... and its validity flag. -/
theorem Inv.setHeader {p : Phv} {h : Nat} (hi : Inv p) {x y : Header} (hx : p.headers[h]? = some x)
    (hy : y.metadata = x.metadata) (hv' : y.valid = x.valid) :
    Inv { p with headers := p.headers.set h y } := by
  have hlt : h < p.headers.length := (List.getElem?_eq_some_iff.1 hx).1
  have := InvX.setHeader hi (Or.inl rfl) hx hy
  refine ⟨this.layout, ?_, this.idx, this.nometa⟩
  intro u z i k b h1 h2 h3 h4
  refine hi.flag u z i k b h1 h2 h3 ?_
  by_cases hk : k = h
  · subst hk
    rw [hv] at h4
    simp only [getElem?_set_self' hx, Option.map_some, hv'] at h4
    rw [hv, hx]
    exact h4
  · simpa [hv, List.getElem?_set, Ne.symm hk] using h4

/-- Members of unions are told apart by their membership. -/
theorem Layout.inj {p : Phv} (hp : Layout p) {u v i j h : Nat} {x y : HUnion}
    (hx : p.unions[u]? = some x) (hxi : x.members[i]? = some h)
    (hy : p.unions[v]? = some y) (hyj : y.members[j]? = some h) : u = v ∧ i = j := by
  have a := hp.toMemb u x i h hx hxi
  have b := hp.toMemb v y j h hy hyj
  rw [a] at b
  simp only [Option.some.injEq, Prod.mk.injEq] at b
  exact b

theorem set_union_same {p : Phv} {u : Nat} {x y : HUnion} (hx : p.unions[u]? = some x)
    (hm : y.members = x.members) : SameLayout p { p with unions := p.unions.set u y } := by
  refine ⟨rfl, ?_, rfl, rfl⟩
  apply List.ext_getElem?
  intro k
  simp only [List.getElem?_map, List.getElem?_set]
  by_cases hk : u = k
  · subst hk
    simp only [if_true]
    have hlt : u < p.unions.length := (List.getElem?_eq_some_iff.1 hx).1
    rw [if_pos hlt, hx]
    simp [hm]
  · rw [if_neg hk]

/-- `mark_invalid` repairs the flag. -/
theorem markInvalid_inv {e : Option Nat} {p p' : Phv} {h : Nat} (hi : InvX e p)
    (he : e = none ∨ e = some h)
    (r : p.markInvalid h = some p') : Inv p' ∧ SameLayout p p' ∧ hv p' h = some false := by
  unfold markInvalid at r
  simp only [Option.bind_eq_bind, Option.bind_eq_some_iff] at r
  obtain ⟨p1, r1, m, hm', r⟩ := r
  obtain ⟨x, y, hx, hy, rfl, g1, g2⟩ := updHeader_spec r1
  obtain ⟨f1, f2⟩ := markInvalid_flags hy
  have hi1 := hi.setHeader he hx f2
  cases m with
  | none =>
    cases r
    refine ⟨⟨hi1.layout, ?_, hi1.idx, hi1.nometa⟩, ⟨rfl, rfl, rfl, rfl⟩, ?_⟩
    · intro u z i k b h1 h2 _ h4
      refine hi1.flag u z i k b h1 h2 ?_ h4
      intro hk
      have hm2 := hi1.layout.toMemb u z i k h1 h2
      cases hk
      rw [hm2] at hm'
      cases hm'
    · rw [hv, g1]; simp [f1]
  | some ui =>
    obtain ⟨u, i⟩ := ui
    simp only at r
    unfold makeHeaderInvalid at r
    simp only [Option.bind_eq_bind, Option.bind_eq_some_iff] at r
    obtain ⟨un, hun, r⟩ := r
    cases r
    have hmem : (if un.valid = true ∧ un.idx = i then { un with valid := false } else un).members
        = un.members := by
      split <;> rfl
    have hsame := set_union_same (p := { p with headers := p.headers.set h y }) hun hmem
    refine ⟨⟨hi1.layout.of_same hsame, ?_, ?_, ?_⟩, ⟨hsame.memb, hsame.unions, hsame.hstacks,
      hsame.unionStacks⟩, ?_⟩
    · obtain ⟨un', hun', hmi⟩ := hi1.layout.ofMemb h u i hm'
      rw [hun] at hun'
      cases hun'
      intro v z j k b h1 h2 _ h4
      simp only at h1
      by_cases hvu : v = u
      · subst hvu
        rw [getElem?_set_self' hun] at h1
        cases h1
        rw [hmem] at h2
        by_cases hkh : k = h
        · subst hkh
          have hij := (hi1.layout.inj hun h2 hun hmi).2
          subst hij
          have hb : b = false := by
            have h4' : hv { p with headers := p.headers.set k y } k = some b := h4
            rw [hv, g1] at h4'
            simpa [f1, eq_comm] using h4'
          subst hb
          split
          · rfl
          · rename_i hn
            have : ¬ (un.valid = true ∧ un.idx = j) := hn
            cases hvv : un.valid
            · simp
            · have : un.idx ≠ j := fun c => hn ⟨hvv, c⟩
              simp [this]
        · have hold := hi1.flag v un j k b hun h2 (by intro c; cases c; exact hkh rfl) h4
          have hij : j ≠ i := by
            intro c
            subst c
            rw [h2] at hmi
            cases hmi
            exact hkh rfl
          rw [hold]
          split
          · rename_i hc
            rw [hc.1, hc.2]
            simp [Ne.symm hij]
          · rfl
      · rw [List.getElem?_set_ne (fun c => hvu c.symm)] at h1
        have hkh : k ≠ h := by
          intro c
          subst c
          exact hvu (hi1.layout.inj h1 h2 hun hmi).1
        exact hi1.flag v z j k b h1 h2 (by intro c; cases c; exact hkh rfl) h4
    · intro v z h1 h2
      simp only at h1
      by_cases hvu : v = u
      · subst hvu
        rw [getElem?_set_self' hun] at h1
        cases h1
        rw [hmem]
        split at h2
        · cases h2
        · rename_i hn
          rw [if_neg hn]
          exact hi1.idx v un hun h2
      · rw [List.getElem?_set_ne (fun c => hvu c.symm)] at h1
        exact hi1.idx v z h1 h2
    · intro v z j k h1 h2
      obtain ⟨z', hz1, hz2⟩ := hsame.union h1
      exact hi1.nometa v z' j k hz1 (by rw [hz2]; exact h2)
    · rw [hv]
      show Option.map _ (p.headers.set h y)[h]? = _
      have : (p.headers.set h y)[h]? = some y := g1
      rw [this]; simp [f1]

/-- What `mark_invalid` changes. -/
theorem markInvalid_frame {p p' : Phv} {h : Nat} (r : p.markInvalid h = some p') :
    (∀ k, k ≠ h → p'.headers[k]? = p.headers[k]?) ∧
    (∀ (v : Nat) (x : HUnion), p.unions[v]? = some x → ∃ x' : HUnion, p'.unions[v]? = some x' ∧ x'.members = x.members ∧
      (p.memb[h]? ≠ some (some (v, x.idx)) → x' = x)) := by
  unfold markInvalid at r
  simp only [Option.bind_eq_bind, Option.bind_eq_some_iff] at r
  obtain ⟨p1, r1, m, hm', r⟩ := r
  obtain ⟨x, y, hx, hy, rfl, g1, g2⟩ := updHeader_spec r1
  cases m with
  | none =>
    cases r
    exact ⟨g2, fun v z hz => ⟨z, hz, rfl, fun _ => rfl⟩⟩
  | some ui =>
    obtain ⟨u, i⟩ := ui
    simp only at r
    unfold makeHeaderInvalid at r
    simp only [Option.bind_eq_bind, Option.bind_eq_some_iff] at r
    obtain ⟨un, hun, r⟩ := r
    cases r
    refine ⟨g2, ?_⟩
    intro v z hz
    by_cases hvu : v = u
    · subst hvu
      have hun' : p.unions[v]? = some un := hun
      rw [hz] at hun'
      cases hun'
      refine ⟨_, getElem?_set_self' hun, by split <;> rfl, ?_⟩
      intro hne
      split
      · rename_i hc
        exfalso
        apply hne
        rw [hc.2]
        exact hm'
      · rfl
    · exact ⟨z, by simp only; rw [List.getElem?_set_ne (fun c => hvu c.symm)]; exact hz, rfl,
        fun _ => rfl⟩

/-- `mark_valid` repairs the flag. -/
theorem markValid_inv {e : Option Nat} {p p' : Phv} {h : Nat} (hi : InvX e p)
    (he : e = none ∨ e = some h)
    (r : p.markValid h = some p') : Inv p' ∧ SameLayout p p' ∧ hv p' h = some true := by
  unfold markValid at r
  simp only [Option.bind_eq_bind, Option.bind_eq_some_iff] at r
  obtain ⟨p1, r1, m, hm', r⟩ := r
  obtain ⟨x, y, hx, hy, hp1, g1, g2⟩ := updHeader_spec r1
  obtain ⟨f1, f2⟩ := markValid_flags hy
  have hi1 : InvX (some h) p1 := by rw [hp1]; exact hi.setHeader he hx f2
  have hs1 : SameLayout p p1 := by rw [hp1]; exact ⟨rfl, rfl, rfl, rfl⟩
  cases m with
  | none =>
    cases r
    refine ⟨⟨hi1.layout, ?_, hi1.idx, hi1.nometa⟩, hs1, ?_⟩
    · intro u z i k b h1 h2 _ h4
      refine hi1.flag u z i k b h1 h2 ?_ h4
      intro hk
      have hm2 := hi1.layout.toMemb u z i k h1 h2
      cases hk
      rw [hm2] at hm'
      cases hm'
    · rw [hv, g1]; simp [f1]
  | some ui =>
    obtain ⟨u, i⟩ := ui
    simp only at r
    unfold makeHeaderValid at r
    simp only [Option.bind_eq_bind, Option.bind_eq_some_iff] at r
    obtain ⟨un, hun, p2, r2, un2, hun2, r⟩ := r
    cases r
    obtain ⟨un', hun', hmi⟩ := hi1.layout.ofMemb h u i hm'
    rw [hun] at hun'
    cases hun'
    -- the header that was valid before
    have key : SameLayout p1 p2 ∧ p2.headers[h]? = p1.headers[h]? ∧
        (∀ k, some k ≠ (if un.valid = true ∧ un.idx ≠ i then un.members[un.idx]? else none) →
          p2.headers[k]? = p1.headers[k]?) ∧
        (∀ k, hm p2 k = hm p1 k) ∧
        (∀ k, un.valid = true → un.idx ≠ i → un.members[un.idx]? = some k → hv p2 k = some false) ∧
        (∀ (v : Nat) (z : HUnion), v ≠ u → p2.unions[v]? = some z → p1.unions[v]? = some z) ∧
        un2.members = un.members := by
      unfold invalidateOther at r2
      split at r2
      · rename_i hc
        simp only [Option.bind_eq_bind, Option.bind_eq_some_iff] at r2
        obtain ⟨o, ho, r2⟩ := r2
        have hoh : o ≠ h := by
          intro c
          subst c
          exact hc.2 (hi1.layout.inj hun ho hun hmi).2
        have hmo := hi1.layout.toMemb u un un.idx o hun ho
        obtain ⟨a1, a2⟩ := markInvalid_frame r2
        have r2' := r2
        unfold markInvalid at r2'
        simp only [Option.bind_eq_bind, Option.bind_eq_some_iff] at r2'
        obtain ⟨q, q1, m, q2, q3⟩ := r2'
        obtain ⟨x', y', q4, q5, q6, q7, q8⟩ := updHeader_spec q1
        have hq : q.memb = p1.memb := by rw [q6]
        rw [hq, hmo] at q2
        cases q2
        simp only at q3
        unfold makeHeaderInvalid at q3
        simp only [Option.bind_eq_bind, Option.bind_eq_some_iff] at q3
        obtain ⟨w, w1, w2⟩ := q3
        cases w2
        have hw : w = un := by
          rw [q6] at w1
          have : p1.unions[u]? = some w := w1
          rw [hun] at this
          cases this; rfl
        subst hw
        have hsame := set_union_same (p := q) w1 (y := if w.valid = true ∧ w.idx = w.idx then
          { w with valid := false } else w) (by split <;> rfl)
        have hsq : SameLayout p1 q := by rw [q6]; exact ⟨rfl, rfl, rfl, rfl⟩
        refine ⟨hsq.trans hsame, a1 h hoh.symm, ?_, ?_, ?_, ?_, ?_⟩
        · intro k hk
          rw [if_pos hc, ho] at hk
          exact a1 k (fun c => hk (by rw [c]))
        · intro k
          by_cases hko : k = o
          · subst hko
            show Option.map _ q.headers[k]? = Option.map _ _
            rw [q7, q4]
            simp [(markInvalid_flags q5).2]
          · rw [hm, hm, a1 k hko]
        · intro k _ _ hk
          rw [ho] at hk
          cases hk
          show Option.map _ q.headers[o]? = _
          rw [q7]
          simp [(markInvalid_flags q5).1]
        · intro v z hvu hz
          simp only at hz
          rw [List.getElem?_set_ne (fun c => hvu c.symm)] at hz
          rw [q6] at hz
          exact hz
        · simp only at hun2
          rw [getElem?_set_self' w1] at hun2
          cases hun2
          split <;> rfl
      · rename_i hc
        cases r2
        refine ⟨SameLayout.refl _, rfl, fun _ _ => rfl, fun _ => rfl, ?_, fun _ _ _ h => h, ?_⟩
        · intro k h1 h2 _
          exact absurd ⟨h1, h2⟩ hc
        · rw [hun] at hun2
          cases hun2; rfl
    obtain ⟨c1, c2, c3, c4, c5, c6, c7⟩ := key
    have hsame := set_union_same (p := p2) (y := { un2 with idx := i, valid := true }) hun2 rfl
    have hsame' : SameLayout p1 _ := c1.trans hsame
    refine ⟨⟨hi1.layout.of_same hsame', ?_, ?_, ?_⟩, hs1.trans hsame', ?_⟩
    · intro v z j k b h1 h2 _ h4
      have h4' : hv p2 k = some b := h4
      simp only at h1
      by_cases hvu : v = u
      · subst hvu
        rw [getElem?_set_self' hun2] at h1
        cases h1
        simp only [c7] at h2
        by_cases hkh : k = h
        · subst hkh
          have hij := (hi1.layout.inj hun h2 hun hmi).2
          subst hij
          rw [hv, c2, g1] at h4'
          simp only [Option.map_some, f1, Option.some.injEq] at h4'
          simp [← h4']
        · have hij : i ≠ j := by
            intro c
            subst c
            rw [h2] at hmi
            cases hmi
            exact hkh rfl
          simp only [Bool.true_and]
          rw [decide_eq_false hij]
          by_cases ho : un.valid = true ∧ un.idx ≠ i ∧ un.members[un.idx]? = some k
          · have := c5 k ho.1 ho.2.1 ho.2.2
            rw [this] at h4'
            cases h4'; rfl
          · have : p2.headers[k]? = p1.headers[k]? := by
              apply c3
              intro hc
              split at hc
              · rename_i hc'
                exact ho ⟨hc'.1, hc'.2, hc.symm⟩
              · cases hc
            rw [hv, this] at h4'
            have hold := hi1.flag v un j k b hun h2 (by intro c; cases c; exact hkh rfl) h4'
            rw [hold]
            cases hvv : un.valid
            · rfl
            · by_cases hji : un.idx = j
              · exfalso
                exact ho ⟨hvv, fun c => hij (c.symm.trans hji), by rw [hji]; exact h2⟩
              · simp [hji]
      · rw [List.getElem?_set_ne (fun c => hvu c.symm)] at h1
        have h1' := c6 v z hvu h1
        have hkh : k ≠ h := by
          intro c
          subst c
          exact hvu (hi1.layout.inj h1' h2 hun hmi).1
        have : p2.headers[k]? = p1.headers[k]? := by
          apply c3
          intro hc
          split at hc
          · exact hvu (hi1.layout.inj h1' h2 hun hc.symm).1
          · cases hc
        rw [hv, this] at h4'
        exact hi1.flag v z j k b h1' h2 (by intro c; cases c; exact hkh rfl) h4'
    · intro v z h1 h2
      simp only at h1
      by_cases hvu : v = u
      · subst hvu
        rw [getElem?_set_self' hun2] at h1
        cases h1
        simp only [c7]
        exact (List.getElem?_eq_some_iff.1 hmi).1
      · rw [List.getElem?_set_ne (fun c => hvu c.symm)] at h1
        exact hi1.idx v z (c6 v z hvu h1) h2
    · intro v z j k h1 h2
      obtain ⟨z', hz1, hz2⟩ := hsame'.union h1
      show hm p2 k ≠ _
      rw [c4 k]
      exact hi1.nometa v z' j k hz1 (by rw [hz2]; exact h2)
    · show hv p2 h = _
      rw [hv, c2, g1]
      simp [f1]

/-! ## Swaps -/

theorem swapHeaders_spec {p p' : Phv} {a b : Nat} (r : p.swapHeaders a b = some p') :
    ∃ x y, p.headers[a]? = some x ∧ p.headers[b]? = some y ∧
      p' = { p with headers := (p.headers.set a (x.swapped y)).set b (y.swapped x) } := by
  unfold swapHeaders at r
  simp only [Option.bind_eq_bind, Option.bind_eq_some_iff] at r
  obtain ⟨x, hx, y, hy, r⟩ := r
  cases r
  exact ⟨x, y, hx, hy, rfl⟩

theorem swapAll_spec : ∀ (as bs : List Nat) (p p' : Phv), as.length = bs.length →
    (as ++ bs).Nodup → swapAll p as bs = some p' →
    p' = { p with headers := p'.headers } ∧
    (∀ (i a b : Nat), as[i]? = some a → bs[i]? = some b → ∃ x y, p.headers[a]? = some x ∧ p.headers[b]? = some y ∧
      p'.headers[a]? = some (x.swapped y) ∧ p'.headers[b]? = some (y.swapped x)) ∧
    (∀ c, c ∉ as → c ∉ bs → p'.headers[c]? = p.headers[c]?) := by
  intro as
  induction as with
  | nil =>
    intro bs p p' hl _ r
    cases bs with
    | nil => cases r; exact ⟨rfl, by simp, fun _ _ _ => rfl⟩
    | cons b bs => simp at hl
  | cons a as ih =>
    intro bs p p' hl hn r
    cases bs with
    | nil => simp at hl
    | cons b bs =>
      unfold swapAll at r
      simp only [Option.bind_eq_bind, Option.bind_eq_some_iff] at r
      obtain ⟨p1, r1, r2⟩ := r
      obtain ⟨x, y, hx, hy, rfl⟩ := swapHeaders_spec r1
      simp only [List.cons_append, List.nodup_cons, List.mem_append, List.mem_cons,
        List.nodup_append, not_or] at hn
      obtain ⟨⟨n1, n2, n3⟩, n4, ⟨n5, n6⟩, n7⟩ := hn
      have hd : (as ++ bs).Nodup := by
        rw [List.nodup_append]
        exact ⟨n4, n6, fun c hc d hd => n7 c hc d (Or.inr hd)⟩
      obtain ⟨s1, s2, s3⟩ := ih bs _ p' (by simpa using hl) hd r2
      have hbas : b ∉ as := fun c => n7 b c b (Or.inl rfl) rfl
      have ha' : ((p.headers.set a (x.swapped y)).set b (y.swapped x))[a]? = some (x.swapped y) := by
        rw [List.getElem?_set_ne (Ne.symm n2), getElem?_set_self' hx]
      have hb' : ((p.headers.set a (x.swapped y)).set b (y.swapped x))[b]? = some (y.swapped x) := by
        apply getElem?_set_self' (x := y)
        rw [List.getElem?_set_ne n2, hy]
      have ho : ∀ c, c ≠ a → c ≠ b →
          ((p.headers.set a (x.swapped y)).set b (y.swapped x))[c]? = p.headers[c]? := by
        intro c h1 h2
        rw [List.getElem?_set_ne (Ne.symm h2), List.getElem?_set_ne (Ne.symm h1)]
      refine ⟨?_, ?_, ?_⟩
      · rw [s1]
      · intro i c d hc hd'
        cases i with
        | zero =>
          simp only [List.getElem?_cons_zero, Option.some.injEq] at hc hd'
          subst hc hd'
          refine ⟨x, y, hx, hy, ?_, ?_⟩
          · rw [s3 a n1 n3]; exact ha'
          · rw [s3 b hbas n5]; exact hb'
        | succ i =>
          simp only [List.getElem?_cons_succ] at hc hd'
          obtain ⟨x', y', e1, e2, e3, e4⟩ := s2 i c d hc hd'
          have hcm := List.mem_of_getElem? hc
          have hdm := List.mem_of_getElem? hd'
          refine ⟨x', y', ?_, ?_, e3, e4⟩
          · rw [← e1]
            exact (ho c (fun h => n1 (h ▸ hcm)) (fun h => hbas (h ▸ hcm))).symm
          · rw [← e2]
            exact (ho d (fun h => n3 (h ▸ hdm)) (fun h => n5 (h ▸ hdm))).symm
      · intro c h1 h2
        simp only [List.mem_cons, not_or] at h1 h2
        rw [s3 c h1.2 h2.2]
        exact ho c h1.1 h2.1

theorem Layout.members_nodup {p : Phv} (hp : Layout p) {u v : Nat} {x y : HUnion}
    (hx : p.unions[u]? = some x) (hy : p.unions[v]? = some y) (huv : u ≠ v) :
    (x.members ++ y.members).Nodup := by
  have hone : ∀ {w : Nat} {z : HUnion}, p.unions[w]? = some z → z.members.Nodup := by
    intro w z hz
    rw [List.nodup_iff_getElem?_ne_getElem?]
    intro i j hij hj heq
    obtain ⟨h, hh⟩ : ∃ h, z.members[j]? = some h := ⟨_, List.getElem?_eq_getElem hj⟩
    have := (hp.inj hz (heq.trans hh) hz hh).2
    omega
  rw [List.nodup_append]
  refine ⟨hone hx, hone hy, ?_⟩
  intro a ha b hb hab
  subst hab
  obtain ⟨i, hi⟩ := List.mem_iff_getElem?.1 ha
  obtain ⟨j, hj⟩ := List.mem_iff_getElem?.1 hb
  exact huv (hp.inj hx hi hy hj).1

theorem swapUnions_inv {p p' : Phv} (hi : Inv p) {u v : Nat} (huv : u ≠ v)
    (r : p.swapUnions u v = some p') : Inv p' ∧ SameLayout p p' := by
  unfold swapUnions at r
  simp only [Option.bind_eq_bind, Option.bind_eq_some_iff] at r
  obtain ⟨x, hx, y, hy, r⟩ := r
  split at r
  case isFalse => cases r
  rename_i hl
  have hn := hi.layout.members_nodup hx hy huv
  obtain ⟨s1, s2, s3⟩ := swapAll_spec _ _ _ _ hl hn r
  have hu1 : ((p.unions.set u { x with valid := y.valid, idx := y.idx }).set v
      { y with valid := x.valid, idx := x.idx })[u]? = some { x with valid := y.valid, idx := y.idx } := by
    rw [List.getElem?_set_ne (Ne.symm huv), getElem?_set_self' hx]
  have hv1 : ((p.unions.set u { x with valid := y.valid, idx := y.idx }).set v
      { y with valid := x.valid, idx := x.idx })[v]? = some { y with valid := x.valid, idx := x.idx } := by
    apply getElem?_set_self' (x := y)
    rw [List.getElem?_set_ne huv, hy]
  have ho : ∀ w, w ≠ u → w ≠ v → ((p.unions.set u { x with valid := y.valid, idx := y.idx }).set v
      { y with valid := x.valid, idx := x.idx })[w]? = p.unions[w]? := by
    intro w h1 h2
    rw [List.getElem?_set_ne (Ne.symm h2), List.getElem?_set_ne (Ne.symm h1)]
  have hun : p'.unions = (p.unions.set u { x with valid := y.valid, idx := y.idx }).set v
      { y with valid := x.valid, idx := x.idx } := by rw [s1]
  have hsame : SameLayout p p' := by
    refine ⟨by rw [s1], ?_, by rw [s1], by rw [s1]⟩
    apply List.ext_getElem?
    intro w
    rw [List.getElem?_map, List.getElem?_map, hun]
    by_cases h1 : w = u
    · subst h1; rw [hu1, hx]; rfl
    · by_cases h2 : w = v
      · subst h2; rw [hv1, hy]; rfl
      · rw [ho w h1 h2]
  have hmeta : ∀ k, hm p' k = hm p k := by
    intro k
    by_cases h1 : k ∈ x.members
    · obtain ⟨i, hi1⟩ := List.mem_iff_getElem?.1 h1
      have hlt : i < y.members.length := by
        rw [← hl]; exact (List.getElem?_eq_some_iff.1 hi1).1
      obtain ⟨a, b, e1, _, e3, _⟩ := s2 i k _ hi1 (List.getElem?_eq_getElem hlt)
      have e1' : p.headers[k]? = some a := e1
      rw [hm, hm, e3, e1']
      rfl
    · by_cases h2 : k ∈ y.members
      · obtain ⟨i, hi1⟩ := List.mem_iff_getElem?.1 h2
        have hlt : i < x.members.length := by
          rw [hl]; exact (List.getElem?_eq_some_iff.1 hi1).1
        obtain ⟨a, b, _, e2, _, e4⟩ := s2 i _ k (List.getElem?_eq_getElem hlt) hi1
        have e2' : p.headers[k]? = some b := e2
        rw [hm, hm, e4, e2']
        rfl
      · rw [hm, hm, s3 k h1 h2]
  refine ⟨⟨hi.layout.of_same hsame, ?_, ?_, ?_⟩, hsame⟩
  · intro w z i k b h1 h2 _ h4
    rw [hun] at h1
    by_cases hwu : w = u
    · subst hwu
      rw [hu1] at h1
      cases h1
      simp only at h2 ⊢
      have hlt : i < y.members.length := by
        rw [← hl]; exact (List.getElem?_eq_some_iff.1 h2).1
      obtain ⟨a, c, e1, e2, e3, _⟩ := s2 i k _ h2 (List.getElem?_eq_getElem hlt)
      rw [hv, e3] at h4
      simp only [Option.map_some, Header.swapped, Option.some.injEq] at h4
      rw [← h4]
      refine hi.flag v y i _ _ hy (List.getElem?_eq_getElem hlt) (by simp) ?_
      rw [hv]
      have e2' : p.headers[y.members[i]]? = some c := e2
      rw [e2']; rfl
    · by_cases hwv : w = v
      · subst hwv
        rw [hv1] at h1
        cases h1
        simp only at h2 ⊢
        have hlt : i < x.members.length := by
          rw [hl]; exact (List.getElem?_eq_some_iff.1 h2).1
        obtain ⟨a, c, e1, e2, _, e4⟩ := s2 i _ k (List.getElem?_eq_getElem hlt) h2
        rw [hv, e4] at h4
        simp only [Option.map_some, Header.swapped, Option.some.injEq] at h4
        rw [← h4]
        refine hi.flag u x i _ _ hx (List.getElem?_eq_getElem hlt) (by simp) ?_
        rw [hv]
        have e1' : p.headers[x.members[i]]? = some a := e1
        rw [e1']; rfl
      · rw [ho w hwu hwv] at h1
        have hk1 : k ∉ x.members := by
          intro c
          obtain ⟨j, hj⟩ := List.mem_iff_getElem?.1 c
          exact hwu (hi.layout.inj h1 h2 hx hj).1
        have hk2 : k ∉ y.members := by
          intro c
          obtain ⟨j, hj⟩ := List.mem_iff_getElem?.1 c
          exact hwv (hi.layout.inj h1 h2 hy hj).1
        rw [hv, s3 k hk1 hk2] at h4
        exact hi.flag w z i k b h1 h2 (by simp) h4
  · intro w z h1 h2
    rw [hun] at h1
    by_cases hwu : w = u
    · subst hwu
      rw [hu1] at h1
      cases h1
      simp only at h2 ⊢
      rw [hl]
      exact hi.idx v y hy h2
    · by_cases hwv : w = v
      · subst hwv
        rw [hv1] at h1
        cases h1
        simp only at h2 ⊢
        rw [← hl]
        exact hi.idx u x hx h2
      · rw [ho w hwu hwv] at h1
        exact hi.idx w z h1 h2
  · intro w z i k h1 h2
    obtain ⟨z', hz1, hz2⟩ := hsame.union h1
    rw [hmeta]
    exact hi.nometa w z' i k hz1 (by rw [hz2]; exact h2)

/-- Swapping headers that belong to no union. -/
theorem swapHeaders_inv {p p' : Phv} (hi : Inv p) {a b : Nat} (ha : ∀ m, p.memb[a]? = some m → m = none)
    (hb : ∀ m, p.memb[b]? = some m → m = none)
    (r : p.swapHeaders a b = some p') : Inv p' ∧ SameLayout p p' := by
  obtain ⟨x, y, hx, hy, rfl⟩ := swapHeaders_spec r
  have hne : ∀ (u : Nat) (z : HUnion) (i k : Nat), p.unions[u]? = some z → z.members[i]? = some k →
      k ≠ a ∧ k ≠ b := by
    intro u z i k h1 h2
    have := hi.layout.toMemb u z i k h1 h2
    exact ⟨fun c => by subst c; exact absurd (ha _ this) (by simp),
      fun c => by subst c; exact absurd (hb _ this) (by simp)⟩
  have ho : ∀ k, k ≠ a → k ≠ b →
      ((p.headers.set a (x.swapped y)).set b (y.swapped x))[k]? = p.headers[k]? := by
    intro k h1 h2
    rw [List.getElem?_set_ne (Ne.symm h2), List.getElem?_set_ne (Ne.symm h1)]
  refine ⟨⟨⟨hi.layout.toMemb, hi.layout.ofMemb, hi.layout.hst, hi.layout.ust⟩, ?_, hi.idx, ?_⟩,
    ⟨rfl, rfl, rfl, rfl⟩⟩
  · intro u z i k c h1 h2 h3 h4
    obtain ⟨n1, n2⟩ := hne u z i k h1 h2
    refine hi.flag u z i k c h1 h2 h3 ?_
    rw [hv] at h4 ⊢
    simp only [ho k n1 n2] at h4
    exact h4
  · intro u z i k h1 h2
    obtain ⟨n1, n2⟩ := hne u z i k h1 h2
    have := hi.nometa u z i k h1 h2
    rw [hm] at this ⊢
    simp only [ho k n1 n2]
    exact this

/-! ## Stacks: any property kept by swaps and marks is kept by the operations -/

section
variable {σ : Type} {ops : ElemOps σ} {J : σ → Prop} {st : Stack}

/-- The operations on the elements of a stack keep `J`. -/
structure Keeps (ops : ElemOps σ) (J : σ → Prop) (el : List Nat) : Prop where
  swap : ∀ (s s' : σ) (i j a b : Nat), J s → i ≠ j → el[i]? = some a → el[j]? = some b →
    ops.swap s a b = some s' → J s'
  mv : ∀ s s' a, J s → a ∈ el → ops.markValid s a = some s' → J s'
  mi : ∀ s s' a, J s → a ∈ el → ops.markInvalid s a = some s' → J s'

theorem swapAt_keeps (K : Keeps ops J st.elements) {s s' : σ} {i j : Nat} (hij : i ≠ j) (hs : J s)
    (r : st.swapAt ops s i j = some s') : J s' := by
  unfold Stack.swapAt at r
  simp only [Option.bind_eq_bind, Option.bind_eq_some_iff] at r
  obtain ⟨a, ha, b, hb, r⟩ := r
  exact K.swap s s' i j a b hs hij ha hb r

theorem swapUp_keeps (K : Keeps ops J st.elements) {num : Nat} (hn : 0 < num) (n : Nat) :
    ∀ (i : Nat) (s s' : σ), J s → st.swapUp ops num i n s = some s' → J s' := by
  induction n with
  | zero => intro i s s' hs r; cases r; exact hs
  | succ n ih =>
    intro i s s' hs r
    simp only [Stack.swapUp, Option.bind_eq_bind, Option.bind_eq_some_iff] at r
    obtain ⟨s1, r1, r2⟩ := r
    exact ih _ _ _ (swapAt_keeps K (by omega) hs r1) r2

theorem swapDown_keeps (K : Keeps ops J st.elements) {num : Nat} (hn : 0 < num) (n : Nat) :
    ∀ (s s' : σ), J s → st.swapDown ops num n s = some s' → J s' := by
  induction n with
  | zero => intro s s' hs r; cases r; exact hs
  | succ n ih =>
    intro s s' hs r
    simp only [Stack.swapDown, Option.bind_eq_bind, Option.bind_eq_some_iff] at r
    obtain ⟨s1, r1, r2⟩ := r
    exact ih _ _ (swapAt_keeps K (by omega) hs r1) r2

theorem markAll_keeps {mark : σ → Nat → Option σ}
    (K : ∀ s s' a, J s → a ∈ st.elements → mark s a = some s' → J s') (n : Nat) :
    ∀ (i : Nat) (s s' : σ), J s → st.markAll mark i n s = some s' → J s' := by
  induction n with
  | zero => intro i s s' hs r; cases r; exact hs
  | succ n ih =>
    intro i s s' hs r
    simp only [Stack.markAll, Option.bind_eq_bind, Option.bind_eq_some_iff] at r
    obtain ⟨a, ha, s1, r1, r2⟩ := r
    exact ih _ _ _ (K _ _ _ hs (List.mem_of_getElem? ha) r1) r2

end

theorem stackOp_keeps {ops : ElemOps Phv} {J : Phv → Prop} {st st' : Stack} {b : Bool} {o : SOp}
    {p p' : Phv} {n : Nat} (K : Keeps ops J st.elements) (hp : J p)
    (r : stackOp b ops st p o = some (n, st', p')) : J p' ∧ st'.elements = st.elements := by
  cases o with
  | popFront1 =>
    cases b
    · simp only [stackOp, Stack.popFrontLegacy1, Bool.false_eq_true, if_false] at r
      split at r
      · cases r; exact ⟨hp, rfl⟩
      · simp only [Option.bind_eq_bind, Option.bind_eq_some_iff] at r
        obtain ⟨s1, r1, a, ha, s2, r2, r3⟩ := r
        cases r3
        exact ⟨K.mi _ _ _ (swapUp_keeps (st := { st with next := st.next - 1 }) K (by decide) _ _ _ _ hp r1)
          (List.mem_of_getElem? ha) r2, rfl⟩
    · simp only [stackOp, Stack.popFrontP416_1, if_true, Option.bind_eq_bind,
        Option.bind_eq_some_iff] at r
      have hst : (if st.next > 0 then { st with next := st.next - 1 } else st).elements
          = st.elements := by split <;> rfl
      obtain ⟨s1, r1, a, ha, s2, r2, r3⟩ := r
      cases r3
      rw [hst] at ha
      refine ⟨K.mi _ _ _ ?_ (List.mem_of_getElem? ha) r2, hst⟩
      exact swapUp_keeps (st := if st.next > 0 then { st with next := st.next - 1 } else st)
        (by rw [hst]; exact K) (by decide) _ _ _ _ hp r1
  | popFront k =>
    cases b
    · simp only [stackOp, Stack.popFrontLegacy, Bool.false_eq_true, if_false] at r
      split at r
      · cases r; exact ⟨hp, rfl⟩
      · simp only [Option.bind_eq_bind, Option.bind_eq_some_iff] at r
        obtain ⟨s1, r1, s2, r2, r3⟩ := r
        cases r3
        exact ⟨markAll_keeps (st := { st with next := st.next - min st.next k }) K.mi _ _ _ _
          (swapUp_keeps (st := { st with next := st.next - min st.next k }) K (by omega) _ _ _ _ hp r1)
          r2, rfl⟩
    · simp only [stackOp, Stack.popFrontP416, if_true] at r
      split at r
      · cases r; exact ⟨hp, rfl⟩
      · simp only [Option.bind_eq_bind, Option.bind_eq_some_iff] at r
        obtain ⟨s1, r1, s2, r2, r3⟩ := r
        cases r3
        exact ⟨markAll_keeps (st := { st with next := st.next - min st.next k }) K.mi _ _ _ _
          (swapUp_keeps (st := { st with next := st.next - min st.next k }) K (by omega) _ _ _ _ hp r1)
          r2, rfl⟩
  | pushFront1 =>
    have hst : (if st.next < st.elements.length then { st with next := st.next + 1 } else st).elements
        = st.elements := by split <;> rfl
    cases b
    · simp only [stackOp, Stack.pushFrontLegacy1, Bool.false_eq_true, if_false, Option.bind_eq_bind,
        Option.bind_eq_some_iff] at r
      obtain ⟨s1, r1, a, ha, s2, r2, r3⟩ := r
      cases r3
      rw [hst] at ha
      refine ⟨K.mv _ _ _ ?_ (List.mem_of_getElem? ha) r2, hst⟩
      exact swapDown_keeps
        (st := if st.next < st.elements.length then { st with next := st.next + 1 } else st)
        (by rw [hst]; exact K) (by decide) _ _ _ hp r1
    · simp only [stackOp, Stack.pushFrontP416_1, if_true, Option.bind_eq_bind,
        Option.bind_eq_some_iff] at r
      obtain ⟨s1, r1, a, ha, s2, r2, r3⟩ := r
      cases r3
      rw [hst] at ha
      refine ⟨K.mi _ _ _ ?_ (List.mem_of_getElem? ha) r2, hst⟩
      exact swapDown_keeps
        (st := if st.next < st.elements.length then { st with next := st.next + 1 } else st)
        (by rw [hst]; exact K) (by decide) _ _ _ hp r1
  | pushFront k =>
    cases b
    · simp only [stackOp, Stack.pushFrontLegacy, Bool.false_eq_true, if_false] at r
      split at r
      · cases r; exact ⟨hp, rfl⟩
      · simp only [Option.bind_eq_bind, Option.bind_eq_some_iff] at r
        obtain ⟨s1, r1, s2, r2, r3⟩ := r
        cases r3
        refine ⟨markAll_keeps (st := { st with next := min st.elements.length ((st.next + k) % 2 ^ 64) })
          K.mv _ _ _ _ (swapDown_keeps
          (st := { st with next := min st.elements.length ((st.next + k) % 2 ^ 64) }) K (by omega)
          _ _ _ hp r1) r2, rfl⟩
    · simp only [stackOp, Stack.pushFrontP416, if_true] at r
      split at r
      · cases r; exact ⟨hp, rfl⟩
      · simp only [Option.bind_eq_bind, Option.bind_eq_some_iff] at r
        obtain ⟨s1, r1, s2, r2, r3⟩ := r
        cases r3
        refine ⟨markAll_keeps (st := { st with next := min st.elements.length ((st.next + k) % 2 ^ 64) })
          K.mi _ _ _ _ (swapDown_keeps
          (st := { st with next := min st.elements.length ((st.next + k) % 2 ^ 64) }) K (by omega)
          _ _ _ hp r1) r2, rfl⟩
  | popBack =>
    simp only [stackOp, Stack.popBack] at r
    split at r
    · cases r; exact ⟨hp, rfl⟩
    · simp only [Option.bind_eq_bind, Option.bind_eq_some_iff] at r
      obtain ⟨a, ha, s2, r2, r3⟩ := r
      cases r3
      exact ⟨K.mi _ _ _ hp (List.mem_of_getElem? ha) r2, rfl⟩
  | pushBack =>
    simp only [stackOp, Stack.pushBack] at r
    split at r
    · cases r; exact ⟨hp, rfl⟩
    · simp only [Option.bind_eq_bind, Option.bind_eq_some_iff] at r
      obtain ⟨a, ha, s2, r2, r3⟩ := r
      cases r3
      exact ⟨K.mv _ _ _ hp (List.mem_of_getElem? ha) r2, rfl⟩

/-! ## Assignments, resets, copies -/

/-- Invariant and layout kept. -/
def Good (p q : Phv) : Prop := Inv q ∧ SameLayout p q

theorem Good.trans {p q r : Phv} (h : Good p q) (k : Inv q → Good q r) : Good p r :=
  ⟨(k h.1).1, h.2.trans (k h.1).2⟩

theorem updHeader_good {p p' : Phv} {h : Nat} {f : Header → Option Header} (hi : Inv p)
    (hf : ∀ x y, f x = some y → y.valid = x.valid ∧ y.metadata = x.metadata)
    (r : p.updHeader h f = some p') : Good p p' := by
  obtain ⟨x, y, hx, hy, rfl, _, _⟩ := updHeader_spec r
  obtain ⟨h1, h2⟩ := hf x y hy
  exact ⟨hi.setHeader hx h2 h1, ⟨rfl, rfl, rfl, rfl⟩⟩

theorem assignFields_flags {rz : Bool} {d s y : Header} (e : assignFields rz d s = some y) :
    y.valid = d.valid ∧ y.metadata = d.metadata := by
  unfold assignFields at e
  simp only [Option.bind_eq_bind, Option.bind_eq_some_iff] at e
  obtain ⟨fs, _, e⟩ := e
  split at e
  · split at e
    · cases e; exact ⟨rfl, rfl⟩
    · cases e
  · cases e; exact ⟨rfl, rfl⟩

theorem assignHeader_good {rz : Bool} {p p' : Phv} {d s : Nat} (hi : Inv p)
    (r : assignHeader rz p d s = some p') : Good p p' := by
  unfold assignHeader at r
  simp only [Option.bind_eq_bind, Option.bind_eq_some_iff] at r
  obtain ⟨x, hx, r⟩ := r
  split at r
  · obtain ⟨h1, h2, _⟩ := markInvalid_inv hi (Or.inl rfl) r
    exact ⟨h1, h2⟩
  · simp only [Option.bind_eq_some_iff] at r
    obtain ⟨p1, r1, src, _, dst, _, r⟩ := r
    obtain ⟨h1, h2, _⟩ := markValid_inv hi (Or.inl rfl) r1
    split at r
    · exact Good.trans ⟨h1, h2⟩ fun hi => updHeader_good hi (fun _ _ e => assignFields_flags e) r
    · cases r

theorem assignHeaders_good {rz : Bool} : ∀ (ds ss : List Nat) {p p' : Phv}, Inv p →
    assignHeaders rz p ds ss = some p' → Good p p'
  | [], _, p, p', hi, r => by
    simp only [assignHeaders] at r; cases r; exact ⟨hi, SameLayout.refl _⟩
  | _ :: _, [], p, p', hi, r => by
    simp only [assignHeaders] at r; cases r; exact ⟨hi, SameLayout.refl _⟩
  | d :: ds, s :: ss, p, p', hi, r => by
    simp only [assignHeaders, Option.bind_eq_bind, Option.bind_eq_some_iff] at r
    obtain ⟨p1, r1, r2⟩ := r
    exact (assignHeader_good hi r1).trans fun hi => assignHeaders_good ds ss hi r2

theorem assignUnion_good {rz : Bool} {p p' : Phv} {d s : Nat} (hi : Inv p)
    (r : assignUnion rz p d s = some p') : Good p p' := by
  unfold assignUnion at r
  simp only [Option.bind_eq_bind, Option.bind_eq_some_iff] at r
  obtain ⟨x, _, y, _, r⟩ := r
  split at r
  · exact assignHeaders_good _ _ hi r
  · cases r

theorem assignUnions_good {rz : Bool} : ∀ (ds ss : List Nat) {p p' : Phv}, Inv p →
    assignUnions rz p ds ss = some p' → Good p p'
  | [], _, p, p', hi, r => by
    simp only [assignUnions] at r; cases r; exact ⟨hi, SameLayout.refl _⟩
  | _ :: _, [], p, p', hi, r => by
    simp only [assignUnions] at r; cases r; exact ⟨hi, SameLayout.refl _⟩
  | d :: ds, s :: ss, p, p', hi, r => by
    simp only [assignUnions, Option.bind_eq_bind, Option.bind_eq_some_iff] at r
    obtain ⟨p1, r1, r2⟩ := r
    exact (assignUnion_good hi r1).trans fun hi => assignUnions_good ds ss hi r2

theorem map_set_same {α β : Type} {f : α → β} {l : List α} {k : Nat} {x y : α} (hx : l[k]? = some x)
    (h : f y = f x) : (l.set k y).map f = l.map f := by
  apply List.ext_getElem?
  intro i
  rw [List.getElem?_map, List.getElem?_map]
  by_cases hi : k = i
  · subst hi
    rw [getElem?_set_self' hx, hx]
    simp [h]
  · rw [List.getElem?_set_ne hi]

/-- Changing the counters of stacks only. -/
theorem Inv.stacks {p : Phv} (hi : Inv p) {hs us : List Stack}
    (h1 : hs.map (·.elements) = p.hstacks.map (·.elements))
    (h2 : us.map (·.elements) = p.unionStacks.map (·.elements)) :
    Good p { p with hstacks := hs, unionStacks := us } := by
  have hsame : SameLayout p { p with hstacks := hs, unionStacks := us } := ⟨rfl, rfl, h1, h2⟩
  exact ⟨⟨hi.layout.of_same hsame, hi.flag, hi.idx, hi.nometa⟩, hsame⟩

theorem resetOne_good {p p' : Phv} {h : Nat} (hi : Inv p) (r : resetOne p h = some p') :
    Good p p' := by
  unfold resetOne at r
  simp only [Option.bind_eq_bind, Option.bind_eq_some_iff] at r
  obtain ⟨p1, r1, x, _, r⟩ := r
  obtain ⟨h1, h2, _⟩ := markInvalid_inv hi (Or.inl rfl) r1
  split at r
  · cases r; exact ⟨h1, h2⟩
  · refine Good.trans ⟨h1, h2⟩ fun hi => updHeader_good hi ?_ r
    intro x y e
    unfold resetVLHeader at e
    simp only [Option.bind_eq_bind, Option.bind_eq_some_iff] at e
    obtain ⟨_, _, _, _, e⟩ := e
    cases e
    exact ⟨rfl, rfl⟩

theorem reset_good : ∀ (l : List Nat) {p p' : Phv}, Inv p → l.foldlM resetOne p = some p' → Good p p'
  | [], p, p', hi, r => by cases r; exact ⟨hi, SameLayout.refl _⟩
  | h :: l, p, p', hi, r => by
    simp only [List.foldlM_cons, Option.bind_eq_bind, Option.bind_eq_some_iff] at r
    obtain ⟨p1, r1, r2⟩ := r
    exact (resetOne_good hi r1).trans fun hi => reset_good l hi r2

theorem mapM_getElem? {α β : Type} {f : α → Option β} : ∀ {l : List α} {m : List β},
    l.mapM f = some m → ∀ i : Nat, m[i]? = (l[i]?).bind f
  | [], m, e, i => by simp at e; subst e; simp
  | x :: l, m, e, i => by
    simp only [List.mapM_cons, Option.bind_eq_bind, Option.bind_eq_some_iff] at e
    obtain ⟨y, hy, m', hm, e⟩ := e
    cases e
    cases i with
    | zero => simp [hy]
    | succ i => simpa using mapM_getElem? hm i

theorem mapM_length {α β : Type} {f : α → Option β} : ∀ {l : List α} {m : List β},
    l.mapM f = some m → m.length = l.length
  | [], m, e => by simp at e; subst e; rfl
  | x :: l, m, e => by
    simp only [List.mapM_cons, Option.bind_eq_bind, Option.bind_eq_some_iff] at e
    obtain ⟨y, hy, m', hm, e⟩ := e
    cases e
    simp [mapM_length hm]

/-- Changing headers without their flags. -/
theorem Inv.headers {p : Phv} (hi : Inv p) {hs : List Header}
    (h1 : ∀ i : Nat, hs[i]?.map (fun h => (h.valid, h.metadata))
      = p.headers[i]?.map (fun h => (h.valid, h.metadata))) :
    Good p { p with headers := hs } := by
  have hvs : ∀ k, hv { p with headers := hs } k = hv p k := by
    intro k
    have := congrArg (Option.map Prod.fst) (h1 k)
    simpa [hv, Option.map_map, Function.comp_def] using this
  have hms : ∀ k, hm { p with headers := hs } k = hm p k := by
    intro k
    have := congrArg (Option.map Prod.snd) (h1 k)
    simpa [hm, Option.map_map, Function.comp_def] using this
  have hsame : SameLayout p { p with headers := hs } := ⟨rfl, rfl, rfl, rfl⟩
  refine ⟨⟨hi.layout.of_same hsame, ?_, hi.idx, ?_⟩, hsame⟩
  · intro u x i h b h1 h2 h3 h4
    rw [hvs] at h4
    exact hi.flag u x i h b h1 h2 h3 h4
  · intro u x i h h1 h2
    rw [hms]
    exact hi.nometa u x i h h1 h2

theorem resetHeaders_good {rz all : Bool} {p p' : Phv} (hi : Inv p)
    (r : resetHeaders rz all p = some p') : Good p p' := by
  unfold resetHeaders at r
  simp only [Option.bind_eq_bind, Option.bind_eq_some_iff] at r
  obtain ⟨hs, e, r⟩ := r
  cases r
  apply hi.headers
  intro i
  rw [mapM_getElem? e i]
  cases hx : p.headers[i]? with
  | none => rfl
  | some x =>
    have hlt : i < hs.length := by
      rw [mapM_length e]
      exact (List.getElem?_eq_some_iff.1 hx).1
    have hy := mapM_getElem? e i
    rw [hx, List.getElem?_eq_getElem hlt] at hy
    simp only [Option.bind_some] at hy ⊢
    rw [← hy]
    split at hy
    · unfold Header.reset at hy
      have hy' := hy.symm
      simp only [Option.bind_eq_bind, Option.bind_eq_some_iff] at hy'
      obtain ⟨_, _, e⟩ := hy'
      injection e with e
      rw [← e]
      rfl
    · injection hy with hy
      rw [hy]

theorem copyHeaders_good {rz : Bool} {p q : Phv} (hp : Inv p) (hq : Inv q) (hs : SameLayout p q) :
    Good p (copyHeaders rz p q) := by
  have zmap : ∀ {α β : Type} (f : α → β) (g : α → α → α) (l m : List α),
      l.map f = m.map f → (∀ x y, f (g x y) = f x) → (List.zipWith g l m).map f = l.map f := by
    intro α β f g l
    induction l with
    | nil => intro m _ _; simp
    | cons x l ih =>
      intro m h hg
      cases m with
      | nil => simp at h
      | cons y m =>
        simp only [List.map_cons, List.cons.injEq] at h
        simp [hg, ih m h.2 hg]
  have hsame : SameLayout p (copyHeaders rz p q) := by
    refine ⟨rfl, ?_, ?_, ?_⟩
    · exact zmap _ _ _ _ hs.unions.symm fun _ _ => rfl
    · exact zmap _ _ _ _ hs.hstacks.symm fun _ _ => rfl
    · exact zmap _ _ _ _ hs.unionStacks.symm fun _ _ => rfl
  have hu : ∀ (u : Nat) (x : HUnion), (copyHeaders rz p q).unions[u]? = some x →
      ∃ y, q.unions[u]? = some y ∧ x.valid = y.valid ∧ x.idx = y.idx ∧ x.members = y.members := by
    intro u x hx
    obtain ⟨y, hy, hym⟩ := (hs.symm.trans hsame).union hx
    obtain ⟨z, hz, hzm⟩ := hsame.union hx
    refine ⟨y, hy, ?_, ?_, hym.symm⟩
    all_goals
      simp only [copyHeaders, List.getElem?_zipWith, hz, hy, Option.some.injEq] at hx
      rw [← hx]
  have hh : ∀ (k : Nat) (z : Header), (copyHeaders rz p q).headers[k]? = some z → ∃ y, q.headers[k]? = some y ∧
      z.valid = y.valid ∧ z.metadata = y.metadata := by
    intro k z hz
    simp only [copyHeaders, List.getElem?_zipWith] at hz
    cases h1 : p.headers[k]? with
    | none => rw [h1] at hz; simp at hz
    | some a =>
      cases h2 : q.headers[k]? with
      | none => rw [h1, h2] at hz; simp at hz
      | some b =>
        rw [h1, h2] at hz
        simp only [Option.some.injEq] at hz
        refine ⟨b, rfl, ?_⟩
        rw [← hz]
        unfold copyHeader
        simp only
        split
        · exact ⟨rfl, rfl⟩
        · exact ⟨rfl, rfl⟩
  refine ⟨⟨hp.layout.of_same hsame, ?_, ?_, ?_⟩, hsame⟩
  · intro u x i h b h1 h2 h3 h4
    obtain ⟨y, y1, y2, y3, y4⟩ := hu u x h1
    rw [y2, y3]
    refine hq.flag u y i h b y1 (by rw [← y4]; exact h2) h3 ?_
    rw [hv] at h4 ⊢
    cases hz : (copyHeaders rz p q).headers[h]? with
    | none => rw [hz] at h4; cases h4
    | some z =>
      obtain ⟨w, w1, w2, _⟩ := hh h z hz
      rw [hz] at h4
      rw [w1]
      simpa [w2] using h4
  · intro u x h1 h2
    obtain ⟨y, y1, y2, y3, y4⟩ := hu u x h1
    rw [y3, y4]
    exact hq.idx u y y1 (by rw [← y2]; exact h2)
  · intro u x i h h1 h2 h4
    obtain ⟨y, y1, y2, y3, y4⟩ := hu u x h1
    refine hq.nometa u y i h y1 (by rw [← y4]; exact h2) ?_
    rw [hm] at h4 ⊢
    cases hz : (copyHeaders rz p q).headers[h]? with
    | none => rw [hz] at h4; cases h4
    | some z =>
      obtain ⟨w, w1, _, w2⟩ := hh h z hz
      rw [hz] at h4
      rw [w1]
      simpa [w2] using h4

/-- Every operation keeps the invariant. -/
theorem exec_good {rz p416 : Bool} {p p' : Phv} {o : Op} (hi : Inv p)
    (r : exec rz p416 p o = some p') : Good p p' := by
  cases o with
  | markValid h =>
    obtain ⟨h1, h2, _⟩ := markValid_inv hi (Or.inl rfl) r
    exact ⟨h1, h2⟩
  | markInvalid h =>
    obtain ⟨h1, h2, _⟩ := markInvalid_inv hi (Or.inl rfl) r
    exact ⟨h1, h2⟩
  | extract h data n =>
    simp only [exec, extract, Option.bind_eq_bind, Option.bind_eq_some_iff] at r
    obtain ⟨p1, r1, r2⟩ := r
    obtain ⟨x, y, hx, hy, rfl, _, _⟩ := updHeader_spec r1
    have hmeta : y.metadata = x.metadata := by
      unfold Header.extract at hy
      split at hy
      · simp only [Option.bind_eq_bind, Option.bind_eq_some_iff] at hy
        obtain ⟨fs, _, hy⟩ := hy
        exact (markValid_flags hy).2
      · simp only [Option.bind_eq_bind, Option.bind_eq_some_iff] at hy
        obtain ⟨fs, _, hy⟩ := hy
        split at hy
        · exact (markValid_flags hy).2
        · cases hy
    have hi1 := InvX.setHeader hi (Or.inl rfl) hx hmeta
    obtain ⟨h1, h2, _⟩ := markValid_inv hi1 (Or.inr rfl) r2
    exact ⟨h1, ⟨h2.memb, h2.unions, h2.hstacks, h2.unionStacks⟩⟩
  | assignHeader d s => exact assignHeader_good hi r
  | assignUnion d s => exact assignUnion_good hi r
  | assignHeaderStack d s =>
    simp only [exec, assignHeaderStack, Option.bind_eq_bind, Option.bind_eq_some_iff] at r
    obtain ⟨x, hx, y, _, r⟩ := r
    split at r
    · refine Good.trans (hi.stacks (hs := p.hstacks.set d { x with next := y.next })
        (us := p.unionStacks) (map_set_same hx rfl) rfl) fun hi => assignHeaders_good _ _ hi r
    · cases r
  | assignUnionStack d s =>
    simp only [exec, assignUnionStack, Option.bind_eq_bind, Option.bind_eq_some_iff] at r
    obtain ⟨x, hx, y, _, r⟩ := r
    split at r
    · refine Good.trans (hi.stacks (hs := p.hstacks)
        (us := p.unionStacks.set d { x with next := y.next }) rfl (map_set_same hx rfl))
        fun hi => assignUnions_good _ _ hi r
    · cases r
  | headerStack k o =>
    simp only [exec, Option.bind_eq_bind, Option.bind_eq_some_iff] at r
    obtain ⟨st, hst, ⟨n, st', q⟩, r1, r⟩ := r
    cases r
    have hm : ∀ q, SameLayout p q → ∀ a ∈ st.elements, ∀ m, q.memb[a]? = some m → m = none := by
      intro q hq a ha m hm
      rw [hq.memb] at hm
      exact hi.layout.hst st (List.mem_of_getElem? hst) a ha m hm
    have K : Keeps headerOps (Good p) st.elements := by
      refine ⟨?_, ?_, ?_⟩
      · intro s s' i j a b hs _ ha hb r
        exact hs.trans fun hi => swapHeaders_inv hi (hm s hs.2 a (List.mem_of_getElem? ha))
          (hm s hs.2 b (List.mem_of_getElem? hb)) r
      · intro s s' a hs ha r
        obtain ⟨h1, h2, _⟩ := markValid_inv hs.1 (Or.inl rfl) r
        exact ⟨h1, hs.2.trans h2⟩
      · intro s s' a hs ha r
        obtain ⟨h1, h2, _⟩ := markInvalid_inv hs.1 (Or.inl rfl) r
        exact ⟨h1, hs.2.trans h2⟩
    obtain ⟨g1, g2⟩ := stackOp_keeps K ⟨hi, SameLayout.refl p⟩ r1
    have hq : ∃ st2, q.hstacks[k]? = some st2 ∧ st2.elements = st.elements := by
      have := congrArg (fun l => l[k]?) g1.2.hstacks
      simp only [List.getElem?_map, hst, Option.map_some] at this
      cases hy : q.hstacks[k]? with
      | none => rw [hy] at this; simp at this
      | some y => rw [hy] at this; simp at this; exact ⟨y, rfl, this⟩
    obtain ⟨st2, q1, q2⟩ := hq
    exact g1.trans fun hi => hi.stacks (map_set_same q1 (g2.trans q2.symm)) rfl
  | unionStack k o =>
    simp only [exec, Option.bind_eq_bind, Option.bind_eq_some_iff] at r
    obtain ⟨st, hst, ⟨n, st', q⟩, r1, r⟩ := r
    cases r
    have K : Keeps unionOps (Good p) st.elements := by
      refine ⟨?_, ?_, ?_⟩
      · intro s s' i j a b hs hij ha hb r
        have hnd := hi.layout.ust st (List.mem_of_getElem? hst)
        refine hs.trans fun hi => swapUnions_inv hi ?_ r
        intro hab
        subst hab
        obtain ⟨h1, h2⟩ := List.getElem?_eq_some_iff.1 ha
        obtain ⟨h3, h4⟩ := List.getElem?_eq_some_iff.1 hb
        exact hij ((List.Nodup.getElem_inj_iff hnd).1 (h2.trans h4.symm))
      · intro s s' a hs _ r
        cases r; exact hs
      · intro s s' a hs _ r
        cases r; exact hs
    obtain ⟨g1, g2⟩ := stackOp_keeps K ⟨hi, SameLayout.refl p⟩ r1
    have hq : ∃ st2, q.unionStacks[k]? = some st2 ∧ st2.elements = st.elements := by
      have := congrArg (fun l => l[k]?) g1.2.unionStacks
      simp only [List.getElem?_map, hst, Option.map_some] at this
      cases hy : q.unionStacks[k]? with
      | none => rw [hy] at this; simp at this
      | some y => rw [hy] at this; simp at this; exact ⟨y, rfl, this⟩
    obtain ⟨st2, q1, q2⟩ := hq
    exact g1.trans fun hi => hi.stacks rfl (map_set_same q1 (g2.trans q2.symm))
  | reset => exact reset_good _ hi r
  | resetHeaderStacks =>
    cases r
    exact hi.stacks (by simp [Stack.reset, Function.comp_def]) (by simp [Stack.reset, Function.comp_def])
  | resetHeaders all => exact resetHeaders_good hi r

end Bm.Phv
