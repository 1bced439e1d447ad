import Verif.Lemmas.Phv
import Verif.Lemmas.Header

/-!
# Lemmas on stacks of headers and stacks of unions
-/

namespace Bm.Phv

open Bm.Stack

/-- Two fields of the same declaration: only the contents differ, and for a variable-length field the
width. -/
structure SameDecl (f g : Field) : Prop where
  arith : f.arith = g.arith
  isSigned : f.isSigned = g.isSigned
  hidden : f.hidden = g.hidden
  vl : f.vl = g.vl
  isSaturating : f.isSaturating = g.isSaturating
  fixed : f.vl = false → f.nbits = g.nbits ∧ f.nbytes = g.nbytes ∧ f.mask = g.mask ∧ f.max = g.max ∧
    f.min = g.min

theorem SameDecl.refl (f : Field) : SameDecl f f := ⟨rfl, rfl, rfl, rfl, rfl, fun _ => ⟨rfl, rfl, rfl, rfl, rfl⟩⟩

theorem SameDecl.symm {f g : Field} (h : SameDecl f g) : SameDecl g f := by
  refine ⟨h.arith.symm, h.isSigned.symm, h.hidden.symm, h.vl.symm, h.isSaturating.symm, ?_⟩
  intro hv
  obtain ⟨a, b, c, d, e⟩ := h.fixed (h.vl.trans hv)
  exact ⟨a.symm, b.symm, c.symm, d.symm, e.symm⟩

theorem SameDecl.trans {f g k : Field} (h : SameDecl f g) (h' : SameDecl g k) : SameDecl f k := by
  refine ⟨h.arith.trans h'.arith, h.isSigned.trans h'.isSigned, h.hidden.trans h'.hidden,
    h.vl.trans h'.vl, h.isSaturating.trans h'.isSaturating, ?_⟩
  intro hv
  obtain ⟨a, b, c, d, e⟩ := h.fixed hv
  obtain ⟨a', b', c', d', e'⟩ := h'.fixed (h.vl.symm.trans hv)
  exact ⟨a.trans a', b.trans b', c.trans c', d.trans d', e.trans e'⟩

theorem SameDecl.swapped {f g : Field} (h : SameDecl f g) : f.swapped g = g := by
  cases f; cases g
  obtain ⟨h1, h2, h3, h4, h5, h6⟩ := h
  simp only at h1 h2 h3 h4 h5 h6
  subst h1 h2 h3 h4 h5
  unfold Field.swapped Field.copyValue Field.getValue
  simp only [Bool.false_eq_true, if_false]
  split
  · rfl
  · rename_i hv
    obtain ⟨a, b, c, d, e⟩ := h6 (by simpa using hv)
    subst a b c d e
    rfl

/-- `x` is a header with the declarations of `t`. -/
structure Inst (t x : Header) : Prop where
  typeId : t.typeId = x.typeId
  vlOffset : t.vlOffset = x.vlOffset
  metadata : t.metadata = x.metadata
  fields : List.Forall₂ SameDecl t.fields x.fields
  last : ∃ l v, x.fields = l ++ [v] ∧ v.hidden = true ∧ v.Shape

theorem zip_swapped : ∀ {l a b : List Field}, List.Forall₂ SameDecl l a → List.Forall₂ SameDecl l b →
    List.zipWith Field.swapped a b = b
  | [], _, _, .nil, .nil => rfl
  | _ :: _, _, _, .cons h1 h2, .cons h3 h4 => by
    rw [List.zipWith_cons_cons, zip_swapped h2 h4, (h1.symm.trans h3).swapped]

theorem Inst.swapped {t x y : Header} (hx : Inst t x) (hy : Inst t y) : x.swapped y = y := by
  have := zip_swapped hx.fields hy.fields
  cases x; cases y
  simp only [Header.swapped] at *
  have h1 := hx.typeId.symm.trans hy.typeId
  have h2 := hx.vlOffset.symm.trans hy.vlOffset
  have h3 := hx.metadata.symm.trans hy.metadata
  simp only at h1 h2 h3
  subst h1 h2 h3
  rw [this]

theorem forall₂_append_inv {α β : Type} {R : α → β → Prop} : ∀ {l : List α} {a : List β} {v w : β},
    List.Forall₂ R l (a ++ [v]) → (∀ x, R x v → R x w) → List.Forall₂ R l (a ++ [w])
  | [], a, v, w, h, _ => by cases a <;> cases h
  | x :: l, [], v, w, h, k => by
    cases h with
    | cons h1 h2 =>
      cases h2
      exact .cons (k x h1) .nil
  | x :: l, b :: a, v, w, h, k => by
    cases h with
    | cons h1 h2 => exact .cons h1 (forall₂_append_inv h2 k)

theorem Inst.setValidField {t x : Header} (hx : Inst t x) (b : Bool) (n : Int) :
    ∃ y, ({ x with valid := b }).setValidField n = some y ∧ Inst t y ∧ y.valid = b ∧
      Header.visible y.fields = Header.visible x.fields ∧ y.nbytesPacket = x.nbytesPacket := by
  obtain ⟨l, v, h1, h2, h3⟩ := hx.last
  obtain ⟨v', r, r2, r3, _, _, _, r7⟩ := Header.setValidField_spec (h := { x with valid := b }) h1 h2 h3 n
  obtain ⟨v'', q1, q2, q3, q4, q5, q6, _⟩ := Field.set_spec h3 n
  have hvv : v'' = v' := Option.some.inj (q1.symm.trans r7)
  subst hvv
  have hsd : SameDecl v v'' := by
    have k1 := congrArg Spec.Kind.w q3
    have k2 := congrArg Spec.Kind.signed q3
    have k3 := congrArg Spec.Kind.saturating q3
    simp only [Field.kind] at k1 k2 k3
    refine ⟨q4.symm, k2.symm, q5.symm, q6.symm, k3.symm, fun _ => ⟨k1.symm, ?_, ?_, ?_, ?_⟩⟩
    · rw [h3.nbytes, q2.nbytes, k1]
    · rw [h3.mask, q2.mask, k1]
    · rw [h3.max, q2.max, q3]
    · rw [h3.min, q2.min, q3]
  refine ⟨_, r, ⟨hx.typeId, hx.vlOffset, hx.metadata, ?_, ⟨l, v'', rfl, r2, r3⟩⟩, rfl, ?_, rfl⟩
  · have := hx.fields
    rw [h1] at this
    exact forall₂_append_inv this fun f hf => hf.trans hsd
  · simp only
    rw [h1, Header.visible_append_hidden _ _ r2, Header.visible_append_hidden _ _ h2]

/-- Elements of a stack: headers of one type, members of no union. -/
def Elems (t : Header) (el : List Nat) (p : Phv) : Prop :=
  ∀ a ∈ el, (∃ x, p.headers[a]? = some x ∧ Inst t x) ∧ p.memb[a]? = some none

/-- What a header is, by number. -/
def hget (p : Phv) (h : Nat) : Option Header := p.headers[h]?

theorem Elems.set {t : Header} {el : List Nat} {p : Phv} (hp : Elems t el p) {a : Nat} {y : Header}
    (hy : Inst t y) : Elems t el { p with headers := p.headers.set a y } := by
  intro c hc
  obtain ⟨⟨x, h1, h2⟩, h3⟩ := hp c hc
  refine ⟨?_, h3⟩
  by_cases hac : a = c
  · subst hac
    exact ⟨y, getElem?_set_self' h1, hy⟩
  · exact ⟨x, by simp only; rw [List.getElem?_set_ne hac]; exact h1, h2⟩

theorem header_laws (t : Header) (el : List Nat) :
    Laws headerOps (Elems t el) hget el (·.bind Header.markValid) (·.bind Header.markInvalid) := by
  refine ⟨?_, ?_, ?_⟩
  · intro p a b hp ha hb hab
    obtain ⟨⟨x, hx, ix⟩, hma⟩ := hp a ha
    obtain ⟨⟨y, hy, iy⟩, hmb⟩ := hp b hb
    refine ⟨{ p with headers := (p.headers.set a y).set b x }, ?_, ?_, ?_, ?_, ?_⟩
    · simp only [headerOps, swapHeaders, hx, hy, Option.bind_eq_bind, Option.bind_some,
        ix.swapped iy, iy.swapped ix]
      rfl
    · have := (hp.set (a := a) iy).set (a := b) ix
      exact this
    · simp only [hget]
      rw [List.getElem?_set_ne (Ne.symm hab), getElem?_set_self' hx, hy]
    · simp only [hget]
      rw [getElem?_set_self' (x := y) (by rw [List.getElem?_set_ne hab]; exact hy), hx]
    · intro c h1 h2
      simp only [hget]
      rw [List.getElem?_set_ne (Ne.symm h2), List.getElem?_set_ne (Ne.symm h1)]
  · intro p a hp ha
    obtain ⟨⟨x, hx, ix⟩, hma⟩ := hp a ha
    obtain ⟨y, h1, h2, _⟩ := ix.setValidField true 1
    refine ⟨{ p with headers := p.headers.set a y }, ?_, hp.set h2, ?_, ?_⟩
    · simp only [headerOps, Phv.markValid, updHeader, hx, Header.markValid, h1, Option.bind_eq_bind,
        Option.bind_some, hma, Option.pure_def]
    · simp only [hget]
      rw [getElem?_set_self' hx, hx, Option.bind_some, Header.markValid, h1]
    · intro c hc
      simp only [hget]
      rw [List.getElem?_set_ne (Ne.symm hc)]
  · intro p a hp ha
    obtain ⟨⟨x, hx, ix⟩, hma⟩ := hp a ha
    obtain ⟨y, h1, h2, _⟩ := ix.setValidField false 0
    refine ⟨{ p with headers := p.headers.set a y }, ?_, hp.set h2, ?_, ?_⟩
    · simp only [headerOps, Phv.markInvalid, updHeader, hx, Header.markInvalid, h1, Option.bind_eq_bind,
        Option.bind_some, hma, Option.pure_def]
    · simp only [hget]
      rw [getElem?_set_self' hx, hx, Option.bind_some, Header.markInvalid, h1]
    · intro c hc
      simp only [hget]
      rw [List.getElem?_set_ne (Ne.symm hc)]

/-! ## Stacks of unions -/

/-- Header `h` exists and has the declarations of `t`. -/
def IsInst (p : Phv) (t : Header) (h : Nat) : Prop := ∃ y, p.headers[h]? = some y ∧ Inst t y

theorem swapAll_total : ∀ (ts : List Header) (as bs : List Nat) (p : Phv),
    List.Forall₂ (IsInst p) ts as → List.Forall₂ (IsInst p) ts bs → (as ++ bs).Nodup →
    ∃ p', swapAll p as bs = some p'
  | [], _, _, p, .nil, .nil, _ => ⟨p, rfl⟩
  | t :: ts, a :: as, b :: bs, p, .cons ⟨x, hx, ix⟩ h2, .cons ⟨y, hy, iy⟩ h4, hn => by
    simp only [List.cons_append, List.nodup_cons, List.mem_append, List.mem_cons,
      List.nodup_append, not_or] at hn
    obtain ⟨⟨n1, n2, n3⟩, n4, ⟨n5, n6⟩, n7⟩ := hn
    have hbas : b ∉ as := fun c => n7 b c b (Or.inl rfl) rfl
    have keep : ∀ (cs : List Nat) (us : List Header), a ∉ cs → b ∉ cs → List.Forall₂ (IsInst p) us cs →
        List.Forall₂ (IsInst { p with headers := (p.headers.set a (x.swapped y)).set b (y.swapped x) })
          us cs := by
      intro cs
      induction cs with
      | nil => intro us _ _ h; cases h; exact .nil
      | cons c cs ih =>
        intro us h1 h2 h
        cases h with
        | cons k1 k2 =>
          simp only [List.mem_cons, not_or] at h1 h2
          refine .cons ?_ (ih _ h1.2 h2.2 k2)
          obtain ⟨z, hz, iz⟩ := k1
          refine ⟨z, ?_, iz⟩
          simp only
          rw [List.getElem?_set_ne h2.1, List.getElem?_set_ne h1.1]
          exact hz
    obtain ⟨p', hp'⟩ := swapAll_total ts as bs
      { p with headers := (p.headers.set a (x.swapped y)).set b (y.swapped x) }
      (keep as ts n1 hbas h2) (keep bs ts n3 n5 h4) (by
        rw [List.nodup_append]
        exact ⟨n4, n6, fun c hc d hd => n7 c hc d (Or.inr hd)⟩)
    refine ⟨p', ?_⟩
    simp only [swapAll, swapHeaders, hx, hy, Option.bind_eq_bind, Option.bind_some, Option.pure_def]
    exact hp'

/-- A union: its state and its headers. -/
def uget (p : Phv) (u : Nat) : Option (Bool × Nat × List (Option Header)) :=
  (p.unions[u]?).map fun x => (x.valid, x.idx, x.members.map (p.headers[·]?))

/-- Elements of a stack: unions of the same types of headers. -/
def UElems (ts : List Header) (el : List Nat) (p : Phv) : Prop :=
  Layout p ∧ ∀ u ∈ el, ∃ x, p.unions[u]? = some x ∧ List.Forall₂ (IsInst p) ts x.members

theorem forall₂_swap {ts : List Header} : ∀ {as bs : List Nat} {p p' : Phv},
    List.Forall₂ (IsInst p) ts as → List.Forall₂ (IsInst p) ts bs →
    (∀ (i a b : Nat), as[i]? = some a → bs[i]? = some b → ∃ x y, p.headers[a]? = some x ∧
      p.headers[b]? = some y ∧ p'.headers[a]? = some (x.swapped y) ∧
      p'.headers[b]? = some (y.swapped x)) →
    List.Forall₂ (IsInst p') ts as ∧ List.Forall₂ (IsInst p') ts bs ∧
    as.map (p'.headers[·]?) = bs.map (p.headers[·]?) ∧
    bs.map (p'.headers[·]?) = as.map (p.headers[·]?) := by
  induction ts with
  | nil =>
    intro as bs p p' h1 h2 _
    cases h1; cases h2
    exact ⟨.nil, .nil, rfl, rfl⟩
  | cons t ts ih =>
    intro as bs p p' h1 h2 hs
    cases h1 with
    | cons a1 a2 =>
      cases h2 with
      | cons b1 b2 =>
        obtain ⟨i1, i2, i3, i4⟩ := ih a2 b2 (fun i a b ha hb => hs (i + 1) a b (by simpa using ha)
          (by simpa using hb))
        obtain ⟨x, y, e1, e2, e3, e4⟩ := hs 0 _ _ rfl rfl
        obtain ⟨x', hx', ix⟩ := a1
        obtain ⟨y', hy', iy⟩ := b1
        rw [e1] at hx'; cases hx'
        rw [e2] at hy'; cases hy'
        rw [ix.swapped iy] at e3
        rw [iy.swapped ix] at e4
        refine ⟨.cons ⟨_, e3, iy⟩ i1, .cons ⟨_, e4, ix⟩ i2, ?_, ?_⟩
        · rw [List.map_cons, List.map_cons, i3, e3, e2]
        · rw [List.map_cons, List.map_cons, i4, e4, e1]

theorem union_laws (ts : List Header) (el : List Nat) :
    Laws unionOps (UElems ts el) uget el id id := by
  refine ⟨?_, fun p a hp _ => ⟨p, rfl, hp, rfl, fun _ _ => rfl⟩,
    fun p a hp _ => ⟨p, rfl, hp, rfl, fun _ _ => rfl⟩⟩
  intro p u v hp hu hv huv
  obtain ⟨x, hx, fx⟩ := hp.2 u hu
  obtain ⟨y, hy, fy⟩ := hp.2 v hv
  have hn := hp.1.members_nodup hx hy huv
  have hl : x.members.length = y.members.length := by
    rw [← fx.length_eq, fy.length_eq]
  let us := (p.unions.set u { x with valid := y.valid, idx := y.idx }).set v
      { y with valid := x.valid, idx := x.idx }
  let q : Phv := { p with unions := us }
  obtain ⟨p', hp'⟩ := swapAll_total ts x.members y.members q fx fy hn
  have r : unionOps.swap p u v = some p' := by
    simp only [unionOps, swapUnions, hx, hy, Option.bind_eq_bind, Option.bind_some, hl, if_true]
    exact hp'
  obtain ⟨s1, s2, s3⟩ := swapAll_spec _ _ q p' hl hn hp'
  have s2' : ∀ (i a b : Nat), x.members[i]? = some a → y.members[i]? = some b → ∃ x y,
      p.headers[a]? = some x ∧ p.headers[b]? = some y ∧ p'.headers[a]? = some (x.swapped y) ∧
      p'.headers[b]? = some (y.swapped x) := s2
  obtain ⟨g1, g2, g3, g4⟩ := forall₂_swap fx fy s2'
  have hun : p'.unions = (p.unions.set u { x with valid := y.valid, idx := y.idx }).set v
      { y with valid := x.valid, idx := x.idx } := by rw [s1]
  have hu1 : p'.unions[u]? = some { x with valid := y.valid, idx := y.idx } := by
    rw [hun, List.getElem?_set_ne (Ne.symm huv), getElem?_set_self' hx]
  have hv1 : p'.unions[v]? = some { y with valid := x.valid, idx := x.idx } := by
    rw [hun]
    apply getElem?_set_self' (x := y)
    rw [List.getElem?_set_ne huv, hy]
  have ho : ∀ w, w ≠ u → w ≠ v → p'.unions[w]? = p.unions[w]? := by
    intro w h1 h2
    rw [hun, List.getElem?_set_ne (Ne.symm h2), List.getElem?_set_ne (Ne.symm h1)]
  have hsame : SameLayout p p' := by
    refine ⟨by rw [s1], ?_, by rw [s1], by rw [s1]⟩
    apply List.ext_getElem?
    intro w
    rw [List.getElem?_map, List.getElem?_map]
    by_cases h1 : w = u
    · subst h1; rw [hu1, hx]; rfl
    · by_cases h2 : w = v
      · subst h2; rw [hv1, hy]; rfl
      · rw [ho w h1 h2]
  have hoth : ∀ (w : Nat) (z : HUnion), w ≠ u → w ≠ v → p.unions[w]? = some z → ∀ h ∈ z.members,
      p'.headers[h]? = p.headers[h]? := by
    intro w z h1 h2 hz h hh
    obtain ⟨i, hi⟩ := List.mem_iff_getElem?.1 hh
    have e1 : h ∉ x.members := by
      intro c
      obtain ⟨j, hj⟩ := List.mem_iff_getElem?.1 c
      exact h1 (hp.1.inj hz hi hx hj).1
    have e2 : h ∉ y.members := by
      intro c
      obtain ⟨j, hj⟩ := List.mem_iff_getElem?.1 c
      exact h2 (hp.1.inj hz hi hy hj).1
    exact s3 h e1 e2
  refine ⟨p', r, ⟨hp.1.of_same hsame, ?_⟩, ?_, ?_, ?_⟩
  · intro w hw
    by_cases h1 : w = u
    · subst h1; exact ⟨_, hu1, g1⟩
    · by_cases h2 : w = v
      · subst h2; exact ⟨_, hv1, g2⟩
      · obtain ⟨z, hz, fz⟩ := hp.2 w hw
        refine ⟨z, by rw [ho w h1 h2]; exact hz, ?_⟩
        have hk := hoth w z h1 h2 hz
        clear hz
        revert hk
        generalize z.members = zs at fz
        intro hk
        clear hp fx fy g1 g2
        induction fz with
        | nil => exact .nil
        | cons k1 k2 ih =>
          refine .cons ?_ (ih fun h hh => hk h (by simp [hh]))
          obtain ⟨c, hc, ic⟩ := k1
          exact ⟨c, by rw [hk _ (by simp)]; exact hc, ic⟩
  · simp only [uget, hu1, hy, Option.map_some, g3]
  · simp only [uget, hv1, hx, Option.map_some, g4]
  · intro w h1 h2
    simp only [uget, ho w h1 h2]
    cases hz : p.unions[w]? with
    | none => rfl
    | some z =>
      simp only [Option.map_some, Option.some.injEq, Prod.mk.injEq, true_and]
      apply List.map_congr_left
      intro h hh
      exact hoth w z h1 h2 hz h hh

end Bm.Phv
