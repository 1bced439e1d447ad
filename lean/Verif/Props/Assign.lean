import Verif.Lemmas.Assign
import Verif.Model.ArithCfg
import Verif.Props.Union

/-!
# Assigning headers, unions and stacks

C92: after `d = s` the destination is what the source is.  A header is valid exactly if the source is,
and then every field has the same width, value and bytes, so that it is deparsed to the same bytes; the
source and all other headers are as before, apart from the other members of the union of `d`, one of
which may have become invalid.  A union names the corresponding member, a stack has the same `next`.

The value of a field is what is copied.  It agrees with the bytes of the field if the field takes part
in arithmetic, which is enabled for what the parameters of primitives name, except for unions
(`C92_arith_partial`): a union that was parsed is copied as zeros (`Ex.C92_refuted_union`), and
comparing it fails an assertion (`Ex.C92_refuted_compare`).  Between members of the same union the
source is invalidated before it is read (`Ex.C92_refuted_same_union`).
-/

namespace Bm.Assign

open Bm.Assign.Spec Bm.Spec

/-- **C92** (headers): the destination is what the source is; every other header is unchanged, or is
in the union of the destination and was made invalid. -/
theorem C92_header {rz : Bool} {p : Phv} (hs : Sound p) {d s : Nat} {x y : Header}
    (hx : p.headers[d]? = some x) (hy : p.headers[s]? = some y) (ht : x.typeId = y.typeId)
    (hds : d ≠ s) (hu : ¬ SameUnion p d s) (hsrc : Source y) :
    ∃ p' x', Phv.exec rz false p (.assignHeader d s) = some p' ∧ Sound p' ∧ p'.headers[d]? = some x' ∧
      Is x' y ∧ p'.headers[s]? = some y ∧
      (∀ k, k ≠ d → ¬ SameUnion p d k → p'.headers[k]? = p.headers[k]?) ∧
      (∀ k z, k ≠ d → p.headers[k]? = some z → ∃ z', p'.headers[k]? = some z' ∧
        (z' = z ∨ y.isValid = true ∧ Dropped z z')) := by
  obtain ⟨p', x', r, s', l, _, _, h1, h2, _, _, h3⟩ := assignHeader_spec (rz := rz) hs hx hy ht hds hu hsrc
  have fr : ∀ k, k ≠ d → ¬ SameUnion p d k → p'.headers[k]? = p.headers[k]? := by
    intro k hk hku
    cases hz : p.headers[k]? with
    | none =>
      have h1 : p'.headers.length = p.headers.length := by
        rw [← s'.body.memb, ← hs.body.memb, l.memb]
      rw [List.getElem?_eq_none_iff] at hz ⊢
      omega
    | some z =>
      obtain ⟨z', hz', h⟩ := h3 k z hk hz
      rcases h with rfl | ⟨_, h, _⟩
      · exact hz'
      · exact absurd h hku
  refine ⟨p', x', r, s', h1, h2, (fr s (Ne.symm hds) hu).trans hy, fr, ?_⟩
  intro k z hk hz
  obtain ⟨z', hz', h⟩ := h3 k z hk hz
  refine ⟨z', hz', ?_⟩
  rcases h with h | ⟨h, _, h'⟩
  · exact Or.inl h
  · exact Or.inr ⟨h, h'⟩

/-- Headers with the same contents are deparsed to the same bytes. -/
theorem C92_deparse {x y : Header} (hc : Copied x y) (ht : x.fields.map sig = y.fields.map sig)
    (data : Bytes) : x.deparse data = y.deparse data := by
  have key : ∀ (fs gs : List Field), List.Forall₂ SameContents fs gs → fs.map sig = gs.map sig →
      ∀ (data : Bytes) (o : Nat), Header.deparseFields fs data o = Header.deparseFields gs data o := by
    intro fs gs h
    induction h with
    | nil => intro _ data o; rfl
    | @cons f g fs gs h1 _ ih =>
      intro hs data o
      simp only [List.map_cons, List.cons.injEq] at hs
      simp only [Header.deparseFields, Field.deparse, (sig_eq hs.1).2.1, h1.nbits, h1.bytes, ih hs.2]
  exact key _ _ hc.fields ht data 0

/-- **C92** (stacks of headers): `next` and all elements are copied; everything that is not an element
is unchanged. -/
theorem C92_header_stack {rz : Bool} {p : Phv} (hs : Sound p) {d s : Nat} {D S : Stack}
    (hd : p.hstacks[d]? = some D) (hS : p.hstacks[s]? = some S) (hn : D.elements.Nodup)
    (ha : ∀ a ∈ D.elements, a ∉ S.elements) (hf : List.Forall₂ (Fits p) D.elements S.elements) :
    ∃ p', Phv.exec rz false p (.assignHeaderStack d s) = some p' ∧ Sound p' ∧
      p'.hstacks[d]? = some { D with next := S.next } ∧
      (∀ k, k ≠ d → p'.hstacks[k]? = p.hstacks[k]?) ∧
      List.Forall₂ (Done p p') D.elements S.elements ∧
      (∀ k, k ∉ D.elements → p'.headers[k]? = p.headers[k]?) := by
  have hmap : (p.hstacks.set d { D with next := S.next }).map (·.elements) = p.hstacks.map (·.elements) :=
    Phv.map_set_same hd rfl
  obtain ⟨p0, hp0⟩ : ∃ p0 : Phv, p0 = { p with hstacks := p.hstacks.set d { D with next := S.next } } :=
    ⟨_, rfl⟩
  have s0 : Sound p0 := by
    rw [hp0]
    exact ⟨(hs.inv.stacks hmap rfl).1, hs.body.congr rfl rfl⟩
  have free : ∀ a ∈ D.elements, ∀ b, ¬ SameUnion p0 a b := by
    rintro a haa b ⟨u, i, j, h1, _⟩
    rw [hp0] at h1
    have := hs.inv.layout.hst D (List.mem_of_getElem? hd) a haa _ h1
    cases this
  have hh : p0.headers = p.headers := by rw [hp0]
  have hfe : ∀ a b, Fits p a b → Fits p0 a b := by
    intro a b h; unfold Fits at h ⊢; rw [hh]; exact h
  obtain ⟨p', r, s', l, e1, e2, dd, fr⟩ := assignHeaders_spec (rz := rz) D.elements S.elements p0 s0 hn
    (fun a h1 b h2 => ⟨fun h => ha a h1 (h ▸ h2), free a h1 b⟩) (hf.imp hfe) (by
      rw [List.pairwise_iff_getElem]
      intro i j hi hj _ _ _
      exact free _ (List.of_mem_zip (List.getElem_mem hi)).1 _)
  have hset : (p.hstacks.set d { D with next := S.next })[d]? = some { D with next := S.next } :=
    Phv.getElem?_set_self' hd
  refine ⟨p', ?_, s', ?_, ?_, ?_, ?_⟩
  · show Phv.assignHeaderStack rz p d s = some p'
    unfold Phv.assignHeaderStack
    simp only [hd, hS, Option.bind_eq_bind, Option.bind_some, hf.length_eq, if_true]
    rw [← hp0]; exact r
  · rw [e1, hp0]; exact hset
  · intro k hk
    rw [e1, hp0]
    exact List.getElem?_set_ne (Ne.symm hk)
  · refine dd.imp ?_
    intro a b h
    unfold Done at h ⊢
    rw [hh] at h
    exact h
  · intro k hk
    cases hz : p.headers[k]? with
    | none =>
      have h1 : p'.headers.length = p.headers.length := by
        rw [← s'.body.memb, l.memb, s0.body.memb, hh]
      rw [List.getElem?_eq_none_iff] at hz ⊢
      omega
    | some z =>
      obtain ⟨z', hz', h⟩ := fr k z hk (by rw [hh]; exact hz)
      rcases h with rfl | ⟨_, q, hq, _, h⟩
      · exact hz'
      · exact absurd h (free _ (List.of_mem_zip hq).1 _)

/-- **C92** (unions): every member is what the corresponding member of the source is, the union names
the corresponding member, and all headers outside the union are unchanged (the source as well). -/
theorem C92_union {rz : Bool} {p : Phv} (hs : Sound p) {u v : Nat} (huv : u ≠ v) (hf : FitsU p u v) :
    ∃ p', Phv.exec rz false p (.assignUnion u v) = some p' ∧ Sound p' ∧ DoneU p p' u v ∧
      (∃ X Y : HUnion, p'.unions[u]? = some X ∧ p.unions[v]? = some Y ∧ X.valid = Y.valid ∧
        (Y.valid = true → X.idx = Y.idx)) ∧
      (∀ k ds, members p u = some ds → k ∉ ds → p'.headers[k]? = p.headers[k]?) := by
  obtain ⟨p', r, s', l, _, _, d', fr⟩ := assignUnion_spec (rz := rz) hs huv hf
  exact ⟨p', r, s', d', doneU_named hs s' l d', fr⟩

/-- **C92** (stacks of unions): `next` and all unions are copied; headers outside them are unchanged. -/
theorem C92_union_stack {rz : Bool} {p : Phv} (hs : Sound p) {d s : Nat} {D S : Stack}
    (hd : p.unionStacks[d]? = some D) (hS : p.unionStacks[s]? = some S)
    (ha : ∀ a ∈ D.elements, a ∉ S.elements) (hf : List.Forall₂ (FitsU p) D.elements S.elements) :
    ∃ p', Phv.exec rz false p (.assignUnionStack d s) = some p' ∧ Sound p' ∧
      p'.unionStacks[d]? = some { D with next := S.next } ∧
      (∀ k, k ≠ d → p'.unionStacks[k]? = p.unionStacks[k]?) ∧
      List.Forall₂ (DoneU p p') D.elements S.elements ∧
      (∀ k, (∀ u ∈ D.elements, ∀ ms, members p u = some ms → k ∉ ms) →
        p'.headers[k]? = p.headers[k]?) := by
  have hn : D.elements.Nodup := hs.inv.layout.ust D (List.mem_of_getElem? hd)
  have hmap : (p.unionStacks.set d { D with next := S.next }).map (·.elements)
      = p.unionStacks.map (·.elements) := Phv.map_set_same hd rfl
  obtain ⟨p0, hp0⟩ : ∃ p0 : Phv, p0 = { p with unionStacks := p.unionStacks.set d { D with next := S.next } } :=
    ⟨_, rfl⟩
  have s0 : Sound p0 := by
    rw [hp0]
    exact ⟨(hs.inv.stacks rfl hmap).1, hs.body.congr rfl rfl⟩
  have hh : p0.headers = p.headers := by rw [hp0]
  have hm : ∀ u, members p0 u = members p u := by intro u; rw [hp0]; rfl
  have hfe : ∀ a b, FitsU p a b → FitsU p0 a b := by
    rintro a b ⟨ds, ss, h1, h2, h3⟩
    refine ⟨ds, ss, by rw [hm, h1], by rw [hm, h2], h3.imp ?_⟩
    intro a b h; unfold Fits at h ⊢; rw [hh]; exact h
  obtain ⟨p', r, s', l, e1, e2, dd, fr⟩ := assignUnions_spec (rz := rz) D.elements S.elements p0 s0 hn ha
    (hf.imp hfe)
  refine ⟨p', ?_, s', ?_, ?_, ?_, ?_⟩
  · show Phv.assignUnionStack rz p d s = some p'
    unfold Phv.assignUnionStack
    simp only [hd, hS, Option.bind_eq_bind, Option.bind_some, hf.length_eq, if_true]
    rw [← hp0]; exact r
  · rw [e2, hp0]; exact Phv.getElem?_set_self' hd
  · intro k hk
    rw [e2, hp0]
    exact List.getElem?_set_ne (Ne.symm hk)
  · refine dd.imp ?_
    rintro a b ⟨ds, ss, h1, h2, h3⟩
    refine ⟨ds, ss, by rw [← hm, h1], by rw [← hm, h2], h3.imp ?_⟩
    intro a b h
    unfold Done at h ⊢
    rw [hh] at h
    exact h
  · intro k hk
    rw [fr k (fun u hu ms hms => hk u hu ms (by rw [← hm, hms])), hh]

/-- What makes a field whole: assigning any value to it. -/
theorem C92_set_whole {f : Field} (hf : f.Shape) (v : Int) :
    ∃ f', f.set false v = some f' ∧ Whole f' ∧ sig f' = sig f := by
  obtain ⟨f', e, s, k, _, hh, hv, hb, hl, hh', ho, ho'⟩ := Field.set_spec hf v
  have hn : f'.nbits = f.nbits := congrArg Kind.w k
  refine ⟨f', e, ⟨s, by rw [k]; exact hl, by rw [hn]; exact hh', ?_, by rw [hn]; exact hb⟩, ?_⟩
  · intro hs
    have hs' : f.isSaturating = true := by
      rw [← hs]; exact (congrArg Kind.saturating k).symm
    have hno : ¬ f.Odd v := by
      rintro ⟨_, h, _⟩
      rw [hs'] at h
      cases h
    rw [k]
    exact (ho hno).1.2
  · unfold sig
    rw [hh, hv, hn, show f'.isSigned = f.isSigned from congrArg Kind.signed k,
      show f'.isSaturating = f.isSaturating from congrArg Kind.saturating k]

/-- Extracting a header all of whose visible fields take part in arithmetic (and which are followed by
`$valid$`) makes it a source. -/
theorem C92_extract {h : Header} (hv : h.vlOffset = none) {fs : List Field} {g : Field}
    (hfs : h.fields = fs ++ [g]) (hvis : ∀ f ∈ fs, f.hidden = false ∧ f.Shape ∧ f.arith = true ∧ f.nbits ≠ 0)
    (hg : g.hidden = true ∧ g.Shape) {data : Bytes} {n : Int}
    (h8 : (fs.map (·.nbits)).sum % 8 = 0) (hd : (fs.map (·.nbits)).sum ≤ 8 * data.length) :
    ∃ h', h.extract data n = some h' ∧ h'.valid = true ∧ Source h' := by
  have hvisible : Header.visible h.fields = fs := by
    rw [hfs]
    unfold Header.visible
    rw [List.takeWhile_append_of_pos (by intro b hb; simp [(hvis b hb).1])]
    simp [hg.1]
  have hzero : ∀ (ws : List Nat) (o : Nat), (∀ w ∈ ws, w ≠ 0) → Header.ZeroOk ws o := by
    intro ws
    induction ws with
    | nil => intro _ _; trivial
    | cons w ws ih => intro o h; exact ⟨Or.inr (h w (by simp)), ih _ (fun v hv => h v (by simp [hv]))⟩
  have htot : Header.total h.fields = (fs.map (·.nbits)).sum := by
    unfold Header.total; rw [hvisible]
  obtain ⟨fs', e, hsame, hw, _, htail⟩ := Header.extractFields_spec h.fields 0 data 0
    (by rw [hvisible]; exact fun f hf => (hvis f hf).2.1.shape0) (by omega)
    (by
      rw [hvisible]
      apply hzero
      intro w hw
      obtain ⟨f, hf, rfl⟩ := List.mem_map.1 hw
      exact (hvis f hf).2.2.2)
    (by rw [htot]; omega)
  -- the fields extracted, and the hidden one
  rw [hvisible, hfs] at htail
  have hlen : fs'.length = fs.length + 1 := by rw [← hsame.length_eq, hfs]; simp
  have hfs' : fs' = fs'.take fs.length ++ [g] := by
    conv_lhs => rw [← List.take_append_drop fs.length fs']
    rw [htail]; simp
  obtain ⟨as, has⟩ : ∃ as, as = fs'.take fs.length := ⟨_, rfl⟩
  rw [← has] at hfs'
  have hvs := Header.Same.visible hsame
  rw [hvisible] at hvs
  have hva : Header.visible fs' = as := by
    have hp : Header.visible fs' <+: fs' := List.takeWhile_prefix _
    rw [List.prefix_iff_eq_take.1 hp, ← hvs.length_eq, has]
  rw [hva] at hvs hw
  have hah : ∀ a ∈ as, a.hidden = false ∧ a.arith = true := by
    intro a ha
    obtain ⟨i, hi⟩ := List.getElem?_of_mem ha
    have hi' := (List.getElem?_eq_some_iff.1 hi).1
    have hq := (List.forall₂_iff_get.1 hvs).2 i (by rw [hvs.length_eq]; exact hi') hi'
    have hf := hvis _ (List.get_mem fs ⟨i, by rw [hvs.length_eq]; exact hi'⟩)
    have hai : as.get ⟨i, hi'⟩ = a := (List.getElem?_eq_some_iff.1 hi).2
    rw [hai] at hq
    exact ⟨hq.hidden ▸ hf.1, hq.arith ▸ hf.2.2.1⟩
  have hnb : as.map (·.nbits) = fs.map (·.nbits) := by
    clear * - hvs
    induction hvs with
    | nil => rfl
    | cons h _ ih => simp [h.nbits, ih]
  obtain ⟨g', eg, hg1, hg2⟩ := C92_set_whole hg.2 1
  have hg'h : g'.hidden = true := by rw [(sig_eq hg2).2.1]; exact hg.1
  refine ⟨{ h with valid := true, fields := as ++ [g'] }, ?_, rfl, ?_⟩
  · unfold Header.extract
    simp only [hv, e, Option.bind_eq_bind, Option.bind_some, Header.markValid, Header.setValidField, hfs']
    simp [eg]
  · intro _
    refine ⟨?_, ?_⟩
    · intro f hf
      rcases List.mem_append.1 hf with hf | hf
      · obtain ⟨hpad, hval⟩ := hw f hf
        obtain ⟨⟨f1, f2⟩, f3⟩ := hval (hah f hf).2
        refine ⟨hpad.shape, f1, ?_, fun _ => f2, f3⟩
        refine lt_of_le_of_lt f2 ?_
        unfold Kind.highest
        have h1 : (2 : Int) ^ (f.kind.w - 1) ≤ 2 ^ f.nbits :=
          pow_le_pow_right₀ (by omega) (by show f.nbits - 1 ≤ f.nbits; omega)
        split
        · omega
        · show (2 : Int) ^ f.nbits - 1 < 2 ^ f.nbits
          omega
      · simp only [List.mem_singleton] at hf
        exact hf ▸ hg1
    · have : Header.visible (as ++ [g']) = as := by
        unfold Header.visible
        rw [List.takeWhile_append_of_pos (by intro b hb; simp [(hah b hb).1])]
        simp [hg'h]
      show ((Header.visible (as ++ [g'])).map (·.nbits)).sum % 8 = 0
      rw [this, hnb, h8]

/-! ## Which fields take part in arithmetic -/

section
open ArithCfg

theorem foldlM_keeps {α : Type} {f : ArithCfg.Set → α → Option ArithCfg.Set}
    (hf : ∀ a x b, f a x = some b → ∀ e ∈ a, e ∈ b) : ∀ (l : List α) (a b : ArithCfg.Set),
    l.foldlM f a = some b → ∀ e ∈ a, e ∈ b
  | [], a, b, h, e, he => by cases h; exact he
  | x :: l, a, b, h, e, he => by
    simp only [List.foldlM_cons, Option.bind_eq_bind, Option.bind_eq_some_iff] at h
    obtain ⟨c, h1, h2⟩ := h
    exact foldlM_keeps hf l c b h2 e (hf a x c h1 e he)

/-- What one step of the loop adds is there at the end. -/
theorem foldlM_adds {α : Type} {f : ArithCfg.Set → α → Option ArithCfg.Set} {Q : α → Nat × Nat → Prop}
    (hf : ∀ a x b, f a x = some b → ∀ e ∈ a, e ∈ b)
    (hq : ∀ a x b, f a x = some b → ∀ e, Q x e → e ∈ b) : ∀ (l : List α) (a b : ArithCfg.Set),
    l.foldlM f a = some b → ∀ x ∈ l, ∀ e, Q x e → e ∈ b
  | x :: l, a, b, h, y, hy, e, he => by
    simp only [List.foldlM_cons, Option.bind_eq_bind, Option.bind_eq_some_iff] at h
    obtain ⟨c, h1, h2⟩ := h
    rcases List.mem_cons.1 hy with rfl | hy
    · exact foldlM_keeps hf l c b h2 e (hq a y c h1 e he)
    · exact foldlM_adds hf hq l c b h2 y hy e he

/-- A field of the header. -/
def FieldOf (c : Cfg) (h : Nat) (e : Nat × Nat) : Prop := e.1 = h ∧ ∃ n, c.nfields[h]? = some n ∧ e.2 < n

theorem enableAll_keeps {c : Cfg} (a : ArithCfg.Set) (h : Nat) (b : ArithCfg.Set)
    (r : enableAll c a h = some b) : ∀ e ∈ a, e ∈ b := by
  unfold enableAll at r
  simp only [Option.bind_eq_bind, Option.bind_eq_some_iff] at r
  obtain ⟨n, _, r⟩ := r
  cases r
  intro e he
  simp [he]

theorem enableAll_adds {c : Cfg} (a : ArithCfg.Set) (h : Nat) (b : ArithCfg.Set)
    (r : enableAll c a h = some b) : ∀ e, FieldOf c h e → e ∈ b := by
  rintro ⟨h', o⟩ ⟨rfl, n, hn, ho⟩
  unfold enableAll at r
  simp only [Option.bind_eq_bind, Option.bind_eq_some_iff] at r
  obtain ⟨n', hn', r⟩ := r
  rw [hn] at hn'
  cases hn'
  cases r
  have ho' : o < n := ho
  simp [ho']

theorem enableField_keeps {c : Cfg} (a : ArithCfg.Set) (h o : Nat) (b : ArithCfg.Set)
    (r : enableField c a h o = some b) : (∀ e ∈ a, e ∈ b) ∧ (h, o) ∈ b := by
  unfold enableField at r
  split at r
  · cases r
    exact ⟨fun e he => by simp [he], by simp⟩
  · cases r

theorem entries_mem {l : List (List Nat)} {u i h : Nat} (he : (u, i, h) ∈ entries l) :
    ∃ m, l[u]? = some m ∧ m[i]? = some h := by
  unfold entries at he
  simp only [List.mem_flatMap, List.mem_map, Prod.mk.injEq, Prod.exists] at he
  obtain ⟨m, u', h1, h', i', h2, rfl, rfl, rfl⟩ := he
  rw [List.mem_zipIdx_iff_getElem?] at h1 h2
  exact ⟨m, h1, h2⟩

theorem unionStackPos_spec {c : Cfg} {h s off : Nat} (e : unionStackPos c h = some (s, off)) :
    ∃ us u m, c.unionStacks[s]? = some us ∧ u ∈ us ∧ c.unions[u]? = some m ∧ m[off]? = some h := by
  unfold unionStackPos at e
  simp only [Option.bind_eq_bind, Option.bind_eq_some_iff, Prod.exists] at e
  obtain ⟨u, off', e1, s', e2, e3⟩ := e
  cases e3
  unfold unionPos at e1
  unfold unionStackOf at e2
  rw [Option.map_eq_some_iff] at e1 e2
  obtain ⟨⟨a1, a2, a3⟩, f1, g1⟩ := e1
  obtain ⟨⟨b1, b2, b3⟩, f2, g2⟩ := e2
  cases g1
  cases g2
  have m1 := List.mem_of_find?_eq_some f1
  have m2 := List.mem_of_find?_eq_some f2
  have q1 := List.find?_some f1
  have q2 := List.find?_some f2
  simp only [beq_iff_eq] at q1 q2
  subst q1 q2
  rw [List.mem_reverse] at m2
  obtain ⟨m, k1, k2⟩ := entries_mem m1
  obtain ⟨us, k3, k4⟩ := entries_mem m2
  exact ⟨us, _, m, k3, List.mem_of_getElem? k4, k1, k2⟩

theorem stackOf_spec {c : Cfg} {h s : Nat} (e : stackOf c h = some s) :
    ∃ m, c.hstacks[s]? = some m ∧ h ∈ m := by
  unfold stackOf at e
  rw [Option.map_eq_some_iff] at e
  obtain ⟨⟨a1, a2, a3⟩, f1, g1⟩ := e
  cases g1
  have m1 := List.mem_of_find?_eq_some f1
  have q1 := List.find?_some f1
  simp only [beq_iff_eq] at q1
  subst q1
  rw [List.mem_reverse] at m1
  obtain ⟨m, k1, k2⟩ := entries_mem m1
  exact ⟨m, k1, List.mem_of_getElem? k2⟩

theorem enableStackAll_spec {c : Cfg} {a b : ArithCfg.Set} {s : Nat} (r : enableStackAll c a s = some b) :
    (∀ e ∈ a, e ∈ b) ∧ ∀ m, c.hstacks[s]? = some m → ∀ h ∈ m, ∀ e, FieldOf c h e → e ∈ b := by
  unfold enableStackAll at r
  simp only [Option.bind_eq_bind, Option.bind_eq_some_iff] at r
  obtain ⟨m, hm, r⟩ := r
  refine ⟨foldlM_keeps enableAll_keeps m a b r, ?_⟩
  intro m' hm' h hh e he
  rw [hm] at hm'
  cases hm'
  exact foldlM_adds enableAll_keeps enableAll_adds m a b r h hh e he

theorem enableArith_spec {c : Cfg} {a b : ArithCfg.Set} {h : Nat} (r : enableArith c a h = some b) :
    (∀ e ∈ a, e ∈ b) ∧ ∀ e, FieldOf c h e → e ∈ b := by
  unfold enableArith at r
  split at r
  · rename_i s off hp
    obtain ⟨us, u, m, h1, h2, h3, h4⟩ := unionStackPos_spec hp
    unfold enableUnionStackAllAt at r
    simp only [h1, Option.bind_eq_bind, Option.bind_some] at r
    have k : ∀ (a : ArithCfg.Set) (x : Nat) (b : ArithCfg.Set),
        ((c.unions[x]?).bind fun m => (m[off]?).bind fun h => enableAll c a h) = some b →
        (∀ e ∈ a, e ∈ b) ∧ ∀ m h, c.unions[x]? = some m → m[off]? = some h → ∀ e, FieldOf c h e → e ∈ b := by
      intro a x b hr
      simp only [Option.bind_eq_some_iff] at hr
      obtain ⟨m, hm, h, hh, hr⟩ := hr
      refine ⟨enableAll_keeps a h b hr, ?_⟩
      intro m' h' hm' hh' e he
      rw [hm] at hm'
      cases hm'
      rw [hh] at hh'
      cases hh'
      exact enableAll_adds a h b hr e he
    refine ⟨foldlM_keeps (fun a x b hr => (k a x b hr).1) us a b r, ?_⟩
    intro e he
    exact foldlM_adds (Q := fun x e => ∀ m h, c.unions[x]? = some m → m[off]? = some h →
        c.unions[x]? = some m ∧ FieldOf c h e)
      (fun a x b hr => (k a x b hr).1)
      (fun a x b hr e hq => by
        have hr' := hr
        simp only [Option.bind_eq_some_iff] at hr'
        obtain ⟨m, hm, h, hh, _⟩ := hr'
        exact (k a x b hr).2 m h hm hh e (hq m h hm hh).2) us a b r u h2 e
      (fun m' h' hm' hh' => by
        rw [h3] at hm'
        cases hm'
        rw [h4] at hh'
        cases hh'
        exact ⟨h3, he⟩)
  · unfold enableArith' at r
    split at r
    · rename_i s hst
      obtain ⟨m, h1, h2⟩ := stackOf_spec hst
      obtain ⟨k1, k2⟩ := enableStackAll_spec r
      exact ⟨k1, fun e he => k2 m h1 h h2 e he⟩
    · exact ⟨enableAll_keeps a h b r, enableAll_adds a h b r⟩

theorem enableArithField_spec {c : Cfg} {a b : ArithCfg.Set} {h o : Nat}
    (r : enableArithField c a h o = some b) : (∀ e ∈ a, e ∈ b) ∧ (h, o) ∈ b := by
  unfold enableArithField at r
  split at r
  · rename_i s off hp
    obtain ⟨us, u, m, h1, h2, h3, h4⟩ := unionStackPos_spec hp
    unfold enableUnionStackField at r
    simp only [h1, Option.bind_eq_bind, Option.bind_some] at r
    have k : ∀ (a : ArithCfg.Set) (x : Nat) (b : ArithCfg.Set),
        ((c.unions[x]?).bind fun m => (m[off]?).bind fun h => enableField c a h o) = some b →
        (∀ e ∈ a, e ∈ b) ∧ ∀ e, (∃ m h, c.unions[x]? = some m ∧ m[off]? = some h ∧ e = (h, o)) → e ∈ b := by
      intro a x b hr
      simp only [Option.bind_eq_some_iff] at hr
      obtain ⟨m, hm, h, hh, hr⟩ := hr
      refine ⟨(enableField_keeps a h o b hr).1, ?_⟩
      rintro e ⟨m', h', hm', hh', rfl⟩
      rw [hm] at hm'
      cases hm'
      rw [hh] at hh'
      cases hh'
      exact (enableField_keeps a h o b hr).2
    exact ⟨foldlM_keeps (fun a x b hr => (k a x b hr).1) us a b r,
      foldlM_adds (fun a x b hr => (k a x b hr).1) (fun a x b hr => (k a x b hr).2) us a b r u h2 _
        ⟨m, h, h3, h4, rfl⟩⟩
  · unfold enableArithField' at r
    split at r
    · rename_i s hst
      obtain ⟨m, h1, h2⟩ := stackOf_spec hst
      unfold enableStackField at r
      simp only [h1, Option.bind_eq_bind, Option.bind_some] at r
      exact ⟨foldlM_keeps (fun a x b hr => (enableField_keeps a x o b hr).1) m a b r,
        foldlM_adds (Q := fun x e => e = (x, o)) (fun a x b hr => (enableField_keeps a x o b hr).1)
          (fun a x b hr e he => he ▸ (enableField_keeps a x o b hr).2) m a b r h h2 _ rfl⟩
    · exact enableField_keeps a h o b r

theorem enableParam_spec {c : Cfg} (a : ArithCfg.Set) (q : Param) (b : ArithCfg.Set)
    (r : enableParam c a q = some b) : (∀ e ∈ a, e ∈ b) ∧
      ((∀ u, q ≠ .union u) → (∀ h o, q ≠ .field h o) → ∀ h ∈ q.headers c, ∀ e, FieldOf c h e → e ∈ b) := by
  cases q with
  | header h =>
    obtain ⟨h1, h2⟩ := enableArith_spec r
    refine ⟨h1, fun _ _ h' hh => ?_⟩
    simp only [Param.headers, List.mem_singleton] at hh
    exact hh ▸ h2
  | field h o => exact ⟨(enableArithField_spec r).1, fun _ h2 => absurd rfl (h2 h o)⟩
  | headerStack s =>
    obtain ⟨h1, h2⟩ := enableStackAll_spec r
    refine ⟨h1, fun _ _ h hh e he => ?_⟩
    simp only [Param.headers] at hh
    cases hm : c.hstacks[s]? with
    | none => rw [hm] at hh; simp at hh
    | some m => rw [hm] at hh; exact h2 m hm h hh e he
  | union u => cases r; exact ⟨fun e he => he, fun h1 _ => absurd rfl (h1 u)⟩
  | unionStack s =>
    change enableUnionStackAll c a s = some b at r
    unfold enableUnionStackAll at r
    simp only [Option.bind_eq_bind, Option.bind_eq_some_iff] at r
    obtain ⟨us, hus, r⟩ := r
    have k : ∀ (a : ArithCfg.Set) (x : Nat) (b : ArithCfg.Set),
        ((c.unions[x]?).bind fun m => m.foldlM (enableAll c) a) = some b →
        (∀ e ∈ a, e ∈ b) ∧ ∀ e, (∃ h ∈ (c.unions[x]?).getD [], FieldOf c h e) → e ∈ b := by
      intro a x b hr
      simp only [Option.bind_eq_some_iff] at hr
      obtain ⟨m, hm, hr⟩ := hr
      refine ⟨foldlM_keeps enableAll_keeps m a b hr, ?_⟩
      rintro e ⟨h, hh, he⟩
      rw [hm] at hh
      exact foldlM_adds enableAll_keeps enableAll_adds m a b hr h hh e he
    refine ⟨foldlM_keeps (fun a x b hr => (k a x b hr).1) us a b r, ?_⟩
    intro _ _ h hh e he
    simp only [Param.headers, hus, Option.getD_some, List.mem_flatMap] at hh
    obtain ⟨u, hu, hh⟩ := hh
    exact foldlM_adds (fun a x b hr => (k a x b hr).1) (fun a x b hr => (k a x b hr).2) us a b r u hu e
      ⟨h, hh, he⟩

/-- **C92** (partial): when a configuration has been loaded, all fields of all headers named by a
parameter that is a header, a stack of headers or a stack of unions take part in arithmetic.  Missing:
parameters that are unions, for which the claim is false (`Ex.C92_refuted_union`). -/
theorem C92_arith_partial {c : Cfg} {ps : List Param} {a : ArithCfg.Set} (r : load c ps = some a)
    {q : Param} (hq : q ∈ ps) (hu : ∀ u, q ≠ .union u) (hf : ∀ h o, q ≠ .field h o)
    {h o n : Nat} (hh : h ∈ q.headers c) (hn : c.nfields[h]? = some n) (ho : o < n) : (h, o) ∈ a :=
  foldlM_adds (Q := fun q e => (∀ u, q ≠ .union u) ∧ (∀ h o, q ≠ .field h o) ∧
      ∃ h ∈ q.headers c, FieldOf c h e)
    (fun a q b r => (enableParam_spec a q b r).1)
    (fun a q b r e he => by
      obtain ⟨h1, h2, h, hh, he⟩ := he
      exact (enableParam_spec a q b r).2 h1 h2 h hh e he) ps [] a r q hq (h, o)
    ⟨hu, hf, h, hh, rfl, n, hn, ho⟩

/-- **C92**: a field that is a parameter takes part in arithmetic. -/
theorem C92_arith_field {c : Cfg} {ps : List Param} {a : ArithCfg.Set} (r : load c ps = some a)
    {h o : Nat} (hq : Param.field h o ∈ ps) : (h, o) ∈ a :=
  foldlM_adds (Q := fun q e => q = Param.field e.1 e.2)
    (fun a q b r => (enableParam_spec a q b r).1)
    (fun a q b r e he => by
      subst he
      exact (enableArithField_spec r).2) ps [] a r _ hq (h, o) rfl

end

namespace Ex

open ArithCfg

/-- Two unions with a header of 8 and a header of 16 bits each; then two headers of their own, two
stacks of headers and two stacks of unions. -/
def cfg : Cfg where
  nfields := [2, 2, 2, 2, 2, 2]
  unions := [[0, 1], [2, 3]]
  hstacks := [[4], [5]]
  unionStacks := [[0], [1]]

/-- The types of the headers. -/
def types : List (Nat × List Nat) := [(0, [8]), (1, [16]), (0, [8]), (1, [16]), (0, [8]), (0, [8])]

/-- The configuration of the vector, for a set of fields. -/
def config (a : ArithCfg.Set) : Phv.Config where
  headers := (makeHeaders a types).getD []
  unions := cfg.unions
  hstacks := cfg.hstacks
  unionStacks := cfg.unionStacks

/-- Load the parameters, extract header 3 (in the second union) and header 5, run an operation. -/
def run (ps : List Param) (rz : Bool) (o : Phv.Op) : Option Phv := do
  let p ← (config (← load cfg ps)).initial.extract 3 [0xab, 0xcd] 0
  (← p.extract 5 [0x77] 0).exec rz false o

/-- What a header is deparsed to, if it is valid. -/
def out (p : Option Phv) (h : Nat) : Option Bytes := do
  let x ← (← p).headers[h]?
  if x.isValid then x.deparse (List.replicate x.nbytesPacket 0) else none

/-- `u0 = u1` for unions that are parameters: the member of `u0` is valid, but holds zeros. -/
theorem C92_refuted_union :
    out (run [.union 0, .union 1] false (.assignUnion 0 1)) 3 = some [0xab, 0xcd] ∧
    out (run [.union 0, .union 1] false (.assignUnion 0 1)) 1 = some [0, 0] := by decide +kernel

/-- The same unions as elements of stacks, or the same header as a parameter of its own: it is copied. -/
theorem C92_copied :
    out (run [.unionStack 0, .unionStack 1] false (.assignUnion 0 1)) 1 = some [0xab, 0xcd] ∧
    out (run [.unionStack 0, .unionStack 1] false (.assignUnionStack 0 1)) 1 = some [0xab, 0xcd] ∧
    out (run [.header 1, .header 3] false (.assignHeader 1 3)) 1 = some [0xab, 0xcd] ∧
    out (run [.header 1, .header 3] false (.assignHeader 1 3)) 3 = some [0xab, 0xcd] ∧
    out (run [.headerStack 0, .headerStack 1] true (.assignHeaderStack 0 1)) 4 = some [0x77] := by
  decide +kernel

/-- Comparing the members of unions that are operands of an expression fails an assertion. -/
theorem C92_refuted_compare :
    (do
      let p ← run [.union 0, .union 1] false (.assignUnion 0 1)
      (← p.headers[1]?).cmp (← p.headers[3]?)) = none := by decide +kernel

/-- Headers 0 and 1 of one type in one union, header 1 is valid. -/
def one : Option Phv := do
  let hs ← makeHeaders [(0, 0), (0, 1), (1, 0), (1, 1)] [(0, [8]), (0, [8])]
  (Phv.Config.initial ⟨hs, [[0, 1]], [], []⟩).extract 1 [0xab] 0

/-- Assigning a member to another one of the same union: the source is invalidated before it is read, so
that zero is copied if reading from invalid headers gives zero. -/
theorem C92_refuted_same_union :
    out one 1 = some [0xab] ∧
    out (do (← one).exec true false (.assignHeader 0 1)) 0 = some [0] ∧
    out (do (← one).exec false false (.assignHeader 0 1)) 0 = some [0xab] := by decide +kernel

instance (f : Field) : Decidable f.Shape :=
  decidable_of_iff (f.nbytes = (f.nbits + 7) / 8 ∧ f.bytes.length = f.nbytes ∧ f.mask = 2 ^ f.nbits - 1 ∧
    f.max = f.kind.highest ∧ f.min = f.kind.lowest ∧ (f.isSigned = true → 1 < f.nbits))
    ⟨fun ⟨a, b, c, d, e, f⟩ => ⟨a, b, c, d, e, f⟩, fun ⟨a, b, c, d, e, f⟩ => ⟨a, b, c, d, e, f⟩⟩

instance (w : Nat) (v : Int) (l : Bytes) : Decidable (IsBytesOf w v l) := by
  unfold IsBytesOf; infer_instance

instance (f : Field) : Decidable (Whole f) :=
  decidable_of_iff (f.Shape ∧ f.kind.lowest ≤ f.value ∧ f.value < 2 ^ f.nbits ∧
    (f.isSaturating = true → f.value ≤ f.kind.highest) ∧ IsBytesOf f.nbits f.value f.bytes)
    ⟨fun ⟨a, b, c, d, e⟩ => ⟨a, b, c, d, e⟩, fun ⟨a, b, c, d, e⟩ => ⟨a, b, c, d, e⟩⟩

/-- The vector after both headers have been extracted, all fields taking part in arithmetic. -/
def start : Phv.Config := config ((load cfg [.unionStack 0, .unionStack 1, .header 4, .header 5]).getD [])

/-- See `start`. -/
def parsed : Option Phv := do (← start.initial.extract 3 [0xab, 0xcd] 0).extract 5 [0x77] 0

theorem parsed_isSome : parsed.isSome = true := by decide +kernel

/-- See `start`. -/
def phv : Phv := parsed.get parsed_isSome

theorem start_ok : start.Ok := by
  refine ⟨?_, ?_, ?_, ?_, ?_⟩
  · decide +kernel
  · decide +kernel
  · intro h hh
    have : h < 4 := by
      have h1 : ∀ k ∈ start.unions.flatten, k < 4 := by decide +kernel
      exact h1 h hh
    have h2 : ∀ k : Fin 4, (start.headers[k.1]?).map (·.metadata) = some false := by decide +kernel
    have h3 := h2 ⟨h, this⟩
    rw [Option.map_eq_some_iff] at h3
    exact h3
  · decide +kernel
  · decide +kernel

theorem phv_reach : Phv.Reach false false start phv := by
  have e : parsed = some phv := by unfold phv; simp
  unfold parsed at e
  simp only [Option.bind_eq_bind, Option.bind_eq_some_iff] at e
  obtain ⟨p1, e1, e2⟩ := e
  exact .step p1 phv (.extract 5 [0x77] 0) (.step start.initial p1 (.extract 3 [0xab, 0xcd] 0) .start e1) e2

theorem phv_sound : Sound phv := by
  refine ⟨(phv_reach.inv start_ok).1, by decide +kernel, by decide +kernel, ?_, by decide +kernel⟩
  have key : ∀ x ∈ phv.headers, ((x.fields.map sig).dropLast.all fun t => !t.hidden) = true ∧
      x.fields.map sig = (x.fields.map sig).dropLast ++ [validSig] := by decide +kernel
  intro x hx
  obtain ⟨h1, h2⟩ := key x hx
  refine ⟨(x.fields.map sig).dropLast, ?_, h2⟩
  intro t ht
  have := List.all_eq_true.1 h1 t ht
  simpa using this

/-- Header 5 is a source; so are the members of the second union. -/
theorem phv_sources : ∀ y ∈ phv.headers, y.isValid = true →
    (∀ f ∈ y.fields, Whole f) ∧ ((Header.visible y.fields).map (·.nbits)).sum % 8 = 0 := by decide +kernel

theorem phv_fits (a b : Nat) (h : (phv.headers[a]?).isSome ∧ (phv.headers[b]?).isSome ∧
    (phv.headers[a]?).map (·.typeId) = (phv.headers[b]?).map (·.typeId)) : Fits phv a b := by
  obtain ⟨h1, h2, h3⟩ := h
  obtain ⟨x, hx⟩ := Option.isSome_iff_exists.1 h1
  obtain ⟨y, hy⟩ := Option.isSome_iff_exists.1 h2
  rw [hx, hy] at h3
  exact ⟨x, y, hx, hy, by simpa using h3, phv_sources y (List.mem_of_getElem? hy)⟩

/-- The hypotheses of the theorems hold here: header 4 gets header 5. -/
theorem C92_case_header : ∃ p' x', Phv.exec true false phv (.assignHeader 4 5) = some p' ∧
    p'.headers[4]? = some x' ∧ x'.valid = true ∧ ∃ y, phv.headers[5]? = some y ∧ Copied x' y := by
  obtain ⟨x, y, hx, hy, ht, hsrc⟩ := phv_fits 4 5 (by decide +kernel)
  have hv : y.isValid = true := by
    have h : (phv.headers[5]?).map (·.isValid) = some true := by decide +kernel
    rw [hy] at h
    simpa using h
  obtain ⟨p', x', r, _, h1, h2, _⟩ := C92_header (rz := true) phv_sound hx hy ht (by decide) (by
    rintro ⟨u, i, j, h1, _⟩
    have : phv.memb[4]? = some none := by decide +kernel
    rw [this] at h1
    cases h1) hsrc
  exact ⟨p', x', r, h1, h2.1.trans hv, y, hy, h2.2 hv⟩

theorem phv_fitsU : FitsU phv 0 1 := by
  refine ⟨[0, 1], [2, 3], by decide +kernel, by decide +kernel, ?_⟩
  exact .cons (phv_fits 0 2 (by decide +kernel)) (.cons (phv_fits 1 3 (by decide +kernel)) .nil)

/-- The first union gets the second, which has a valid member. -/
theorem C92_case_union : (∃ p', Phv.exec true false phv (.assignUnion 0 1) = some p' ∧ DoneU phv p' 0 1 ∧
    ∃ X : HUnion, p'.unions[0]? = some X ∧ X.valid = true ∧ X.idx = 1) := by
  obtain ⟨p', r, _, d, ⟨X, Y, h1, h2, h3, h4⟩, _⟩ := C92_union (rz := true) phv_sound (by decide) phv_fitsU
  have h : phv.unions[1]? = some ⟨[2, 3], true, 1⟩ := by decide +kernel
  rw [h] at h2
  cases h2
  exact ⟨p', r, d, X, h1, h3, h4 rfl⟩

/-- The stacks. -/
theorem C92_case_stacks :
    (∃ p', Phv.exec true false phv (.assignHeaderStack 0 1) = some p' ∧ Done phv p' 4 5) ∧
    (∃ p', Phv.exec true false phv (.assignUnionStack 0 1) = some p' ∧ DoneU phv p' 0 1) := by
  constructor
  · obtain ⟨p', r, _, _, _, d, _⟩ := C92_header_stack (rz := true) (p := phv) phv_sound (d := 0) (s := 1)
      (D := ⟨[4], 0⟩) (S := ⟨[5], 0⟩) (by decide +kernel) (by decide +kernel) (by decide) (by decide)
      (.cons (phv_fits 4 5 (by decide +kernel)) .nil)
    cases d with
    | cons d _ => exact ⟨p', r, d⟩
  · obtain ⟨p', r, _, _, _, d, _⟩ := C92_union_stack (rz := true) (p := phv) phv_sound (d := 0) (s := 1)
      (D := ⟨[0], 0⟩) (S := ⟨[1], 0⟩) (by decide +kernel) (by decide +kernel) (by decide)
      (.cons phv_fitsU .nil)
    cases d with
    | cons d _ => exact ⟨p', r, d⟩

end Ex

end Bm.Assign
