import Verif.Lemmas.ThriftProfReq

/-! # Each request about a table with an action profile -/

namespace Bm.Thrift
open Bm.Spec Bm.Thrift.Spec

variable {n : Nat} {R : Type}

section
variable {d : PDecl n} {kb : Fin n → KeyB} {st : (ctxOf d kb).Sys R} {s : CState n} {L : Ref → Nat}

/-! ## Presenting entries -/

theorem showRef_ok {ws : Bool} {r : Ref} (h : refId r < 2 ^ 24) (hw : ws = false → ∀ g, r ≠ .grp g) :
    PCtx.showRef ws (encRef r) = some r := by
  have h1 := IIdx.isMbr_enc r h
  have h2 := IIdx.isGrp_enc r h
  have h3 := IIdx.get_enc r h
  cases r with
  | mbr m =>
    simp only at h1 h2
    simp only [refId] at h h3
    cases ws
    · simp [PCtx.showRef, IIdx.getMbr, h1, h3]
    · have : m < 2 ^ 32 - 1 := by omega
      simp only [PCtx.showRef, h1, h3, if_true]
      show some (if m < 2 ^ 32 - 1 then Ref.mbr m else Ref.grp (2 ^ 32 - 1)) = _
      rw [if_pos this]
  | grp g =>
    simp only at h1 h2
    simp only [refId] at h h3
    cases ws
    · exact absurd rfl (hw rfl g)
    · have : ¬ 2 ^ 32 - 1 < g := by omega
      simp only [PCtx.showRef, h1, IIdx.getGrp, h2, h3, if_true]
      show some (if 2 ^ 32 - 1 < g then Ref.mbr (2 ^ 32 - 1) else Ref.grp g) = _
      rw [if_neg this]

theorem refAllowed_not {t : ITDecl} {r : Ref} (h : RefAllowed t r) : t.ws = false → ∀ g, r ≠ .grp g := by
  rintro hw g rfl
  simp only [RefAllowed] at h
  rw [hw] at h; cases h

theorem showEntryI_ok (w : Spec.PDecl.WF d) (laws : ∀ i, KeyLaws (keysOf (d.tab i)) (kb i)) (i : Fin n) {k key r}
    (h1 : ParamsOk (d.tab i).fs k.1) (h2 : VBits k.1) (h3 : built d kb i k = some (some key)) (hr : refId r < 2 ^ 24)
    (hw : RefAllowed (d.tab i) r) (x : Nat) :
    ∃ b, (ctxOf d kb).showEntry i x key (encRef r) = some b ∧ b.handle = x ∧ IShows (d.tab i) (k, r) b := by
  obtain ⟨key', e1, -, ps', e2, hb⟩ := (laws i).good _ k.2 h1
  have e1' : some (some key) = some (some key') := h3.symm.trans e1
  cases e1'
  refine ⟨⟨ps'.map retrieveParam, x, if Kind.hasPrio (d.tab i).kind then k.2 else -1, some r⟩, ?_, rfl, ?_, ?_, rfl, rfl⟩
  · have e3 := showRef_ok (ws := (d.tab i).ws) hr (refAllowed_not hw)
    have e2' : backKey ((ctxOf d kb).kd i) ((ctxOf d kb).kb i) ((ctxOf d kb).kb i).nbytesKey key = _ := e2
    unfold PCtx.showEntry
    rw [e2']
    show (do let r ← PCtx.showRef (d.tab i).ws (encRef r); _) = _
    rw [e3]
    rfl
  · show (ps'.map retrieveParam).length = _
    rw [List.length_map]; exact hb.1
  · intro j f p p' hf hp hp'
    simp only [List.getElem?_map, Option.map_eq_some_iff] at hp'
    obtain ⟨q, hq, rfl⟩ := hp'
    have hrb := hb.2 j f p q hf hp hq
    have hf' : f ∈ (d.tab i).fs := List.mem_of_getElem? hf
    rw [retrieve_means (w.fields i f hf').2.2 (h1.2 j f p hf hp).1 (h2 p (List.mem_of_getElem? hp)) hrb]
    exact hrb

/-- Reading one entry. -/
theorem getEntry_ok (w : Spec.PDecl.WF d) (laws : ∀ i, KeyLaws (keysOf (d.tab i)) (kb i)) (h : Rel d kb st s L)
    (i : Fin n) (x : Nat) :
    (∃ e key w b, s.tab i x = some e ∧ (st.tabs i).mu.getEntry x = some (.success, some (key, w)) ∧
      (ctxOf d kb).showEntry i x key w = some b ∧ b.handle = x ∧ IShows (d.tab i) e b) ∨
    (s.tab i x = none ∧ ∃ c, (st.tabs i).mu.getEntry x = some (c, none) ∧ (c = .invalidHandle ∨ c = .expiredHandle)) := by
  obtain ⟨sc, Sm, Sg, hrep, hcfg, hsim, hinv⟩ := h
  rcases (hrep.tabs i).getEntry x with ⟨key, r, e1, hr, e2⟩ | ⟨e1, c, e2, hc⟩
  · obtain ⟨k, e3, h1, h2, h3⟩ := (hsim.tab i).toC e1
    obtain ⟨b, e4, h4, h5⟩ := showEntryI_ok w laws i h1 h2 h3 hr (hinv.tab i x k r e3) x
    exact .inl ⟨_, key, _, b, e3, e2, e4, h4, h5⟩
  · exact .inr ⟨(hsim.tab i).free.1 e1, c, e2, hc⟩

theorem staleExc_ok (h : Rel d kb st s L) (i : Fin n) (x : Nat) :
    ∃ e, (ctxOf d kb).staleExc st i x = some e ∧ (PExc.why e = some (.table .stale) ∨ (s.tab i x).isSome = true) := by
  obtain ⟨sc, Sm, Sg, hrep, hcfg, hsim, hinv⟩ := h
  rcases (hrep.tabs i).getEntry x with ⟨key, r, e1, hr, e2⟩ | ⟨e1, c, e2, hc⟩
  · obtain ⟨k, e3, -⟩ := (hsim.tab i).toC e1
    exact ⟨_, by unfold PCtx.staleExc; rw [e2]; rfl, .inr (by rw [e3]; rfl)⟩
  · refine ⟨(PCtx.codeExc c).getD .error, by unfold PCtx.staleExc; rw [e2]; rfl, .inl ?_⟩
    rcases hc with rfl | rfl <;> rfl

theorem withRef_ok (h : Rel d kb st s L) (i : Fin n) (r : Ref) (k : Option (PRes × (ctxOf d kb).Sys R))
    {ok} {b : Nat} {Q : CState n → (Ref → Nat) → PRes → Prop}
    (hk : RefAllowed (d.tab i) r → Answered d kb L k ok b Q) :
    Answered d kb L ((ctxOf d kb).withRef st i r k) ok b fun s' L' x =>
      WithRef (d.tab i) r (s' = s ∧ L' = L) x (Q s' L' x) := by
  have good : RefAllowed (d.tab i) r → Answered d kb L k ok b fun s' L' x =>
      WithRef (d.tab i) r (s' = s ∧ L' = L) x (Q s' L' x) :=
    fun hr => (hk hr).mono (fun _ x => x) (Nat.le_refl _) (fun _ _ _ hq => .inl ⟨hr, hq⟩)
  cases r with
  | mbr m => exact good trivial
  | grp g =>
    unfold PCtx.withRef
    show Answered d kb L (if (d.tab i).ws then k else some (.exc .wrongTableType, st)) _ _ _
    by_cases hw : (d.tab i).ws = true
    · rw [if_pos hw]; exact good hw
    · rw [if_neg hw]
      exact ⟨_, st, rfl, fun _ => ⟨s, L, h, .inr ⟨hw, ⟨rfl, rfl⟩, _, rfl, rfl⟩, fun _ => Nat.le_add_right _ _⟩⟩

/-- The key of a request. -/
theorem reqKeyI (laws : ∀ i, KeyLaws (keysOf (d.tab i)) (kb i)) (i : Fin n) (ps : List TParam) (prio : Int) :
    ∃ key : Option ((ctxOf d kb).kind i).K, buildKey ((ctxOf d kb).kd i) ((ctxOf d kb).kb i) ((ctxOf d kb).kb i).nbytesKey
        (ps.map buildParam) prio = some key ∧
      ((key = none ∧ ¬ ParamsOk (d.tab i).fs (ps.map TParam.means)) ∨
       ∃ k, key = some k ∧ ParamsOk (d.tab i).fs (ps.map TParam.means) ∧ ((ctxOf d kb).kind i).spec.okK k ∧
        built d kb i (ps.map TParam.means, prio) = some (some k)) := by
  rw [map_buildParam]
  by_cases hp : ParamsOk (d.tab i).fs (ps.map TParam.means)
  · obtain ⟨key, e1, h1, -⟩ := (laws i).good _ prio hp
    exact ⟨some key, e1, .inr ⟨key, rfl, hp, h1, e1⟩⟩
  · exact ⟨none, (laws i).bad _ prio hp, .inl ⟨rfl, hp⟩⟩

theorem mapM_entries (w : Spec.PDecl.WF d) (laws : ∀ i, KeyLaws (keysOf (d.tab i)) (kb i)) (h : Rel d kb st s L)
    (i : Fin n) : ∀ l : List Nat, (∀ x ∈ l, (s.tab i x).isSome = true) →
      ∃ bs, l.mapM ((ctxOf d kb).entryOf st i) = some bs ∧ bs.map IEntry.handle = l ∧
        ∀ b ∈ bs, ∃ e, s.tab i b.handle = some e ∧ IShows (d.tab i) e b
  | [], _ => ⟨[], rfl, rfl, by simp⟩
  | x :: l, hl => by
    obtain ⟨bs, e1, h1, h2⟩ := mapM_entries w laws h i l (fun y hy => hl y (by simp [hy]))
    rcases getEntry_ok w laws h i x with ⟨e, key, wd, b, e2, e3, e4, h3, h4⟩ | ⟨e2, -⟩
    · refine ⟨b :: bs, ?_, by simp [h1, h3], ?_⟩
      · have : (ctxOf d kb).entryOf st i x = some b := by
          unfold PCtx.entryOf; rw [e3]; exact e4
        simp [List.mapM_cons, this, e1]
      · intro c hc
        rcases List.mem_cons.1 hc with rfl | hc
        · exact ⟨e, by rw [h3]; exact e2, h4⟩
        · exact h2 c hc
    · have := hl x (by simp)
      rw [e2] at this; cases this

theorem count_ok (h : Rel d kb st s L) (i : Fin n) :
    ∃ l, (st.tabs i).mu.handleList = some l ∧ l.length = (st.tabs i).mu.numEntries ∧ Live (s.tab i) l := by
  obtain ⟨sc, Sm, Sg, hrep, hcfg, hsim, hinv⟩ := h
  obtain ⟨E, hm, hT, hw, hd⟩ := hrep.tabs i
  obtain ⟨out, mu', E', e, hst⟩ := hm.exec .handles trivial
  obtain ⟨-, l, hl, ho⟩ := hst.spec
  obtain ⟨l', e1, e2⟩ := Option.map_eq_some_iff.1 e
  simp only [ho, Prod.mk.injEq, TOut.handles.injEq] at e2
  obtain ⟨rfl, -⟩ := e2
  obtain ⟨l2, hl2, hn2⟩ := hm.live_count
  have hlen : l'.length = l2.length := by
    apply List.Perm.length_eq
    rw [List.perm_ext_iff_of_nodup hl.1 hl2.1]
    intro a; rw [hl.2, hl2.2]
  refine ⟨l', e1, by rw [hlen, hn2], ?_⟩
  have h3 : Live (sc.tab i) l' := by rw [hT]; exact (live_mapT l').2 hl
  exact (hsim.tab i).live.1 h3

theorem default_ok (h : Rel d kb st s L) (i : Fin n) : (ctxOf d kb).getDefault st i = some (s.dflt i) := by
  obtain ⟨sc, Sm, Sg, hrep, hcfg, hsim, hinv⟩ := h
  obtain ⟨E, hm, hT, hw, hd⟩ := hrep.tabs i
  rw [hsim.dflt] at hd
  unfold PCtx.getDefault
  rcases hd with ⟨h1, h2⟩ | ⟨r, h1, hr, h3, h4⟩
  · rw [h1, h2]; rfl
  · rw [h1, h3, h4]
    show (PCtx.showRef (d.tab i).ws (encRef r)).map some = _
    rw [showRef_ok hr (refAllowed_not (hinv.dflt i r h4))]
    rfl

theorem sub_lt_of {a b c e : Int} (h : a - b = c - e) (h' : a < b) : c < e := by omega

theorem sub_eq_of {a b c e : Int} (h : a - b = c - e) (h' : a = b) : c = e := by omega

theorem CSim.chosen {sc : KState d kb} (h : CSim d kb sc s) (hash : Nat) (r : Ref) (x) :
    sc.Chosen hash r x ↔ s.Chosen hash r x := by
  cases r <;> simp [PState.Chosen, h.mem, h.grp]

variable (w : Spec.PDecl.WF d) (laws : ∀ i, KeyLaws (keysOf (d.tab i)) (kb i)) (hn : PRepL.Room (Fin n) L)
include w laws hn

omit w hn in
theorem packet_ok (h : Rel d kb st s L) (i : Fin n) (vals : List Bytes) (hv : ValuesOk (d.tab i).fs vals)
    (nb ts hash : Nat) : Answered d kb L ((ctxOf d kb).tabExec st i (.packet vals nb ts hash)) (fun _ => True) 0
      fun s' L' r => Spec.TabStep d i s L (.packet vals nb ts hash) s' L' r := by
  obtain ⟨sc, Sm, Sg, hrep, hcfg, hsim, hinv⟩ := h
  obtain ⟨q, eq, hq, hm⟩ := (laws i).query vals hv
  obtain ⟨out, st', e, sc', Sm', Sg', hrep', ⟨rfl, o, hst, ho⟩, hcfg'⟩ := hrep.tLookup i q nb ts hash hq
  obtain ⟨-, hst⟩ := hst
  have hmiss : (∀ x k v, sc'.tab i x = some (k, v) → ¬ ((ctxOf d kb).kind i).spec.m q k) →
      ∀ x e, s.tab i x = some e → ¬ AllMatch paddedWidth (d.tab i).fs e.1.1 vals := by
    intro hno x e he hall
    obtain ⟨key, ht, h1, h2, h3⟩ := (hsim.tab i).toK he
    exact hno _ _ _ ht ((hm _ _ _ h1 h3).2 hall)
  have fin : ∀ hit x, out = .look hit x → (((∀ y e, s.tab i y = some e → ¬ AllMatch paddedWidth (d.tab i).fs e.1.1 vals) ∧
        ((s.dflt i = none ∧ (PRes.look hit x : PRes) = .look none .builtin) ∨
         ∃ ref z, s.dflt i = some ref ∧ s.Chosen hash ref z ∧ (PRes.look hit x : PRes) = .look none z)) ∨
     ∃ y e z, IWins (d.tab i) (s.tab i) vals y e ∧ s.Chosen hash e.2 z ∧ (PRes.look hit x : PRes) = .look (some y) z) →
     Answered d kb L ((ctxOf d kb).tabExec st i (.packet vals nb ts hash)) (fun _ => True) 0
      fun s' L' r => Spec.TabStep d i s L (.packet vals nb ts hash) s' L' r := by
    intro hit x hout hP
    refine ⟨.look hit x, st', ?_, fun _ => ⟨s, L, ⟨_, Sm', Sg', hrep', hcfg'.trans hcfg, hsim, hinv⟩,
      ⟨⟨rfl, rfl⟩, hP⟩, fun _ => Nat.le_add_right _ _⟩⟩
    simp only [PCtx.tabExec, PCtx.packet, Option.bind_eq_bind]
    rw [show ((ctxOf d kb).kb i).packetKey vals = some q from eq]
    simp only [Option.bind_some]
    rw [e, hout]; rfl
  rcases ho with ⟨rfl, hd, hout⟩ | ⟨r, res, rfl, hd, hch, hout⟩ | ⟨x, r, res, rfl, hch, hout⟩
  · rcases hst with ⟨-, hno⟩ | ⟨h', k, v, h1, -⟩
    · exact fin _ _ hout (.inl ⟨hmiss hno, .inl ⟨by rw [← hsim.dflt]; exact hd, rfl⟩⟩)
    · cases h1
  · rcases hst with ⟨-, hno⟩ | ⟨h', k, v, h1, -⟩
    · exact fin _ _ hout (.inl ⟨hmiss hno, .inr ⟨r, res, by rw [← hsim.dflt]; exact hd, (hsim.chosen _ _ _).1 hch, rfl⟩⟩)
    · cases h1
  · rcases hst with ⟨h1, -⟩ | ⟨h', key, v, h1, hT, hmk, hbest⟩
    · cases h1
    · cases h1
      obtain ⟨k, e1, h1, h2, h3⟩ := (hsim.tab i).toC hT
      refine fin _ _ hout (.inr ⟨x, (k, r), res, ⟨e1, (hm _ _ _ h1 h3).1 hmk, ?_⟩, (hsim.chosen _ _ _).1 hch, rfl⟩)
      intro y e2' he2 hall
      obtain ⟨key2, ht2, g1, g2, g3⟩ := (hsim.tab i).toK he2
      have hp := (laws i).prio _ _ _ _ h1 g1 h3 g3
      rcases hbest y _ _ ht2 ((hm _ _ _ g1 g3).2 hall) with hlt | ⟨heq, hsl⟩
      · left
        have hlt' : ((keysOf (d.tab i)).kind.tk (kb i).nbytesKey).spec.prio key <
          ((keysOf (d.tab i)).kind.tk (kb i).nbytesKey).spec.prio key2 := hlt
        exact sub_lt_of hp hlt'
      · right
        have heq' : ((keysOf (d.tab i)).kind.tk (kb i).nbytesKey).spec.prio key =
          ((keysOf (d.tab i)).kind.tk (kb i).nbytesKey).spec.prio key2 := heq
        exact ⟨sub_eq_of hp heq', hsl⟩

omit hn in
theorem getByKey_ok (h : Rel d kb st s L) (i : Fin n) (ps : List TParam) (hne : ps ≠ []) (prio : Int) :
    Answered d kb L ((ctxOf d kb).tabExec st i (.getByKey ps prio)) (fun _ => True) 0
      fun s' L' r => Spec.TabStep d i s L (.getByKey ps prio) s' L' r := by
  obtain ⟨key, ek, hkey⟩ := reqKeyI laws i ps prio
  have badc : (st.tabs i).mu.retrieveHandle key = some (.badMatchKey, 0) →
      (ParamsOk (d.tab i).fs (ps.map TParam.means) → ∀ x e, s.tab i x = some e →
        ¬ SameKey (keysOf (d.tab i)) e.1 (ps.map TParam.means, prio)) →
      Answered d kb L ((ctxOf d kb).tabExec st i (.getByKey ps prio)) (fun _ => True) 0
        fun s' L' r => Spec.TabStep d i s L (.getByKey ps prio) s' L' r := by
    intro e1 hno
    refine h.read (r := .exc .badMatchKey) ?_ (.inr ⟨hno, _, rfl, rfl⟩)
    simp only [PCtx.tabExec, PCtx.getByKey, if_neg hne, Option.bind_eq_bind]
    rw [ek]
    simp only [Option.bind_some]
    rw [e1]; rfl
  obtain ⟨sc, Sm, Sg, hrep, hcfg, hsim, hinv⟩ := id h
  obtain ⟨E, hm, hT, hw, hd⟩ := hrep.tabs i
  rcases hkey with ⟨rfl, hp⟩ | ⟨k, rfl, hp, hok, hb⟩
  · exact badc rfl (fun c => absurd c hp)
  · rcases hm.retrieve k hok with ⟨x, k', v', e1, hs, e2⟩ | ⟨hno, e2⟩
    · obtain ⟨r, hr, rfl⟩ := hw _ _ _ e1
      have e3 : sc.tab i x = some (k', r) := by
        rw [hT]; exact mapT_some.2 ⟨_, e1, IIdx.toRef_enc r hr⟩
      obtain ⟨ck, e4, h1, h2, h3⟩ := (hsim.tab i).toC e3
      rcases getEntry_ok w laws h i x with ⟨e, key, wd, b, e5, e6, e7, h4, h5⟩ | ⟨e5, -⟩
      · rw [e4] at e5
        cases e5
        refine h.read (r := .entry b) ?_ (.inl ⟨x, _, b, hp, e4, ?_, rfl, h4, h5⟩)
        · simp only [PCtx.tabExec, PCtx.getByKey, if_neg hne, Option.bind_eq_bind]
          rw [ek]
          simp only [Option.bind_some]
          rw [e2]
          simp only [Option.bind_some, ne_eq, not_true_eq_false, if_false]
          rw [e6]
          simp only [Option.bind_some, PCtx.replyEntry]
          rw [e7]; rfl
        · exact ((laws i).same _ (ps.map TParam.means, prio) _ _ h1 hp h3 hb).1 hs
      · rw [e4] at e5; cases e5
    · refine badc e2 (fun _ x e he hsame => hno ?_)
      have h1 : HasSame ((ctxOf d kb).kind i).spec (sc.tab i) k :=
        ((hsim.tab i).hasSame (laws i) (a := (ps.map TParam.means, prio)) hp hb).2 ⟨x, e.1, e.2, he, hsame⟩
      rw [hT] at h1
      exact (hasSame_mapT k).1 h1

/-- What a request about a table can leave behind. -/
def leftTab (d : PDecl n) (i : Fin n) : TCall → Nat
  | .add _ _ _ _ => 1
  | .clear _ => (d.tab i).size + 1
  | _ => 0

theorem tab_ok (h : Rel d kb st s L) (i : Fin n) (c : TCall)
    (hc : match c with
      | .packet vals _ _ _ => ValuesOk (d.tab i).fs vals
      | .getByKey ps _ => ps ≠ []
      | _ => True) :
    Answered d kb L ((ctxOf d kb).tabExec st i c) (Lossless (.tab (d.tab i).name c)) (leftTab d i c)
      fun s' L' r => Spec.TabStep d i s L c s' L' r := by
  cases c with
  | add ps ref prio now =>
    refine withRef_ok h i ref _ (fun hr => ?_)
    obtain ⟨key, ek, hkey⟩ := reqKeyI laws i ps prio
    rw [ek]
    simp only [Option.bind_eq_bind, Option.bind_some]
    rcases hkey with ⟨rfl, hp⟩ | ⟨k, rfl, hp, hok, hb⟩
    · exact (call_answered laws hn h (.tAddBad i ref now) hr trivial trivial false (.inl rfl)).mono
        (fun _ _ => trivial) (Nat.le_refl _) (fun _ _ _ x => ⟨none, .inr ⟨hp, rfl⟩, x⟩)
    · exact (call_answered laws hn h (.tAdd i k (ps.map TParam.means, prio) ref now hp (vbits_means ps) hb) hr hok
        trivial false (.inl rfl)).mono
        (fun _ _ => trivial) (Nat.le_refl _) (fun _ _ _ x => ⟨_, .inl ⟨hp, rfl⟩, x⟩)
  | delete x =>
    obtain ⟨z, e, hz⟩ := staleExc_ok h i x
    simp only [PCtx.tabExec]
    rw [e]
    simp only [Option.bind_eq_bind, Option.bind_some]
    refine (call_answered laws hn h (.tDel i x) trivial trivial trivial false (stale := z) ?_).mono
        (fun _ _ => trivial) (Nat.le_refl _) (fun _ _ _ x => x)
    refine hz.imp id (fun hs => ?_)
    rintro s' L' out ⟨⟨T', o, ⟨-, rfl, rfl⟩ | ⟨h1, rfl, rfl⟩, rfl, -⟩, -⟩ j hj
    · simp only [POut.tab.injEq] at hj
      obtain ⟨rfl, hj⟩ := hj
      cases hj
    · rw [h1] at hs; cases hs
  | modify x ref =>
    refine withRef_ok h i ref _ (fun hr => ?_)
    obtain ⟨z, e, hz⟩ := staleExc_ok h i x
    rw [e]
    simp only [Option.bind_eq_bind, Option.bind_some]
    refine (call_answered laws hn h (.tMod i x ref) hr trivial trivial false (stale := z) ?_).mono
        (fun r hl => ?_) (Nat.le_refl _) (fun _ _ _ x => x)
    · refine hz.imp id (fun hs => ?_)
      rintro s' L' out ⟨⟨e, -, -, rfl, -⟩ | ⟨-, T', o, ⟨k, v', -, rfl, rfl⟩ | ⟨h1, rfl, rfl⟩, rfl, -⟩, -⟩ j hj
      · cases hj
      · simp only [POut.tab.injEq] at hj
        obtain ⟨rfl, hj⟩ := hj
        cases hj
      · rw [h1] at hs; cases hs
    · cases r <;> exact hl
  | setDefault ref =>
    refine withRef_ok h i ref _ (fun hr => ?_)
    exact (call_answered laws hn h (.setDflt i ref) hr trivial trivial false (.inl rfl)).mono
        (fun _ _ => trivial) (Nat.le_refl _) (fun _ _ _ x => x)
  | resetDefault =>
    exact (call_answered laws hn h (.unsetDflt i) trivial trivial trivial false (.inl rfl)).mono
        (fun _ _ => trivial) (Nat.le_refl _) (fun _ _ _ x => x)
  | clear b =>
    exact (call_answered laws hn h (.clear i b) trivial trivial trivial false (.inl rfl)).mono
        (fun _ _ => trivial) (Nat.le_refl _) (fun _ _ _ x => x)
  | get x =>
    rcases getEntry_ok w laws h i x with ⟨e, key, wd, b, e1, e2, e3, h1, h2⟩ | ⟨e1, c, e2, hc⟩
    · refine h.read (r := .entry b) ?_ ?_
      · simp only [PCtx.tabExec, Option.bind_eq_bind]
        rw [e2]
        simp only [Option.bind_some, PCtx.replyEntry]
        rw [e3]; rfl
      · rw [e1]; exact ⟨b, rfl, h1, h2⟩
    · obtain ⟨z, hz, hz'⟩ : ∃ z, PCtx.codeExc c = some z ∧ PExc.why z = some (.table .stale) := by
        rcases hc with rfl | rfl
        · exact ⟨_, rfl, rfl⟩
        · exact ⟨_, rfl, rfl⟩
      refine h.read (r := .exc z) ?_ ?_
      · simp only [PCtx.tabExec, Option.bind_eq_bind]
        rw [e2]
        simp only [Option.bind_some, PCtx.replyEntry]
        rw [hz]; rfl
      · rw [e1]; exact ⟨z, rfl, hz'⟩
  | getByKey ps prio =>
    exact (getByKey_ok w laws h i ps hc prio).mono (fun _ _ => trivial) (Nat.le_refl _) (fun _ _ _ x => x)
  | entries =>
    obtain ⟨l, e1, h1, hl⟩ := count_ok h i
    obtain ⟨bs, e2, h2, h3⟩ := mapM_entries w laws h i l (fun x hx => (hl.2 x).1 hx)
    refine h.read (r := .entries bs) ?_ ⟨bs, rfl, by rw [h2]; exact hl, h3⟩
    simp only [PCtx.tabExec, PCtx.entries, Option.bind_eq_bind]
    rw [e1]
    simp only [Option.bind_some, if_pos h1]
    rw [e2]; rfl
  | getDefault =>
    refine h.read (r := .ref (s.dflt i)) ?_ rfl
    simp only [PCtx.tabExec]
    rw [default_ok h i]; rfl
  | count =>
    obtain ⟨l, e1, h1, hl⟩ := count_ok h i
    exact h.read (r := .num (st.tabs i).mu.numEntries) rfl ⟨l, hl, by rw [h1]⟩
  | packet vals nb ts hash =>
    exact (packet_ok laws h i vals hc nb ts hash).mono (fun _ _ => trivial) (Nat.le_refl _) (fun _ _ _ x => x)

end

end Bm.Thrift
