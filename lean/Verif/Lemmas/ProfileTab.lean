import Verif.Lemmas.ProfileStep

/-! Effect of the reading calls and of the calls on the tables of an action profile. -/

set_option linter.unusedSectionVars false

namespace Bm
open Spec

variable {ι : Type} [DecidableEq ι] [Fintype ι] {kind : ι → TableKind} {R A : Type}

namespace PRepL
variable {st : ISys ι kind R A} {s : PState ι (KeyOf kind) A} {Sm Sg : Finset Nat} {L : Ref → Nat}

/-! ## Reading -/

theorem getMember (h : PRepL st s Sm Sg L) (m : Nat) :
    ∃ out st', st.exec (.getMember m) = some (out, st') ∧ Good L st s (.getMember m) out st' := by
  by_cases hm : m ∈ Sm
  · have hl := (h.mlt m hm).1
    have he := List.getElem?_eq_getElem hl
    refine ⟨.member st.prof.entries[m], st, ?_, h.keep ⟨rfl, .inr ⟨_, ?_, rfl⟩⟩⟩
    · simp [ISys.exec, AProf.getMember, h.validMbr, hm, he]
    · rw [h.mem, if_pos hm, he]
  · refine ⟨.err .noMember, st, ?_, h.keep ⟨rfl, .inl ⟨h.mem_none hm, rfl⟩⟩⟩
    simp [ISys.exec, AProf.getMember, h.validMbr, hm]

theorem getGroup (h : PRepL st s Sm Sg L) (g : Nat) :
    ∃ out st', st.exec (.getGroup g) = some (out, st') ∧ Good L st s (.getGroup g) out st' := by
  by_cases hg : g ∈ Sg
  · obtain ⟨l, el, hsl, hgl⟩ := h.info hg
    refine ⟨.group l, st, ?_, h.keep ⟨rfl, .inr ⟨_, l, hgl, rfl, hsl, by simp⟩⟩⟩
    simp [ISys.exec, AProf.getGroup, h.validGrp, hg, el]
  · refine ⟨.err .noGroup, st, ?_, h.keep ⟨rfl, .inl ⟨h.grp_none hg, rfl⟩⟩⟩
    simp [ISys.exec, AProf.getGroup, h.validGrp, hg]

theorem getMembers (h : PRepL st s Sm Sg L) :
    ∃ out st', st.exec .getMembers = some (out, st') ∧ Good L st s .getMembers out st' := by
  obtain ⟨hs, e, hp, hmem⟩ := h.hm.iterate
  have hlen : hs.length = st.prof.numMembers := by
    rw [h.nm]
    have : hs.toFinset = Sm := by ext x; simp [hmem]
    rw [← this, List.toFinset_card_of_nodup (hp.imp (fun hab => by omega))]
  cases hsz : hs with
  | nil =>
    subst hsz
    refine ⟨.members [], st, ?_, h.keep ⟨rfl, [], rfl, by simp, ?_⟩⟩
    · simp only [ISys.exec, AProf.getMembers, e, Option.bind_eq_bind, Option.bind_some,
        if_pos hlen]; rfl
    · intro m a
      have : m ∉ Sm := by rw [← hmem]; simp
      simp [h.mem_none this]
  | cons m0 t0 =>
    have hm0 : m0 ∈ Sm := by rw [← hmem, hsz]; simp
    let a0 : A := st.prof.entries[m0]'(h.mlt m0 hm0).1
    have hmap := mapM_eq_some_map (fun m => (st.prof.entries[m]?).map fun a => (m, a))
      (fun m => (m, st.prof.entries.getD m a0)) hs (by
        intro m hm
        have hl := (h.mlt m ((hmem m).1 hm)).1
        simp [List.getElem?_eq_getElem hl])
    refine ⟨.members (hs.map (fun m => (m, st.prof.entries.getD m a0))), st, ?_,
      h.keep ⟨rfl, _, rfl, ?_, ?_⟩⟩
    · simp only [ISys.exec, AProf.getMembers, e, Option.bind_eq_bind, Option.bind_some,
        if_pos hlen, hmap]; rfl
    · rw [List.map_map]
      have : (Prod.fst ∘ fun m => (m, st.prof.entries.getD m a0)) = id := rfl
      rw [this, List.map_id]; exact hp
    · intro m a
      rw [h.mem]
      by_cases hm : m ∈ Sm
      · have hl := (h.mlt m hm).1
        rw [if_pos hm, List.getElem?_eq_getElem hl]
        simp only [List.mem_map, Prod.mk.injEq, Option.some.injEq]
        constructor
        · rintro ⟨x, _, rfl, h2⟩
          rw [← h2]; simp [List.getElem?_eq_getElem hl]
        · rintro h1
          exact ⟨m, (hmem m).2 hm, rfl, by rw [← h1]; simp [List.getElem?_eq_getElem hl]⟩
      · rw [if_neg hm]
        simp only [List.mem_map, Prod.mk.injEq, reduceCtorEq, iff_false]
        rintro ⟨x, hx, rfl, _⟩
        exact hm ((hmem x).1 hx)

theorem getGroups (h : PRepL st s Sm Sg L) :
    ∃ out st', st.exec .getGroups = some (out, st') ∧ Good L st s .getGroups out st' := by
  obtain ⟨hs, e, hp, hmem⟩ := h.hg.iterate
  have hlen : hs.length = st.prof.numGroups := by
    rw [h.ng]
    have : hs.toFinset = Sg := by ext x; simp [hmem]
    rw [← this, List.toFinset_card_of_nodup (hp.imp (fun hab => by omega))]
  have hmap := mapM_eq_some_map (fun g => (st.prof.groups[g]?).map fun l => (g, l))
    (fun g => (g, st.prof.groups.getD g [])) hs (by
      intro g hg
      have hl := (h.glt g ((hmem g).1 hg)).1
      simp [List.getElem?_eq_getElem hl])
  have hid : (Prod.fst ∘ fun g => (g, st.prof.groups.getD g [])) = id := rfl
  refine ⟨.groups (hs.map (fun g => (g, st.prof.groups.getD g []))), st, ?_,
    h.keep ⟨rfl, _, rfl, ?_, ?_, ?_⟩⟩
  · simp only [ISys.exec, AProf.getGroups, e, Option.bind_eq_bind, Option.bind_some,
      if_pos hlen, hmap]; rfl
  · rw [List.map_map, hid, List.map_id]; exact hp
  · intro g x hx
    obtain ⟨g', hg', e'⟩ := List.mem_map.1 hx
    obtain ⟨l, el, hsl, hgl⟩ := h.info ((hmem g').1 hg')
    simp only [Prod.mk.injEq] at e'
    obtain ⟨rfl, rfl⟩ := e'
    have : st.prof.groups.getD g' [] = l := by simp [el]
    rw [this]
    exact ⟨_, hgl, hsl, by simp⟩
  · intro g G hG
    rw [List.map_map, hid, List.map_id, hmem]
    exact h.has_grp hG

theorem counts (h : PRepL st s Sm Sg L) :
    ∃ out st', st.exec .counts = some (out, st') ∧ Good L st s .counts out st' :=
  ⟨_, st, rfl, h.keep ⟨rfl, Sm, Sg, fun m => (h.mem_iff m).symm, fun g => (h.grp_iff g).symm, by
    rw [h.nm, h.ng]⟩⟩

/-! ## Tables -/

theorem refs_both (i : ι) (T' : Nat → Option (KeyOf kind i × Ref)) (d' : Option Ref) (r : Ref) :
    refs ({ s with tab := upd s.tab i T', dflt := upd s.dflt i d' } : PState ι (KeyOf kind) A) Sg r +
      (tcnt (s.tab i) r + dcnt (s.dflt i) r) = refs s Sg r + (tcnt T' r + dcnt d' r) := by
  have h1 := refs_tab (s := s) (s' := { s with tab := upd s.tab i T' }) (Sg := Sg) rfl rfl i T' rfl r
  have h2 := refs_dflt (s := { s with tab := upd s.tab i T' })
    (s' := { s with tab := upd s.tab i T', dflt := upd s.dflt i d' }) (Sg := Sg) rfl rfl i d' rfl r
  simp only at h1 h2
  omega

/-- One table changes, and what is counted too much. -/
theorem setTabL (h : PRepL st s Sm Sg L) (L' : Ref → Nat) (hnol : ∀ r, ¬ s.Has r → L' r = 0) (i : ι) {t' T' d'} (ht : TabRep t' T' d')
    (rc' : RefCounts) (hlen : rc'.SameLen st.prof.rc)
    (hcl : ∀ r, ((∃ h k, T' h = some (k, r)) ∨ d' = some r) → s.Has r)
    (hcnt : CntOk rc' s.Has (fun r => refs s Sg r + L' r + (tcnt T' r + dcnt d' r) -
      (tcnt (s.tab i) r + dcnt (s.dflt i) r))) :
    PRepL { st with prof := { st.prof with rc := rc' }, tabs := upd st.tabs i t' }
      { s with tab := upd s.tab i T', dflt := upd s.dflt i d' } Sm Sg L' := by
  have hhas' : ∀ r, PState.Has { s with tab := upd s.tab i T', dflt := upd s.dflt i d' } r ↔
      s.Has r := by
    intro r; cases r <;> exact Iff.rfl
  refine
    { sel := h.sel, hm := h.hm, nm := h.nm, mlt := h.mlt, mlen := hlen.1.trans h.mlen,
      mem := h.mem, hg := h.hg, ng := h.ng, glt := h.glt, glen := le_of_le_of_eq h.glen hlen.2.symm,
      grp := h.grp, sorted := h.sorted, tabs := ?_, closed := ?_, cnt := ?_, nol := ?_ }
  · intro j
    simp only
    by_cases hj : j = i
    · subst hj; rw [upd_self, upd_self, upd_self]; exact ht
    · rw [upd_ne _ _ _ hj, upd_ne _ _ _ hj, upd_ne _ _ _ hj]; exact h.tabs j
  · intro r hr
    rw [hhas']
    rcases hr with ⟨j, hd, k, e⟩ | ⟨j, e⟩ | hg
    · simp only at e
      by_cases hj : j = i
      · subst hj; rw [upd_self] at e; exact hcl r (.inl ⟨hd, k, e⟩)
      · rw [upd_ne _ _ _ hj] at e; exact h.closed r (.inl ⟨j, hd, k, e⟩)
    · simp only at e
      by_cases hj : j = i
      · subst hj; rw [upd_self] at e; exact hcl r (.inr e)
      · rw [upd_ne _ _ _ hj] at e; exact h.closed r (.inr (.inl ⟨j, e⟩))
    · exact h.closed r (.inr (.inr hg))
  · intro r hr
    simp only
    rw [hcnt r ((hhas' r).1 hr)]
    have := refs_both (s := s) (Sg := Sg) i T' d' r
    refine congrArg some (congrArg (· % 2 ^ 32) ?_)
    beta_reduce
    omega
  · exact fun r hr => hnol r fun hh => hr ((hhas' r).2 hh)

/-- One table changes. -/
theorem setTab (h : PRepL st s Sm Sg L) (i : ι) {t' T' d'} (ht : TabRep t' T' d')
    (rc' : RefCounts) (hlen : rc'.SameLen st.prof.rc)
    (hcl : ∀ r, ((∃ h k, T' h = some (k, r)) ∨ d' = some r) → s.Has r)
    (hcnt : CntOk rc' s.Has (fun r => refs s Sg r + L r + (tcnt T' r + dcnt d' r) -
      (tcnt (s.tab i) r + dcnt (s.dflt i) r))) :
    PRepL { st with prof := { st.prof with rc := rc' }, tabs := upd st.tabs i t' }
      { s with tab := upd s.tab i T', dflt := upd s.dflt i d' } Sm Sg L :=
  h.setTabL L h.nol i ht rc' hlen hcl hcnt

theorem cfg_setTab (i : ι) {t' : ITab (kind i).str R} (rc' : RefCounts)
    (h1 : t'.mu.size = (st.tabs i).mu.size) (h2 : t'.mu.sizeKey = (st.tabs i).mu.sizeKey)
    (h3 : t'.constDefault = (st.tabs i).constDefault) :
    ISys.cfg { st with prof := { st.prof with rc := rc' }, tabs := upd st.tabs i t' } = st.cfg := by
  have : ∀ j, (upd st.tabs i t' j).mu.size = (st.tabs j).mu.size ∧
      (upd st.tabs i t' j).mu.sizeKey = (st.tabs j).mu.sizeKey ∧
      (upd st.tabs i t' j).constDefault = (st.tabs j).constDefault := by
    intro j
    by_cases hj : j = i
    · subst hj; rw [upd_self]; exact ⟨h1, h2, h3⟩
    · rw [upd_ne _ _ _ hj]; exact ⟨rfl, rfl, rfl⟩
  simp only [ISys.cfg]
  congr 1
  · funext j; exact (this j).1
  · funext j; rw [(this j).2.1]
  · funext j; exact (this j).2.2

/-- The entries of one table change. -/
theorem setEntries (h : PRepL st s Sm Sg L) (i : ι) {mu' T'}
    (ht : TabRep { st.tabs i with mu := mu' } T' (s.dflt i))
    (rc' : RefCounts) (hlen : rc'.SameLen st.prof.rc)
    (hcl : ∀ r, (∃ h k, T' h = some (k, r)) → s.Has r)
    (hcnt : CntOk rc' s.Has (fun r => refs s Sg r + L r + tcnt T' r - tcnt (s.tab i) r)) :
    PRepL ((st.setRc rc').setMu i mu') { s with tab := upd s.tab i T' } Sm Sg L := by
  have := h.setTab i ht rc' hlen (by
      rintro r (hr | hr)
      · exact hcl r hr
      · exact h.closed r (.inr (.inl ⟨i, hr⟩))) (by
      intro r hr
      rw [hcnt r hr]
      refine congrArg some (congrArg (· % 2 ^ 32) ?_)
      beta_reduce
      omega)
  rw [upd_eq] at this
  exact this

theorem setMu_rep (h : PRepL st s Sm Sg L) (i : ι) {mu'}
    (ht : TabRep { st.tabs i with mu := mu' } (s.tab i) (s.dflt i)) :
    PRepL (st.setMu i mu') s Sm Sg L := by
  have := h.setEntries i ht st.prof.rc ⟨rfl, rfl⟩
    (fun r ⟨hd, k, e⟩ => h.closed r (.inl ⟨i, hd, k, e⟩)) (by
      intro r hr
      simp only [Nat.add_sub_cancel]; exact h.cnt r hr)
  rw [upd_eq] at this
  exact this

/-- The check of a reference. -/
theorem checkRef (h : PRepL st s Sm Sg L) (r : Ref) :
    (∃ e, st.checkRef r = some (some e) ∧ s.RefErr r e) ∨
      (st.checkRef r = some none ∧ (∀ e, ¬ s.RefErr r e) ∧ s.Has r) := by
  cases r with
  | mbr m =>
    by_cases hm : m ∈ Sm
    · right
      have := (h.mem_iff m).2 hm
      refine ⟨by simp [ISys.checkRef, h.validMbr, hm], ?_, this⟩
      rintro e ⟨he, _⟩
      simp [PState.Has, he] at this
    · left
      exact ⟨.noMember, by simp [ISys.checkRef, h.validMbr, hm], h.mem_none hm, rfl⟩
  | grp g =>
    by_cases hg : g ∈ Sg
    · obtain ⟨l, el, hsl, hgl⟩ := h.info hg
      by_cases hl : l = []
      · left
        refine ⟨.emptyGroup, ?_, .inr ⟨by rw [hgl, hl]; rfl, rfl⟩⟩
        simp [ISys.checkRef, h.validGrp, hg, AProf.groupIsEmpty, el, hl]
      · right
        refine ⟨?_, ?_, (h.grp_iff g).2 hg⟩
        · simp [ISys.checkRef, h.validGrp, hg, AProf.groupIsEmpty, el, hl]
        · rintro e (⟨he, _⟩ | ⟨he, _⟩)
          · rw [hgl] at he; cases he
          · rw [hgl] at he
            simp only [Option.some.injEq, List.toFinset_eq_empty_iff] at he
            exact hl he
    · left
      exact ⟨.noGroup, by simp [ISys.checkRef, h.validGrp, hg], .inl ⟨h.grp_none hg, rfl⟩⟩

/-- An added entry has one reference more. -/
theorem tAdd (h : PRepL st s Sm Sg L) (i : ι) (key : Option (kind i).K) (r : Ref) (now : Nat)
    (hv : POp.Valid st.cfg (.tAdd i key r now : POp ι (KeyOf kind) A)) :
    ∃ out st', st.exec (.tAdd i key r now) = some (out, st') ∧
      ((∀ e, out ≠ .tab i (.err e)) → Good L st s (.tAdd i key r now) out st') := by
  rcases h.checkRef r with ⟨e, he, hre⟩ | ⟨he, hre, hhas⟩
  · refine ⟨.err e, st, ?_, fun _ => h.keep (.inl ⟨e, hre, rfl, rfl⟩)⟩
    simp [ISys.exec, ISys.tAdd, he]
  · obtain ⟨rc', e2, hlen, hcnt⟩ := h.cntOk.inc hhas (h.fits hhas)
    obtain ⟨o, mu', T', e3, hst⟩ := (h.tabs i).add key r (h.fits hhas) now (by
      rintro x rfl; exact hv)
    have hmk := IIdx.make_eq r (h.fits hhas)
    refine ⟨.tab i (ISys.outRef o), (st.setRc rc').setMu i mu', ?_, ?_⟩
    · simp [ISys.exec, ISys.tAdd, he, hmk, e2, e3]
    · intro hcl
      have hspec := hst.spec
      have hkey : ∃ hd k, T' hd = some (k, r) ∧ s.tab i hd = none ∧
          ∀ h', h' ≠ hd → T' h' = s.tab i h' := by
        cases hk : decide ((st.tabs i).mu.sizeKey = 0) with
        | true =>
          rw [hk] at hspec
          exact absurd (by rw [hspec.1]) (hcl .noKey)
        | false =>
          rw [hk] at hspec
          cases key with
          | none => exact absurd (by rw [hspec.1]) (hcl .badKey)
          | some x =>
            rcases hspec with ⟨_, e, _⟩ | ⟨_, _, e, _⟩ | ⟨_, _, hd, _, _, hn, _, e⟩
            · exact absurd (by rw [e]) (hcl .duplicate)
            · exact absurd (by rw [e]) (hcl .full)
            · exact ⟨hd, x, by simp [e], hn, fun h' hh' => by simp [e, hh']⟩
      obtain ⟨hd, k, e4, e5, e6⟩ := hkey
      have hc := fun r' => tcnt_upd (s.tab i) T' r' hd (hst.rep.lt e4) e6
      refine ⟨{ s with tab := upd s.tab i T' }, Sm, Sg, ?_,
        .inr ⟨hre, T', _, hst.spec, rfl, rfl⟩, ?_⟩
      · refine h.setEntries i hst.rep rc' hlen ?_ ?_
        · rintro r' ⟨h', k', e7⟩
          by_cases hh : h' = hd
          · subst hh; rw [e4] at e7
            simp only [Option.some.injEq, Prod.mk.injEq] at e7
            rw [← e7.2]; exact hhas
          · rw [e6 h' hh] at e7
            exact h.closed _ (.inl ⟨i, h', k', e7⟩)
        · intro r' hr'
          rw [hcnt r' hr']
          refine congrArg some (congrArg (· % 2 ^ 32) ?_)
          have := hc r'
          rw [e4, e5, pts_none, pts_some] at this
          beta_reduce
          omega
      · exact cfg_setTab i rc' hst.size hst.sizeKey rfl

/-- A refused addition leaves a reference behind. -/
theorem tAddL (h : PRepL st s Sm Sg L) (i : ι) (key : Option (kind i).K) (r : Ref) (now : Nat)
    (hv : POp.Valid st.cfg (.tAdd i key r now : POp ι (KeyOf kind) A)) :
    ∃ out st', st.exec (.tAdd i key r now) = some (out, st') ∧ GoodL L st s (.tAdd i key r now) out st' := by
  obtain ⟨out, st', ex, hg⟩ := h.tAdd i key r now hv
  refine ⟨out, st', ex, ?_⟩
  by_cases hcl : ∀ e, out ≠ .tab i (.err e)
  · obtain ⟨s', Sm', Sg', h', hs, hc⟩ := hg hcl
    exact ⟨s', Sm', Sg', L, h', ⟨hs, .inr ⟨hcl, rfl⟩⟩, hc⟩
  · push Not at hcl
    obtain ⟨e, rfl⟩ := hcl
    rcases h.checkRef r with ⟨e', he, hre⟩ | ⟨he, hre, hhas⟩
    · simp [ISys.exec, ISys.tAdd, he] at ex
    · obtain ⟨rc', e2, hlen, hcnt⟩ := h.cntOk.inc hhas (h.fits hhas)
      obtain ⟨o, mu', T', e3, hst⟩ := (h.tabs i).add key r (h.fits hhas) now (by
        rintro x rfl; exact hv)
      have hmk := IIdx.make_eq r (h.fits hhas)
      have ex' : st.exec (.tAdd i key r now) = some (.tab i (ISys.outRef o), (st.setRc rc').setMu i mu') := by
        simp [ISys.exec, ISys.tAdd, he, hmk, e2, e3]
      rw [ex', Option.some.injEq, Prod.mk.injEq] at ex
      obtain ⟨eo, rfl⟩ := ex
      simp only [POut.tab.injEq, heq_eq_eq, true_and] at eo
      have hspec := hst.spec
      have hT : T' = s.tab i := by
        cases hk : decide ((st.tabs i).mu.sizeKey = 0) with
        | true => rw [hk] at hspec; exact hspec.2
        | false =>
          rw [hk] at hspec
          cases key with
          | none => exact hspec.2
          | some x =>
            rcases hspec with ⟨_, _, e⟩ | ⟨_, _, _, e⟩ | ⟨_, _, hd, e5, _⟩
            · exact e
            · exact e
            · rw [eo] at e5; cases e5
      have hr := hst.rep
      rw [hT] at hr hspec
      have h2 := h.setTabL (fun x => if x = r then L x + 1 else L x) (by
          intro x hx
          have hne : x ≠ r := by rintro rfl; exact hx hhas
          rw [if_neg hne]; exact h.nol x hx) i hr rc' hlen (by
          rintro r' (⟨hd, k, e⟩ | e)
          · exact h.closed _ (.inl ⟨i, hd, k, e⟩)
          · exact h.closed _ (.inr (.inl ⟨i, e⟩))) (by
          intro r' hr'
          rw [hcnt r' hr']
          refine congrArg some (congrArg (· % 2 ^ 32) ?_)
          beta_reduce
          simp only [same]
          split <;> omega)
      rw [upd_eq, upd_eq] at h2
      refine ⟨s, Sm, Sg, _, h2, ⟨.inr ⟨hre, s.tab i, _, hspec, by rw [eo], by rw [upd_eq]⟩,
        .inl ⟨⟨e, rfl⟩, rfl⟩⟩, cfg_setTab i rc' hst.size hst.sizeKey rfl⟩

theorem staleOut {c : MCode} (hc : c = .invalidHandle ∨ c = .expiredHandle) {K V : Type} :
    (c.out : TOut K V) = .err .stale := by
  rcases hc with rfl | rfl <;> rfl

theorem tDel (h : PRepL st s Sm Sg L) (i : ι) (hd : Nat) :
    ∃ out st', st.exec (.tDel i hd) = some (out, st') ∧ Good L st s (.tDel i hd) out st' := by
  rcases (h.tabs i).getEntry hd with ⟨key, r, e1, hr, e2⟩ | ⟨e1, c, e2, hc⟩
  · have hu : s.Used r := .inl ⟨i, hd, key, e1⟩
    have hhas := h.closed r hu
    obtain ⟨rc', e3, hlen, hcnt⟩ := h.cntOk.dec hhas hr (Nat.le_add_right_of_le ((h.refs_pos _).2 hu))
    obtain ⟨o, mu', T', e4, hst⟩ := (h.tabs i).delete hd
    have hT : T' = fun h' => if h' = hd then none else s.tab i h' := by
      rcases hst.spec with ⟨_, _, e⟩ | ⟨e, _⟩
      · exact e
      · rw [e1] at e; cases e
    refine ⟨.tab i (ISys.outRef o), (st.setRc rc').setMu i mu', ?_, ?_⟩
    · simp [ISys.exec, ISys.tDel, e2, e3, e4]
    · refine ⟨{ s with tab := upd s.tab i T' }, Sm, Sg, ?_, ⟨T', _, hst.spec, rfl, rfl⟩, ?_⟩
      · refine h.setEntries i hst.rep rc' hlen ?_ ?_
        · rintro r' ⟨h', k', e7⟩
          rw [hT] at e7
          simp only at e7
          split at e7
          · cases e7
          · exact h.closed _ (.inl ⟨i, h', k', e7⟩)
        · intro r' hr'
          rw [hcnt r' hr']
          refine congrArg some (congrArg (· % 2 ^ 32) ?_)
          have := tcnt_upd (s.tab i) T' r' hd ((h.tabs i).lt e1) (fun h' hh => by simp [hT, hh])
          rw [e1, pts_some, hT] at this
          simp only [if_true, pts_none] at this
          rw [← hT] at this
          beta_reduce
          omega
      · exact cfg_setTab i rc' hst.size hst.sizeKey rfl
  · refine ⟨.tab i (.err .stale), st, ?_, h.keep ⟨s.tab i, _, .inr ⟨e1, rfl, rfl⟩, rfl, ?_⟩⟩
    · rcases hc with rfl | rfl <;> simp [ISys.exec, ISys.tDel, e2, MCode.out]
    · rw [upd_eq]

theorem tMod (h : PRepL st s Sm Sg L) (i : ι) (hd : Nat) (r : Ref) :
    ∃ out st', st.exec (.tMod i hd r) = some (out, st') ∧
      ((∀ e, out ≠ .err e) → Good L st s (.tMod i hd r) out st') := by
  rcases (h.tabs i).getEntry hd with ⟨key, r0, e1, hr0, e2⟩ | ⟨e1, c, e2, hc⟩
  · have hu : s.Used r0 := .inl ⟨i, hd, key, e1⟩
    have hhas0 := h.closed r0 hu
    obtain ⟨rc1, e3, hlen1, hcnt1⟩ := h.cntOk.dec hhas0 hr0 (Nat.le_add_right_of_le ((h.refs_pos _).2 hu))
    have hck : (st.setRc rc1).checkRef r = st.checkRef r := by cases r <;> rfl
    rcases h.checkRef r with ⟨e, he, hre⟩ | ⟨he, hre, hhas⟩
    · refine ⟨.err e, st.setRc rc1, ?_, fun hcl => absurd rfl (hcl e)⟩
      simp [ISys.exec, ISys.tMod, e2, e3, hck, he]
    · obtain ⟨rc', e4, hlen, hcnt⟩ := hcnt1.inc hhas (h.fits hhas)
      obtain ⟨o, mu', T', e5, hst⟩ := (h.tabs i).modify hd r (h.fits hhas)
      have hmk := IIdx.make_eq r (h.fits hhas)
      have hT : T' = fun h' => if h' = hd then some (key, r) else s.tab i h' := by
        rcases hst.spec with ⟨k, v, e, _, e'⟩ | ⟨e, _⟩
        · rw [e1] at e
          simp only [Option.some.injEq, Prod.mk.injEq] at e
          rw [e', e.1]
        · rw [e1] at e; cases e
      refine ⟨.tab i (ISys.outRef o), (st.setRc rc').setMu i mu', ?_, fun _ => ?_⟩
      · simp [ISys.exec, ISys.tMod, e2, e3, hck, he, hmk, e4, e5]
      · refine ⟨{ s with tab := upd s.tab i T' }, Sm, Sg, ?_,
          .inr ⟨fun _ => hre, T', _, hst.spec, rfl, rfl⟩, ?_⟩
        · refine h.setEntries i hst.rep rc' ⟨hlen.1.trans hlen1.1, hlen.2.trans hlen1.2⟩ ?_ ?_
          · rintro r' ⟨h', k', e7⟩
            rw [hT] at e7
            simp only at e7
            split at e7
            · simp only [Option.some.injEq, Prod.mk.injEq] at e7
              rw [← e7.2]; exact hhas
            · exact h.closed _ (.inl ⟨i, h', k', e7⟩)
          · intro r' hr'
            rw [hcnt r' hr']
            refine congrArg some (congrArg (· % 2 ^ 32) ?_)
            have := tcnt_upd (s.tab i) T' r' hd ((h.tabs i).lt e1) (fun h' hh => by simp [hT, hh])
            rw [e1, pts_some, hT] at this
            simp only [if_true, pts_some] at this
            rw [← hT] at this
            have h1 : same r' r0 ≤ refs s Sg r' := by
              simp only [same]
              split
              · rename_i e; subst e; exact (h.refs_pos _).2 hu
              · omega
            beta_reduce
            omega
        · exact cfg_setTab i rc' hst.size hst.sizeKey rfl
  · refine ⟨.tab i (.err .stale), st, ?_, fun _ => h.keep (.inr ⟨?_, s.tab i, _, .inr ⟨e1, rfl, rfl⟩, rfl, ?_⟩)⟩
    · rcases hc with rfl | rfl <;> simp [ISys.exec, ISys.tMod, e2, MCode.out]
    · simp [e1]
    · rw [upd_eq]

theorem tGet (h : PRepL st s Sm Sg L) (i : ι) (hd : Nat) :
    ∃ out st', st.exec (.tGet i hd) = some (out, st') ∧ Good L st s (.tGet i hd) out st' := by
  obtain ⟨o, mu', e, hst⟩ := (h.tabs i).get hd
  refine ⟨.tab i (ISys.outRef o), st, ?_, h.keep ⟨_, hst, rfl, rfl⟩⟩
  simp [ISys.exec, ISys.tGet, e]

theorem chosen (h : PRepL st s Sm Sg L) {r : Ref} (hu : s.Used r) (hash : Nat) :
    ∃ res, st.chosen (encRef r) hash = some res ∧ s.Chosen hash r res := by
  have hhas := h.closed r hu
  have hf := h.fits hhas
  have memb : ∀ m, s.Has (.mbr m) → ∃ a, st.prof.entries[m]? = some a ∧ s.mem m = some a ∧
      st.prof.isValidMbr m = some true := by
    intro m hm
    have hm' := (h.mem_iff m).1 hm
    have he := List.getElem?_eq_getElem (h.mlt m hm').1
    exact ⟨_, he, by rw [h.mem, if_pos hm', he], by rw [h.validMbr]; simp [hm']⟩
  cases r with
  | mbr m =>
    obtain ⟨a, e1, e2, e3⟩ := memb m hhas
    refine ⟨.act a, ?_, a, e2, rfl⟩
    simp [ISys.chosen, IIdx.isGrp_enc _ hf, AProf.lookup, IIdx.isMbr_enc _ hf, IIdx.getMbr,
      IIdx.get_enc _ hf, refId, e1, e3]
  | grp g =>
    have hg := (h.grp_iff g).1 hhas
    obtain ⟨l, el, hsl, hgl⟩ := h.info hg
    by_cases hl : l = []
    · refine ⟨.empty, ?_, _, hgl, .inl ⟨by rw [hl]; rfl, rfl⟩⟩
      simp [ISys.chosen, IIdx.isGrp_enc _ hf, IIdx.getGrp, IIdx.get_enc _ hf, refId,
        AProf.groupIsEmpty, el, hl]
    · have hlen : 0 < l.length := List.length_pos_iff.2 hl
      have hnd : l.Nodup := hsl.imp (fun hab => by omega)
      obtain ⟨m, hm1, hm2, hm3⟩ := Ras.nth_spec l hsl (hash % l.length) (Nat.mod_lt _ hlen)
      obtain ⟨a, e1, e2, e3⟩ := memb m
        (h.closed _ (.inr (.inr ⟨m, g, _, rfl, hgl, List.mem_toFinset.2 hm2⟩)))
      refine ⟨.act a, ?_, _, hgl, .inr ⟨m, List.mem_toFinset.2 hm2, ?_, a, e2, rfl⟩⟩
      · have hvg : st.prof.isValidGrp g = some true := by rw [h.validGrp]; simp [hg]
        have hne : l.length ≠ 0 := by omega
        simp [ISys.chosen, IIdx.isGrp_enc _ hf, IIdx.getGrp, IIdx.get_enc _ hf, refId,
          AProf.groupIsEmpty, el, hl, AProf.lookup, IIdx.isMbr_enc _ hf, h.sel, hvg,
          AProf.getFromHash, Ras.getNth, hm1, e1, e3]
      · rw [hm3, List.toFinset_card_of_nodup hnd]

theorem tLookup (h : PRepL st s Sm Sg L) (i : ι) (q : Bytes) (nb ts hash : Nat)
    (hv : POp.Valid st.cfg (.tLookup i q nb ts hash : POp ι (KeyOf kind) A)) :
    ∃ out st', st.exec (.tLookup i q nb ts hash) = some (out, st') ∧
      Good L st s (.tLookup i q nb ts hash) out st' := by
  obtain ⟨o, mu', e1, hst, ho⟩ := (h.tabs i).lookup q nb ts hv
  have hrep := h.setMu_rep i hst.rep
  have hcfg : (st.setMu i mu').cfg = st.cfg := cfg_setTab i st.prof.rc hst.size hst.sizeKey rfl
  rcases ho with rfl | ⟨hd, key, r, rfl, e2, hr⟩
  · obtain ⟨_, _, _, _, hd⟩ := h.tabs i
    rcases hd with ⟨hd1, hd2⟩ | ⟨r, hd1, hr, hd3, hd4⟩
    · refine ⟨.look none .builtin, st.setMu i mu', ?_, s, Sm, Sg, hrep,
        ⟨rfl, _, hst.spec, .inl ⟨rfl, hd2, rfl⟩⟩, hcfg⟩
      simp [ISys.exec, ISys.tLookup, e1, hd1]
    · obtain ⟨res, e3, hch⟩ := h.chosen (.inr (.inl ⟨i, hd4⟩)) hash
      refine ⟨.look none res, st.setMu i mu', ?_, s, Sm, Sg, hrep,
        ⟨rfl, _, hst.spec, .inr (.inl ⟨r, res, rfl, hd4, hch, rfl⟩)⟩, hcfg⟩
      simp [ISys.exec, ISys.tLookup, e1, hd1, hd3, e3]
  · obtain ⟨res, e3, hch⟩ := h.chosen (.inl ⟨i, hd, key, e2⟩) hash
    refine ⟨.look (some hd) res, st.setMu i mu', ?_, s, Sm, Sg, hrep,
      ⟨rfl, _, hst.spec, .inr (.inr ⟨hd, r, res, ?_, hch, rfl⟩)⟩, hcfg⟩
    · simp [ISys.exec, ISys.tLookup, e1, e3]
    · simp [ISys.outRef, IIdx.toRef_enc r hr]

/-- The counts after dropping the reference of the default entry, if there is one. -/
theorem dropDflt (h : PRepL st s Sm Sg L) (i : ι) :
    ∃ rc', st.dropDefault i = some rc' ∧ rc'.SameLen st.prof.rc ∧
      CntOk rc' s.Has (fun r => refs s Sg r + L r - dcnt (s.dflt i) r) ∧
      ∀ r, dcnt (s.dflt i) r ≤ refs s Sg r := by
  obtain ⟨_, _, _, _, hd⟩ := h.tabs i
  rcases hd with ⟨hd1, hd2⟩ | ⟨r, hd1, hr, hd3, hd4⟩
  · refine ⟨st.prof.rc, by simp [ISys.dropDefault, hd1], ⟨rfl, rfl⟩, ?_, ?_⟩
    · simp only [hd2, dcnt_none, Nat.sub_zero]; exact h.cntOk
    · simp [hd2, dcnt_none]
  · have hu : s.Used r := .inr (.inl ⟨i, hd4⟩)
    obtain ⟨rc', e, hlen, hcnt⟩ := h.cntOk.dec (h.closed _ hu) hr (Nat.le_add_right_of_le ((h.refs_pos _).2 hu))
    refine ⟨rc', by simp [ISys.dropDefault, hd1, hd3, e], hlen, ?_, ?_⟩
    · simp only [hd4, dcnt_some]; exact hcnt
    · intro r'
      rw [hd4, dcnt_some, same]
      split
      · rename_i e; subst e; exact (h.refs_pos _).2 hu
      · omega

theorem setDflt (h : PRepL st s Sm Sg L) (i : ι) (r : Ref) :
    ∃ out st', st.exec (.setDflt i r) = some (out, st') ∧ Good L st s (.setDflt i r) out st' := by
  by_cases hc : (st.tabs i).constDefault = true
  · refine ⟨.err .constDefault, st, ?_, h.keep (.inl ⟨hc, rfl, rfl⟩)⟩
    simp [ISys.exec, ISys.setDflt, hc]
  have hc' : (st.tabs i).constDefault = false := by simpa using hc
  have hvalid : st.validRef r = some true ∧ s.Has r ∨ st.validRef r = some false ∧ ¬ s.Has r := by
    cases r with
    | mbr m =>
      simp only [ISys.validRef, h.validMbr, h.mem_iff]; by_cases hm : m ∈ Sm <;> simp [hm]
    | grp g =>
      simp only [ISys.validRef, h.validGrp, h.grp_iff]; by_cases hg : g ∈ Sg <;> simp [hg]
  rcases hvalid with ⟨hv, hhas⟩ | ⟨hv, hhas⟩
  · obtain ⟨rc1, e1, hlen1, hcnt1, hle⟩ := h.dropDflt i
    obtain ⟨rc', e2, hlen, hcnt⟩ := hcnt1.inc hhas (h.fits hhas)
    have hmk := IIdx.make_eq r (h.fits hhas)
    refine ⟨.done, _, by
      simp only [ISys.exec, ISys.setDflt, hc', hv, e1, e2, hmk, Option.bind_eq_bind,
        Option.bind_some, Bool.not_true, Bool.false_eq_true, if_false, Option.pure_def]
      rfl, ?_⟩
    have hr := h.setTab i ((h.tabs i).setDefault r (h.fits hhas)) rc'
      ⟨hlen.1.trans hlen1.1, hlen.2.trans hlen1.2⟩ (by
        rintro r' (⟨hd, k, e⟩ | e)
        · exact h.closed _ (.inl ⟨i, hd, k, e⟩)
        · simp only [Option.some.injEq] at e; rw [← e]; exact hhas) (by
        intro r' hr'
        rw [hcnt r' hr']
        refine congrArg some (congrArg (· % 2 ^ 32) ?_)
        have := hle r'
        beta_reduce
        rw [dcnt_some]
        omega)
    rw [upd_eq] at hr
    exact ⟨_, Sm, Sg, hr, .inr (.inr ⟨hc', hhas, rfl, rfl⟩), cfg_setTab i rc' rfl rfl rfl⟩
  · refine ⟨.err (ISys.missing r), st, ?_,
      h.keep (.inr (.inl ⟨hc', hhas, by cases r <;> rfl, rfl⟩))⟩
    simp only [ISys.exec, ISys.setDflt, hc', hv, Option.bind_eq_bind,
        Option.bind_some, Bool.not_false, Bool.false_eq_true, if_false, if_true, Option.pure_def]

theorem unsetDflt (h : PRepL st s Sm Sg L) (i : ι) :
    ∃ out st', st.exec (.unsetDflt i) = some (out, st') ∧ Good L st s (.unsetDflt i) out st' := by
  obtain ⟨rc', e1, hlen, hcnt, hle⟩ := h.dropDflt i
  refine ⟨.done, _, by
    simp only [ISys.exec, ISys.unsetDflt, e1, Option.bind_eq_bind, Option.bind_some,
      Option.pure_def]
    rfl, ?_⟩
  have hr := h.setTab i (h.tabs i).unsetDefault rc' hlen (by
      rintro r' (⟨hd, k, e⟩ | e)
      · exact h.closed _ (.inl ⟨i, hd, k, e⟩)
      · cases e) (by
      intro r' hr'
      rw [hcnt r' hr']
      refine congrArg some (congrArg (· % 2 ^ 32) ?_)
      have := hle r'
      beta_reduce
      rw [dcnt_none]
      omega)
  rw [upd_eq] at hr
  exact ⟨_, Sm, Sg, hr, ⟨rfl, rfl⟩, cfg_setTab i rc' rfl rfl rfl⟩

/-- Clearing a table from which nothing refers to the profile. -/
theorem clear (h : PRepL st s Sm Sg L) (i : ι) (b : Bool) (he : ∀ hd, s.tab i hd = none)
    (hb : b = true → s.dflt i = none) :
    ∃ out st', st.exec (.clear i b) = some (out, st') ∧ Good L st s (.clear i b) out st' := by
  refine ⟨.done, _, rfl, ?_⟩
  have hT : s.tab i = fun _ => none := funext he
  have hd : (if b then none else s.dflt i) = s.dflt i := by
    cases b with
    | true => simp [hb rfl]
    | false => simp
  have ht := (h.tabs i).clear b
  rw [hd] at ht
  have hr := h.setTab i ht st.prof.rc ⟨rfl, rfl⟩ (by
      rintro r' (⟨hd, k, e⟩ | e)
      · cases e
      · exact h.closed _ (.inr (.inl ⟨i, e⟩))) (by
      intro r' hr'
      rw [h.cntOk r' hr', hT]
      refine congrArg some (congrArg (· % 2 ^ 32) ?_)
      beta_reduce
      omega)
  rw [upd_eq] at hr
  refine ⟨_, Sm, Sg, hr, ⟨rfl, ?_⟩, cfg_setTab i st.prof.rc rfl rfl rfl⟩
  have : (if b = true then upd s.dflt i none else s.dflt) = s.dflt := by
    cases b with
    | true => rw [if_pos rfl, ← hb rfl, upd_eq]
    | false => rfl
  rw [this]

theorem tcnt_num {K : Type} (T : Nat → Option (K × Ref)) (r : Ref)
    (hlt : ∀ h kv, T h = some kv → h < 2 ^ 32) : NumEntries T r (tcnt T r) := by
  classical
  refine ⟨(Finset.range hBound).filter fun h => ∃ k, T h = some (k, r), ?_, ?_⟩
  · intro h
    rw [Finset.mem_filter, Finset.mem_range]
    exact ⟨fun hx => hx.2, fun hx => ⟨hlt h _ hx.choose_spec, hx⟩⟩
  · unfold tcnt
    rw [Finset.card_filter]
    refine Finset.sum_congr rfl fun h _ => ?_
    simp only [pts, Option.map_eq_some_iff, Prod.exists, exists_eq_right]

/-- Clearing a table leaves references behind. -/
theorem clearL (h : PRepL st s Sm Sg L) (i : ι) (b : Bool) :
    ∃ out st' s' L', st.exec (.clear i b) = some (out, st') ∧ PRepL st' s' Sm Sg L' ∧
      PStepL st.cfg s L (.clear i b) s' L' out ∧ st'.cfg = st.cfg ∧
      ∀ r, L' r ≤ L r + st.cfg.size i + 1 := by
  have ht := (h.tabs i).clear b
  have hle : ∀ r, tcnt (s.tab i) r ≤ st.cfg.size i := by
    intro r
    obtain ⟨E, hr, hT, _⟩ := h.tabs i
    obtain ⟨l, hl, hn⟩ := hr.live_count
    have h1 := hr.count_le
    have := tcnt_le (s.tab i) r l (by rw [hT]; exact (live_mapT l).2 hl)
    show _ ≤ (st.tabs i).mu.size
    omega
  have hd1 : ∀ r, dcnt (if b then none else s.dflt i) r ≤ dcnt (s.dflt i) r ∧ dcnt (s.dflt i) r ≤ 1 := by
    intro r
    have : dcnt (s.dflt i) r ≤ 1 := by simp only [dcnt]; split <;> omega
    cases b with
    | true => simp [dcnt_none, this]
    | false => simp [this]
  let L' : Ref → Nat := fun r => L r + tcnt (s.tab i) r + (dcnt (s.dflt i) r - dcnt (if b then none else s.dflt i) r)
  have hr := h.setTabL L' (by
      intro r hr
      have e1 : ¬ 0 < tcnt (s.tab i) r := fun hp => by
        obtain ⟨hd, k, e⟩ := (tcnt_pos _ r (fun hd kv e => (h.tabs i).lt e)).1 hp
        exact hr (h.closed r (.inl ⟨i, hd, k, e⟩))
      have e2 : dcnt (s.dflt i) r = 0 := by
        by_contra hc
        refine hr (h.closed r (.inr (.inl ⟨i, ?_⟩)))
        by_contra hd
        exact hc (by simp [dcnt, hd])
      have e3 := h.nol r hr
      show L r + tcnt (s.tab i) r + _ = 0
      omega) i ht st.prof.rc ⟨rfl, rfl⟩ (by
      rintro r' (⟨hd, k, e⟩ | e)
      · cases e
      · cases b with
        | true => cases e
        | false => exact h.closed _ (.inr (.inl ⟨i, e⟩))) (by
      intro r' hr'
      rw [h.cntOk r' hr']
      refine congrArg some (congrArg (· % 2 ^ 32) ?_)
      have := hd1 r'
      have h0 : tcnt (fun _ => none : Nat → Option ((kind i).K × Ref)) r' = 0 := tcnt_empty r'
      show refs s Sg r' + L r' = refs s Sg r' + (L r' + _ + _) + (_ + _) - _
      omega)
  refine ⟨.done, _, _, L', rfl, hr, ⟨⟨rfl, ?_⟩, ?_⟩, cfg_setTab i st.prof.rc rfl rfl rfl, ?_⟩
  · cases b with
    | true => rfl
    | false =>
      simp only [Bool.false_eq_true, if_false]
      rw [upd_eq]
  · intro r
    refine ⟨_, tcnt_num (s.tab i) r (fun hd kv e => (h.tabs i).lt e), ?_⟩
    by_cases hb : b = true ∧ s.dflt i = some r
    · refine .inl ⟨hb.1, hb.2, ?_⟩
      show L r + _ + (_ - _) = _
      rw [hb.1, hb.2, if_pos rfl, dcnt_none, dcnt_some]
      simp [same]
    · refine .inr ⟨hb, ?_⟩
      show L r + _ + (_ - _) = _
      have : dcnt (s.dflt i) r = dcnt (if b then none else s.dflt i) r := by
        cases b with
        | false => rfl
        | true =>
          have : s.dflt i ≠ some r := fun e => hb ⟨rfl, e⟩
          simp [dcnt, this]
      omega
  · intro r
    have := hle r
    have := hd1 r
    show L r + _ + (_ - _) ≤ _
    omega

theorem noGroups (h : PRepL st s Sm Sg L) (h0 : st.prof.numGroups = 0) : Sg = ∅ := by
  rw [h.ng] at h0; exact Finset.card_eq_zero.1 h0

theorem init (st : ISys ι kind R A) (hsel : st.prof = {})
    (ht : ∀ i, TabRep (st.tabs i) (fun _ => none) none) : PRep st PState.empty ∅ ∅ := by
  refine
    { nol := fun _ _ => rfl, sel := by rw [hsel], hm := by rw [hsel]; exact HandleMgr.Rep.empty, nm := by rw [hsel]; rfl,
      mlt := by simp, mlen := by rw [hsel]; rfl, mem := by simp [PState.empty],
      hg := by rw [hsel]; exact HandleMgr.Rep.empty, ng := by rw [hsel]; rfl, glt := by simp,
      glen := by rw [hsel]; exact Nat.le_refl _, grp := by simp [PState.empty], sorted := by rw [hsel]; simp, tabs := ht,
      closed := ?_, cnt := ?_ }
  · rintro r (⟨i, hd, k, e⟩ | ⟨i, e⟩ | ⟨m, g, G, rfl, e, _⟩) <;> simp [PState.empty] at e
  · intro r hr; cases r <;> simp [PState.Has, PState.empty] at hr

/-- Complete reset when no group is left. -/
theorem resetAll (h : PRepL st s Sm Sg L) (h0 : st.prof.numGroups = 0) :
    ∃ out st', st.exec .resetAll = some (out, st') ∧ Good (fun _ => 0) st s .resetAll out st' := by
  refine ⟨.done, _, rfl, PState.empty, ∅, ∅, ?_, ⟨rfl, rfl⟩, rfl⟩
  have hg := h.hg
  rw [h.noGroups h0] at hg
  refine
    { nol := fun _ _ => rfl, sel := h.sel, hm := HandleMgr.Rep.empty, nm := rfl,
      mlt := by simp, mlen := rfl, mem := by simp [PState.empty],
      hg := hg, ng := rfl, glt := by simp,
      glen := Nat.le_refl _, grp := by simp [PState.empty], sorted := by simp [ISys.resetAll, AProf.resetState],
      tabs := fun i => (h.tabs i).clear true, closed := ?_, cnt := ?_ }
  · rintro r (⟨i, hd, k, e⟩ | ⟨i, e⟩ | ⟨m, g, G, rfl, e, _⟩) <;> simp [PState.empty] at e
  · intro r hr; cases r <;> simp [PState.Has, PState.empty] at hr

end PRepL
end Bm
