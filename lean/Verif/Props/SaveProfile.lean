import Verif.Lemmas.SaveSys
import Verif.Props.ActionProfile
import Verif.Props.Save

/-!
# C81: saving and restoring action profiles

For every action profile with any finite number of exact or LPM tables, every history of calls before the save and every
history after the restore.
-/

set_option linter.unusedSectionVars false

namespace Bm.Save
open Spec
variable {D : Type} {ι : Type} [DecidableEq ι] [Fintype ι] {kind : ι → TableKind} {R A : Type}

/-- A freshly loaded program: the profile and its tables, whose keys have the width of the kind of the table. -/
abbrev fresh (kind : ι → TableKind) (R A : Type) (size : ι → Nat) (m0 : Nat → R) (const : ι → Bool) : ISys ι kind R A :=
  ISys.fresh kind R A size (fun i => nbytes (kind i)) m0 const

/-- The full property: saving the state at any point of any history (within the limits of C15) and restoring it to a freshly
loaded program cannot be noticed: what follows is allowed by the specification of action profiles (`PTrace`, see C15)
from the state in which the save was made.  (`C` restricts the histories before and after; nothing in the full
property.) -/
def TransparentP (kind : ι → TableKind) (size : ι → Nat) (m0 : Nat → R) (const : ι → Bool) (nm : TabNames ι)
    (order : List ι) (io : EntIO D A) (mio : MeterIO D R)
    (C : List (POp ι (KeyOf kind) A) → List (POp ι (KeyOf kind) A) → Prop := fun _ _ => True) : Prop :=
  let st0 := fresh kind R A size m0 const
  ∀ ops ops', C ops ops' → CleanRun st0 ops → (∀ op ∈ ops, PWrites io.Good op) →
  ∃ outs st1 s1 txt st2, st0.run ops = some (outs, st1) ∧ PTrace st0.cfg PState.empty ops outs s1 ∧
    saveSys nm order io mio st1 = some txt ∧ loadSys nm order io mio 0 st0 txt = some (st2, []) ∧
    (CleanRun st2 ops' → ∃ outs' st3 s2, st2.run ops' = some (outs', st3) ∧ PTrace st0.cfg s1 ops' outs' s2)

/-- What the environment provides: distinct tables with names, all of them in the loop over the tables, and names of the
nodes after a miss that lead back to these nodes. -/
structure EnvOk (nm : TabNames ι) (order : List ι) : Prop where
  name : ∀ i, nm.name i ≠ []
  node : ∀ i n, nm.miss i = some n → nm.o.NodeOk n
  nodup : order.Nodup
  all : ∀ i, i ∈ order

/-- No call adds a member, creates a group, adds an entry to a table. -/
def NoAddMember (ops : List (POp ι (KeyOf kind) A)) : Prop := ∀ op ∈ ops, ∀ a, op ≠ .addMember a
@[inherit_doc NoAddMember] def NoNewGroup (ops : List (POp ι (KeyOf kind) A)) : Prop := ∀ op ∈ ops, op ≠ .newGroup
@[inherit_doc NoAddMember] def NoAdd (i : ι) (ops : List (POp ι (KeyOf kind) A)) : Prop :=
  ∀ op ∈ ops, ∀ k r n, op ≠ .tAdd i k r n

/-- A history before the save, with everything the lemmas give. -/
theorem before (hn : Fintype.card ι ≤ 254) (hc : ∀ i, Copies (kind i)) (size : ι → Nat)
    (hs : ∀ i, size i ≤ 2 ^ 24) (m0 : Nat → R) (const : ι → Bool) (nm : TabNames ι) (order : List ι)
    (he : EnvOk nm order) (io : EntIO D A) (ops : List (POp ι (KeyOf kind) A))
    (hclean : CleanRun (fresh kind R A size m0 const) ops) (hw : ∀ op ∈ ops, PWrites io.Good op) :
    ∃ outs st1 s1 Sm Sg, (fresh kind R A size m0 const).run ops = some (outs, st1) ∧ PRep st1 s1 Sm Sg ∧
      PTrace (fresh kind R A size m0 const).cfg PState.empty ops outs s1 ∧ st1.cfg = (fresh kind R A size m0 const).cfg ∧
      (∀ i, (st1.tabs i).mu.sizeKey = nbytes (kind i)) ∧
      (∀ i, (st1.tabs i).mu.sizeKey = 0 → ∀ hd, s1.tab i hd = none) ∧
      Env nm order (fresh kind R A size m0 const) st1 m0 ∧ (∀ m a, s1.mem m = some a → io.Good a) := by
  obtain ⟨outs, st1, s1, Sm, Sg, e, h, tr, hcfg⟩ := PRep.run hn ops (PRep.fresh size _ hs m0 const) hclean
  have hk := run_keyW ops e
  have hk' : ∀ i, (st1.tabs i).mu.sizeKey = nbytes (kind i) := fun i => congrFun hk i
  have hf : Fine (fresh kind R A size m0 const).cfg io.Good s1 :=
    Fine.trace tr ⟨by simp [PState.empty], by simp [PState.empty]⟩ hw
  refine ⟨outs, st1, s1, Sm, Sg, e, h, tr, hcfg, hk', ?_, ⟨he.name, he.node, he.nodup, he.all, rfl, ?_⟩, hf.1⟩
  · intro i h0
    refine hf.2 i ?_
    have h0' : nbytes (kind i) = 0 := by rw [← hk' i]; exact h0
    simp only [ISys.cfg]
    show _ = true
    simp [ISys.fresh, MUnit.init, h0']
  · intro i
    have h1 := congrFun (congrArg PCfg.size hcfg) i
    have h2 := congrFun (congrArg PCfg.constDflt hcfg) i
    have h1' : (st1.tabs i).mu.size = size i := h1
    have h2' : (st1.tabs i).constDefault = const i := h2
    rw [h1', h2', hk' i]
    rfl

theorem has_grp_iff {st : ISys ι kind R A} {s : PState ι (KeyOf kind) A} {Sm Sg : Finset Nat} (h : PRep st s Sm Sg)
    (g : Nat) : s.Has (.grp g) ↔ g ∈ Sg := by
  simp only [PState.Has]
  rw [h.grp]
  by_cases hg : g ∈ Sg
  · have := (h.glt g hg).1
    simp [hg, this]
  · simp [hg]

theorem has_mbr_iff {st : ISys ι kind R A} {s : PState ι (KeyOf kind) A} {Sm Sg : Finset Nat} (h : PRep st s Sm Sg)
    (m : Nat) : s.Has (.mbr m) ↔ m ∈ Sm := by
  simp only [PState.Has]
  rw [h.mem]
  by_cases hg : m ∈ Sm
  · have := (h.mlt m hg).1
    simp [hg, this]
  · simp [hg]

/-- **C81 (partial).**  The full property is `TransparentP`; it is false (`C81_gap_aborts`, `C81_next_member`,
`C81_next_group`, and `ExP.C81_refuted_…`).  Proved for exact and LPM tables and members whose actions can be saved and read
back, if the handles of the groups have no gap when the state is saved: the restore succeeds, gives the members, groups,
entries, defaults and reference counts that were there (anything that follows has results allowed from the state in which
the save was made), keeps the time-outs, and makes of the meters what `rt` says.  What follows may add members only if
member 0 did not exist at the save, and likewise for groups and for entries in slot 0 of a table. -/
theorem C81_save_restore_partial (hn : Fintype.card ι ≤ 254) (hc : ∀ i, Copies (kind i)) (size : ι → Nat)
    (hs : ∀ i, size i ≤ 2 ^ 24) (m0 : Nat → R) (const : ι → Bool) (nm : TabNames ι) (order : List ι)
    (he : EnvOk nm order) (io : EntIO D A) (mio : MeterIO D R) (rt : R → R → R) (hm : mio.Round rt) (now : Nat)
    (ops : List (POp ι (KeyOf kind) A)) (hclean : CleanRun (fresh kind R A size m0 const) ops)
    (hw : ∀ op ∈ ops, PWrites io.Good op) :
    ∃ outs st1 s1, (fresh kind R A size m0 const).run ops = some (outs, st1) ∧
      PTrace (fresh kind R A size m0 const).cfg PState.empty ops outs s1 ∧
      ((∀ g, s1.Has (.grp g) → ∀ j < g, s1.Has (.grp j)) →
        ∃ txt st2, saveSys nm order io mio st1 = some txt ∧
          (∀ rest, loadSys nm order io mio now (fresh kind R A size m0 const) (txt ++ rest) = some (st2, rest)) ∧
          (∀ i, ∀ j < size i, (st2.tabs i).mu.meters j = rt (m0 j) ((st1.tabs i).mu.meters j)) ∧
          (∀ i h, (s1.tab i h).isSome = true →
            ((st2.tabs i).mu.metas (slotOf h)).timeoutMs = ((st1.tabs i).mu.metas (slotOf h)).timeoutMs ∧
            ((st2.tabs i).mu.metas (slotOf h)).ts = now) ∧
          ∀ ops' : List (POp ι (KeyOf kind) A), CleanRun st2 ops' →
            (NoAddMember ops' ∨ ¬ s1.Has (.mbr 0)) → (NoNewGroup ops' ∨ ¬ s1.Has (.grp 0)) →
            (∀ i, NoAdd i ops' ∨ ∀ h, slotOf h = 0 → s1.tab i h = none) →
            ∃ outs' st3 s2, st2.run ops' = some (outs', st3) ∧
              PTrace (fresh kind R A size m0 const).cfg s1 ops' outs' s2) := by
  obtain ⟨outs, st1, s1, Sm, Sg, e, h, tr, hcfg, hk, hp, henv, hgood⟩ :=
    before hn hc size hs m0 const nm order he io ops hclean hw
  refine ⟨outs, st1, s1, e, tr, fun hgap => ?_⟩
  have hd : NoGap Sg := fun g hg j hj => (has_grp_iff h j).1 (hgap g ((has_grp_iff h g).2 hg) j hj)
  obtain ⟨txt, st2, e1, e2, h2, hcfg2, hfree, hmet, hmeta⟩ := restore_sys hc h hk hp henv hm hgood hd now
  refine ⟨txt, zS true true (fun _ => true) st2, e1, e2, ?_, ?_, ?_⟩
  · intro i j hj
    refine hmet i j ?_
    have h1 : (st1.tabs i).mu.size = size i := congrFun (congrArg PCfg.size hcfg) i
    omega
  · intro i hd hsome
    have := hmeta i hd hsome
    show ((st2.tabs i).mu.metas (slotOf hd)).timeoutMs = _ ∧ ((st2.tabs i).mu.metas (slotOf hd)).ts = _
    rw [this]; exact ⟨rfl, rfl⟩
  · intro ops' hcl hA hB hC
    classical
    let a : Bool := decide (0 ∈ Sm)
    let b : Bool := decide (0 ∈ Sg)
    let c : ι → Bool := fun i => !decide (∀ hd, slotOf hd = 0 → s1.tab i hd = none)
    have hz : zS true true (fun _ => true) st2 = zS a b c st2 := by
      have hzH : ∀ (m : HandleMgr) (S : Finset Nat), m.Rep S → zH true m = zH (decide (0 ∈ S)) m := by
        intro m S hr
        by_cases h0 : 0 ∈ S
        · simp [h0]
        · have := rep_zero hr h0
          simp [zH, this]
      simp only [zS, zP]
      rw [ISys.mk.injEq]
      refine ⟨?_, ?_⟩
      · rw [hzH _ Sm h2.hm, hzH _ Sg h2.hg]
      · funext i
        by_cases hi : ∀ hd, slotOf hd = 0 → s1.tab i hd = none
        · have : c i = false := by simp only [c]; rw [decide_eq_true hi]; rfl
          rw [this, hfree i hi]; rfl
        · have : c i = true := by simp only [c]; rw [decide_eq_false hi]; rfl
          rw [this]
    have hAl : ∀ op ∈ ops', ¬ Alloc a b c op := by
      intro op hop hal
      cases op <;> try exact hal
      · rename_i x
        rcases hA with hA | hA
        · exact hA _ hop x rfl
        · exact hA ((has_mbr_iff h 0).2 (of_decide_eq_true hal))
      · rcases hB with hB | hB
        · exact hB _ hop rfl
        · exact hB ((has_grp_iff h 0).2 (of_decide_eq_true hal))
      · rename_i i k r n
        rcases hC i with hC | hC
        · exact hC _ hop k r n rfl
        · have hal' : c i = true := hal
          simp only [c] at hal'
          rw [decide_eq_true hC] at hal'
          cases hal'
    rw [hz] at hcl ⊢
    have hcl' := (zS_clean a b c ops' st2 hAl).1 hcl
    obtain ⟨outs', st3, s2, _, _, e3, _, tr2, _⟩ := PRep.run hn ops' h2 hcl'
    rw [hcfg2, hcfg] at tr2
    exact ⟨outs', zS a b c st3, s2, by rw [zS_run a b c ops' st2 hAl, e3]; rfl, tr2⟩

/-- **C81, first failure.**  If the handles of the groups have a gap when the state is saved (a group was deleted, one with
a greater handle was not), then the restore ends in a failed assertion: `insert_group` accepts only handles up to the
number of groups, and the groups are inserted from handle 0 on. -/
theorem C81_gap_aborts (hn : Fintype.card ι ≤ 254) (hc : ∀ i, Copies (kind i)) (size : ι → Nat)
    (hs : ∀ i, size i ≤ 2 ^ 24) (m0 : Nat → R) (const : ι → Bool) (nm : TabNames ι) (order : List ι)
    (he : EnvOk nm order) (io : EntIO D A) (mio : MeterIO D R) (rt : R → R → R) (hm : mio.Round rt) (now : Nat)
    (ops : List (POp ι (KeyOf kind) A)) (hclean : CleanRun (fresh kind R A size m0 const) ops)
    (hw : ∀ op ∈ ops, PWrites io.Good op) :
    ∃ outs st1 s1, (fresh kind R A size m0 const).run ops = some (outs, st1) ∧
      PTrace (fresh kind R A size m0 const).cfg PState.empty ops outs s1 ∧
      ((∃ g, s1.Has (.grp g) ∧ ∃ j < g, ¬ s1.Has (.grp j)) →
        ∃ txt, saveSys nm order io mio st1 = some txt ∧
          ∀ rest, loadSys nm order io mio now (fresh kind R A size m0 const) (txt ++ rest) = none) := by
  obtain ⟨outs, st1, s1, Sm, Sg, e, h, tr, hcfg, hk, hp, henv, hgood⟩ :=
    before hn hc size hs m0 const nm order he io ops hclean hw
  refine ⟨outs, st1, s1, e, tr, ?_⟩
  rintro ⟨g, hg, j, hj, hnj⟩
  refine restore_sys_hole hc h hk hp henv hm hgood (fun hd => hnj ?_) now
  exact (has_grp_iff h j).2 (hd g ((has_grp_iff h g).1 hg) j hj)

/-- With its cursor at 0, the handle manager gives out handle 0 although it is in use. -/
theorem getHandle_zero {m : HandleMgr} {S : Finset Nat} (h : m.Rep S) (h0 : 0 ∈ S) :
    ∃ m', (zH true m).getHandle = some (0, m') ∧ m'.validHandle 0 = some true ∧
      ∃ m'', m'.releaseHandle 0 = some (true, m'') := by
  have hlt := h.bits.lt 0 h0
  obtain ⟨b', hb', hn, hr⟩ := h.bits.set hlt
  obtain ⟨r, hr1, -⟩ := hr.findUnsetNext 0 (by omega)
  rw [Finset.insert_eq_of_mem h0] at hr
  have hlt' : 0 < b'.numBits := by omega
  obtain ⟨b2, e2, -⟩ := hr.reset (idx := 0) hlt'
  simp only [HandleMgr.getHandle, zH, if_true, if_pos hlt, hb', Option.bind_eq_bind, Option.bind_some, hr1, Option.pure_def]
  refine ⟨_, rfl, ?_, ?_⟩
  · rw [HandleMgr.validHandle, if_neg (show ¬ 0 ≥ b'.numBits by omega), hr.test hlt']; simp [h0]
  · rw [HandleMgr.releaseHandle, if_neg (show ¬ 0 ≥ b'.numBits by omega)]
    simp only [e2, h0, decide_true, Option.bind_eq_bind, Option.bind_some, if_true, Option.pure_def]
    exact ⟨_, rfl⟩

/-- **C81, second failure.**  If member 0 exists when the state is saved (and the handles of the groups have no gap), then the
first member added after the restore gets handle 0, replaces member 0, and member 0 can then be deleted, whatever refers to
it. -/
theorem C81_next_member (hn : Fintype.card ι ≤ 254) (hc : ∀ i, Copies (kind i)) (size : ι → Nat)
    (hs : ∀ i, size i ≤ 2 ^ 24) (m0 : Nat → R) (const : ι → Bool) (nm : TabNames ι) (order : List ι)
    (he : EnvOk nm order) (io : EntIO D A) (mio : MeterIO D R) (rt : R → R → R) (hm : mio.Round rt) (now : Nat)
    (ops : List (POp ι (KeyOf kind) A)) (hclean : CleanRun (fresh kind R A size m0 const) ops)
    (hw : ∀ op ∈ ops, PWrites io.Good op) (a : A) :
    ∃ outs st1 s1, (fresh kind R A size m0 const).run ops = some (outs, st1) ∧
      PTrace (fresh kind R A size m0 const).cfg PState.empty ops outs s1 ∧
      ((∀ g, s1.Has (.grp g) → ∀ j < g, s1.Has (.grp j)) → s1.Has (.mbr 0) →
        ∃ txt st2 st3, saveSys nm order io mio st1 = some txt ∧
          loadSys nm order io mio now (fresh kind R A size m0 const) txt = some (st2, []) ∧
          st2.exec (.addMember (some a)) = some (.id 0, st3) ∧
          st3.exec (.getMember 0) = some (.member a, st3) ∧ ∃ st4, st3.exec (.delMember 0) = some (.done, st4)) := by
  obtain ⟨outs, st1, s1, Sm, Sg, e, h, tr, hcfg, hk, hp, henv, hgood⟩ :=
    before hn hc size hs m0 const nm order he io ops hclean hw
  refine ⟨outs, st1, s1, e, tr, fun hgap hm0 => ?_⟩
  have hd : NoGap Sg := fun g hg j hj => (has_grp_iff h j).1 (hgap g ((has_grp_iff h g).2 hg) j hj)
  obtain ⟨txt, st2, e1, e2, h2, -⟩ := restore_sys hc h hk hp henv hm hgood hd now
  have h0 : 0 ∈ Sm := (has_mbr_iff h 0).1 hm0
  obtain ⟨mh, e3, e5, mh2, e6⟩ := getHandle_zero h2.hm h0
  have hlt := (h2.mlt 0 h0).1
  obtain ⟨rc', e4, -, -, hv⟩ := st2.prof.rc.set_ok (.mbr 0) (by decide) 0 (Nat.zero_le _)
  have hmk : IIdx.makeMbr 0 = some (encRef (.mbr 0)) := IIdx.make_eq (.mbr 0) (by decide)
  have hget : rc'.get (encRef (.mbr 0)) = some 0 := by rw [RefCounts.get_enc _ _ (by decide), hv, if_pos rfl]
  have e3' : (zS true true (fun _ => true) st2).prof.mbrH.getHandle = some (0, mh) := e3
  have e4' : (zS true true (fun _ => true) st2).prof.rc.set (encRef (.mbr 0)) 0 = some rc' := e4
  have hne : ¬ 0 = (zS true true (fun _ => true) st2).prof.entries.length := by
    show ¬ 0 = st2.prof.entries.length; omega
  refine ⟨txt, zS true true (fun _ => true) st2,
    { zS true true (fun _ => true) st2 with prof :=
      { (zS true true (fun _ => true) st2).prof with
        mbrH := mh, entries := st2.prof.entries.set 0 a, rc := rc', numMembers := st2.prof.numMembers + 1 } },
    e1, by have := e2 []; rwa [List.append_nil] at this, ?_, ?_, ?_⟩
  · simp only [ISys.exec, AProf.addMember, e3', Option.bind_eq_bind, Option.bind_some, AProf.entriesInsert,
      if_pos (Nat.zero_le _), hmk, e4', Option.pure_def, Option.map_some, if_true, if_neg hne]
    rfl
  · simp only [ISys.exec, AProf.getMember, AProf.isValidMbr, e5, Option.bind_eq_bind, Option.bind_some, Bool.not_true,
      Bool.false_eq_true, if_false, Option.pure_def, List.getElem?_set, hlt, if_true, Option.map_some]
  · simp only [ISys.exec, AProf.deleteMember, AProf.isValidMbr, e5, hmk, hget, e6, Option.bind_eq_bind, Option.bind_some,
      Bool.not_true, Bool.false_eq_true, if_false, Option.pure_def, if_true, Option.map_some, ISys.code, gt_iff_lt,
      Nat.lt_irrefl]
    exact ⟨_, rfl⟩

/-- **C81, third failure.**  If there is any group when the state is saved (and the handles of the groups have no gap), then
the first group created after the restore gets handle 0 and replaces group 0, which loses its members. -/
theorem C81_next_group (hn : Fintype.card ι ≤ 254) (hc : ∀ i, Copies (kind i)) (size : ι → Nat)
    (hs : ∀ i, size i ≤ 2 ^ 24) (m0 : Nat → R) (const : ι → Bool) (nm : TabNames ι) (order : List ι)
    (he : EnvOk nm order) (io : EntIO D A) (mio : MeterIO D R) (rt : R → R → R) (hm : mio.Round rt) (now : Nat)
    (ops : List (POp ι (KeyOf kind) A)) (hclean : CleanRun (fresh kind R A size m0 const) ops)
    (hw : ∀ op ∈ ops, PWrites io.Good op) :
    ∃ outs st1 s1, (fresh kind R A size m0 const).run ops = some (outs, st1) ∧
      PTrace (fresh kind R A size m0 const).cfg PState.empty ops outs s1 ∧
      ((∀ g, s1.Has (.grp g) → ∀ j < g, s1.Has (.grp j)) → (∃ g, s1.Has (.grp g)) →
        ∃ txt st2 st3, saveSys nm order io mio st1 = some txt ∧
          loadSys nm order io mio now (fresh kind R A size m0 const) txt = some (st2, []) ∧
          st2.exec .newGroup = some (.id 0, st3) ∧ st3.exec (.getGroup 0) = some (.group [], st3)) := by
  obtain ⟨outs, st1, s1, Sm, Sg, e, h, tr, hcfg, hk, hp, henv, hgood⟩ :=
    before hn hc size hs m0 const nm order he io ops hclean hw
  refine ⟨outs, st1, s1, e, tr, fun hgap hg0 => ?_⟩
  have hd : NoGap Sg := fun g hg j hj => (has_grp_iff h j).1 (hgap g ((has_grp_iff h g).2 hg) j hj)
  obtain ⟨txt, st2, e1, e2, h2, -⟩ := restore_sys hc h hk hp henv hm hgood hd now
  have h0 : 0 ∈ Sg := by
    obtain ⟨g, hg⟩ := hg0
    rcases Nat.eq_zero_or_pos g with rfl | hpos
    · exact (has_grp_iff h 0).1 hg
    · exact (has_grp_iff h 0).1 (hgap g hg 0 hpos)
  obtain ⟨mh, e3, e5, -⟩ := getHandle_zero h2.hg h0
  have hlt := (h2.glt 0 h0).1
  obtain ⟨rc', e4, -, -, hv⟩ := st2.prof.rc.set_ok (.grp 0) (by decide) 0 (Nat.zero_le _)
  have hmk : IIdx.makeGrp 0 = some (encRef (.grp 0)) := IIdx.make_eq (.grp 0) (by decide)
  have e3' : (zS true true (fun _ => true) st2).prof.grpH.getHandle = some (0, mh) := e3
  have e4' : (zS true true (fun _ => true) st2).prof.rc.set (encRef (.grp 0)) 0 = some rc' := e4
  have hne : ¬ 0 = (zS true true (fun _ => true) st2).prof.groups.length := by
    show ¬ 0 = st2.prof.groups.length; omega
  refine ⟨txt, zS true true (fun _ => true) st2,
    { zS true true (fun _ => true) st2 with prof :=
      { (zS true true (fun _ => true) st2).prof with
        grpH := mh, groups := st2.prof.groups.set 0 [], rc := rc', numGroups := st2.prof.numGroups + 1 } },
    e1, by have := e2 []; rwa [List.append_nil] at this, ?_, ?_⟩
  · simp only [ISys.exec, AProf.createGroup, e3', Option.bind_eq_bind, Option.bind_some, AProf.insertGroup,
      if_pos (Nat.zero_le _), hmk, e4', Option.pure_def, Option.map_some, if_neg hne]
    rfl
  · simp only [ISys.exec, AProf.getGroup, AProf.isValidGrp, e5, Option.bind_eq_bind, Option.bind_some, Bool.not_true,
      Bool.false_eq_true, if_false, Option.pure_def, List.getElem?_set, hlt, if_true, Option.map_some]

/-- The actions that can be saved and read back: their function is one of the program, their data are not negative, and
the name of the next node leads to that node. -/
theorem entIO_good (D : Type) (o : Objs) (e : MT.ActEntry) (hf : ∀ f, e.fn = some f → o.act f.id = some f)
    (hn : ∀ i, e.next = some i → o.NodeOk i) (hd : ∀ d ∈ e.data, 0 ≤ d) (he : e.fn = none → e.data = []) :
    (entIO D o).Good e := by
  obtain ⟨ts, h1, h2⟩ := loadAct_save (D := D) o {} e hf hn hd
  refine ⟨ts, h1, fun rest => ?_⟩
  show loadAct o {} (ts ++ rest) = _
  rw [h2]
  obtain ⟨fn, data, next⟩ := e
  cases fn with
  | none =>
    have : data = [] := he rfl
    subst this
    cases next <;> rfl
  | some f => cases next <;> rfl

/-! ## Concrete cases -/

namespace ExP
open MT

/-- One exact-match table, with entries of the profile as in the code. -/
def st0 : ISys Unit (fun _ => .exact 1) Unit ActEntry :=
  fresh _ _ _ (fun _ => 4) (fun _ => ()) (fun _ => false)

/-- Its name. -/
def nm : TabNames Unit := { o := Ex.o, name := fun _ => ['t'], miss := fun _ => some 9 }

/-- Actions. -/
def x1 : ActEntry := { fn := some Ex.a1, data := [10], next := some 7 }
@[inherit_doc x1] def x2 : ActEntry := { fn := some Ex.a2, data := [20, 21] }
@[inherit_doc x1] def x3 : ActEntry := { fn := some Ex.a1, data := [30], next := some 7 }

abbrev Op := POp Unit (KeyOf fun _ => TableKind.exact 1) ActEntry

/-- Results in short form. -/
inductive Note
  | err (e : PErr) | done | id (n : Nat) | group (l : List Nat) | other
  | entry (h : Nat) | refused (e : TErr) | look (hit : Option Nat) (r : Look ActEntry)
deriving DecidableEq

/-- Short form of a result. -/
def note {K : Unit → Type} : POut Unit K ActEntry → Note
  | .err e => .err e
  | .done => .done
  | .id n => .id n
  | .group l => .group l
  | .tab _ (.err e) => .refused e
  | .tab _ (.handle h) => .entry h
  | .tab _ .done => .done
  | .look h r => .look h r
  | _ => .other

/-- Run and save. -/
def saved (ops : List Op) : Option (List (Tok Unit)) := do
  let (_, st1) ← st0.run ops
  saveSys nm [()] (entIO Unit Ex.o) (noMeters Unit Unit) st1

/-- Run, save, restore. -/
def restored (ops : List Op) : Option (ISys Unit (fun _ => .exact 1) Unit ActEntry) := do
  let txt ← saved ops
  let (st2, _) ← loadSys nm [()] (entIO Unit Ex.o) (noMeters Unit Unit) 0 st0 txt
  return st2

/-- Run, save, restore, run. -/
def via (ops ops' : List Op) : Option (Option (List Note)) := do
  let st2 ← restored ops
  return (st2.run ops').map fun r => r.1.map note

theorem env : EnvOk nm [()] where
  name := by simp [nm]
  node := by intro i n h; simp [nm] at h; subst h; unfold Objs.NodeOk; decide
  nodup := by decide
  all := by simp

theorem good1 : (entIO Unit Ex.o).Good x1 :=
  entIO_good _ _ _ (by decide) (by intro i h; cases h; unfold Objs.NodeOk; decide) (by decide) (by decide)
theorem good2 : (entIO Unit Ex.o).Good x2 :=
  entIO_good _ _ _ (by decide) (by intro i h; cases h) (by decide) (by decide)

/-- Members, groups and entries; member 0 and the entry in slot 0 are deleted again. -/
def demo : List Op :=
  [.addMember (some x1), .addMember (some x2), .addMember (some x1), .newGroup, .newGroup, .join 1 0, .join 2 0,
   .tAdd () (some [1]) (.mbr 1) 0, .tAdd () (some [2]) (.grp 0) 0, .tDel () 0, .setDflt () (.mbr 2), .delMember 0,
   .delGroup 1]

/-- The hypotheses of `C81_save_restore_partial` hold for this history, with a history after it that adds members and
entries. -/
example : CleanRun st0 demo ∧ (∀ op ∈ demo, PWrites (entIO Unit Ex.o).Good op) ∧ EnvOk nm [()] ∧
    (noMeters Unit Unit).Round (fun r0 _ => r0) := by
  refine ⟨cleanB_sound _ _ (by decide +kernel), ?_, env, fun _ _ _ => rfl⟩
  intro op hop
  simp only [demo, List.mem_cons, List.not_mem_nil, or_false] at hop
  rcases hop with rfl | rfl | rfl | rfl | rfl | rfl | rfl | rfl | rfl | rfl | rfl | rfl | rfl <;> try trivial
  · intro x hx; cases hx; exact good1
  · intro x hx; cases hx; exact good2
  · intro x hx; cases hx; exact good1

example : via demo [.getGroup 0, .tLookup () [2] 0 0 0, .tLookup () [2] 0 0 1, .tLookup () [1] 0 0 0, .delMember 1,
    .delMember 2, .delGroup 0, .delGroup 1, .addMember (some x3), .addMember (some x3), .tAdd () (some [1]) (.mbr 3) 0,
    .tLookup () [1] 0 0 0, .delMember 3] =
  some (some [.group [1, 2], .look (some 1) (.act x2), .look (some 1) (.act x1), .look none (.act x1), .err .inUse,
    .err .inUse, .err .inUse, .err .noGroup, .id 0, .id 3, .entry 0, .look (some 0) (.act x3), .err .inUse]) := by
  decide +kernel

/-- What is refuted: the property for the system above, for some of the histories. -/
abbrev Full (C : List Op → List Op → Prop) : Prop :=
  TransparentP (D := Unit) (fun _ => .exact 1) (fun _ => 4) (fun _ => ()) (fun _ => false) nm [()] (entIO Unit Ex.o)
    (noMeters Unit Unit) C

theorem restored_of {C} (h : Full C) (ops ops' : List Op) (hc : C ops ops') (hcl : CleanRun st0 ops)
    (hw : ∀ op ∈ ops, PWrites (entIO Unit Ex.o).Good op) :
    ∃ outs st1 s1 st2, st0.run ops = some (outs, st1) ∧ PTrace st0.cfg PState.empty ops outs s1 ∧ restored ops = some st2 ∧
      (CleanRun st2 ops' → ∃ outs' st3 s2, st2.run ops' = some (outs', st3) ∧ PTrace st0.cfg s1 ops' outs' s2) := by
  obtain ⟨outs, st1, s1, txt, st2, e1, tr, e2, e3, H⟩ := h ops ops' hc hcl hw
  refine ⟨outs, st1, s1, st2, e1, tr, ?_, H⟩
  have e1' : st0.run ops = some (outs, st1) := e1
  have e3' : loadSys nm [()] (entIO Unit Ex.o) (noMeters Unit Unit) 0 st0 txt = some (st2, []) := e3
  simp only [restored, saved, e1', e2, e3', Option.bind_eq_bind, Option.bind_some, Option.pure_def]

/-- Two groups, the first of which is deleted: the restore fails, and nothing follows it. -/
theorem C81_refuted_gap : ¬ Full fun _ ops' => ops' = [] := by
  intro h
  obtain ⟨-, -, -, st2, -, -, e, -⟩ := restored_of h [.newGroup, .newGroup, .delGroup 0] [] rfl
    (cleanB_sound _ _ (by decide +kernel)) (by simp [PWrites])
  have e' : (restored [.newGroup, .newGroup, .delGroup 0]).isNone = true := by decide +kernel
  rw [e] at e'
  cases e'

/-- The state was saved all the same. -/
example : (saved [.newGroup, .newGroup, .delGroup 0]).isSome = true := by decide +kernel

/-- A member in use by an entry; after the restore another member is added, which replaces it; it is then deleted, though
the entry still refers to it, and the next packet ends in a failed assertion. -/
example : via [.addMember (some x1), .tAdd () (some [1]) (.mbr 0) 0]
    [.tLookup () [1] 0 0 0, .delMember 0, .addMember (some x2), .tLookup () [1] 0 0 0, .delMember 0] =
    some (some [.look (some 0) (.act x1), .err .inUse, .id 0, .look (some 0) (.act x2), .done]) ∧
  via [.addMember (some x1), .tAdd () (some [1]) (.mbr 0) 0]
    [.addMember (some x2), .delMember 0, .tLookup () [1] 0 0 0] = some none := by
  constructor <;> decide +kernel

/-- A member is added before the save and another after the restore: no group, no table is involved. -/
theorem C81_refuted_member : ¬ Full fun ops ops' => ∀ op ∈ ops ++ ops', ∃ a, op = .addMember (some a) := by
  intro h
  obtain ⟨outs, st1, s1, st2, e1, tr, e, H⟩ := restored_of h [.addMember (some x1)] [.addMember (some x2)] (by simp)
    (cleanB_sound _ _ (by decide +kernel)) (by
      intro op hop
      simp only [List.mem_cons, List.not_mem_nil, or_false] at hop
      subst hop
      intro x hx; cases hx; exact good1)
  have e1' : (st0.run [.addMember (some x1)]).map (fun r => r.1.map note) = some [.id 0] := by decide +kernel
  have e2' : via [.addMember (some x1)] [.addMember (some x2)] = some (some [.id 0]) := by decide +kernel
  have e3' : (restored [.addMember (some x1)]).map (fun st => cleanB st [.addMember (some x2)]) = some true := by
    decide +kernel
  rw [e] at e3'
  obtain ⟨outs', st3, s2, e2, tr2⟩ := H (cleanB_sound _ _ (Option.some.inj e3'))
  rw [e1] at e1'
  simp only [via, e, Option.bind_eq_bind, Option.bind_some, e2, Option.map_some, Option.pure_def, Option.some.injEq] at e2' e1'
  cases tr with
  | cons st tr =>
    cases tr
    obtain ⟨m, -, rfl, rfl⟩ := st
    cases tr2 with
    | cons st tr =>
      cases tr
      obtain ⟨m', hm, rfl, rfl⟩ := st
      simp only [List.map_cons, List.map_nil, note, List.cons.injEq, Note.id.injEq, and_true] at e1' e2'
      subst e1' e2'
      simp at hm

/-- The same with groups. -/
theorem C81_refuted_group : ¬ Full fun ops ops' => ∀ op ∈ ops ++ ops', op = .newGroup := by
  intro h
  obtain ⟨outs, st1, s1, st2, e1, tr, e, H⟩ := restored_of h [.newGroup] [.newGroup] (by simp)
    (cleanB_sound _ _ (by decide +kernel)) (by simp [PWrites])
  have e1' : (st0.run [.newGroup]).map (fun r => r.1.map note) = some [.id 0] := by decide +kernel
  have e2' : via [.newGroup] [.newGroup] = some (some [.id 0]) := by decide +kernel
  have e3' : (restored [.newGroup]).map (fun st => cleanB st [.newGroup]) = some true := by
    decide +kernel
  rw [e] at e3'
  obtain ⟨outs', st3, s2, e2, tr2⟩ := H (cleanB_sound _ _ (Option.some.inj e3'))
  rw [e1] at e1'
  simp only [via, e, Option.bind_eq_bind, Option.bind_some, e2, Option.map_some, Option.pure_def, Option.some.injEq] at e2' e1'
  cases tr with
  | cons st tr =>
    cases tr
    obtain ⟨m, -, rfl, rfl⟩ := st
    cases tr2 with
    | cons st tr =>
      cases tr
      obtain ⟨m', hm, rfl, rfl⟩ := st
      simp only [List.map_cons, List.map_nil, note, List.cons.injEq, Note.id.injEq, and_true] at e1' e2'
      subst e1' e2'
      simp at hm

/-- A group loses its members: packets that matched an entry of the group get the empty action. -/
example : via [.addMember (some x1), .newGroup, .join 0 0, .tAdd () (some [1]) (.grp 0) 0]
    [.tLookup () [1] 0 0 0, .newGroup, .getGroup 0, .tLookup () [1] 0 0 0] =
    some (some [.look (some 0) (.act x1), .id 0, .group [], .look (some 0) .empty]) := by decide +kernel

end ExP
end Bm.Save
