import Verif.Lemmas.ProfileRep
import Verif.Lemmas.KeyBuilder

/-! Effect of each call on an action profile and its tables. -/

set_option linter.unusedSectionVars false

namespace Bm
open Spec

variable {ι : Type} [DecidableEq ι] [Fintype ι] {kind : ι → TableKind} {R A : Type}

/-- The counts are `f`, for the existing members and groups. -/
def CntOk (rc : RefCounts) (P : Ref → Prop) (f : Ref → Nat) : Prop :=
  ∀ r, P r → rc.at' r = some (f r % 2 ^ 32)

/-- One for equal references. -/
def same (r r0 : Ref) : Nat := if r = r0 then 1 else 0

theorem pts_some {K : Type} (r r0 : Ref) (k : K) : pts r (some (k, r0)) = same r r0 := by
  simp only [pts, same, Option.map_some, Option.some.injEq]
  by_cases h : r0 = r
  · simp [h]
  · rw [if_neg h, if_neg (fun e => h e.symm)]

theorem pts_none {K : Type} (r : Ref) : pts r (none : Option (K × Ref)) = 0 := by
  simp [pts]

theorem dcnt_some (r r0 : Ref) : dcnt (some r0) r = same r r0 := by
  simp only [dcnt, same, Option.some.injEq]
  by_cases h : r0 = r
  · simp [h]
  · rw [if_neg h, if_neg (fun e => h e.symm)]

theorem dcnt_none (r : Ref) : dcnt none r = 0 := by simp [dcnt]

theorem CntOk.inc {rc : RefCounts} {P : Ref → Prop} {f : Ref → Nat} (h : CntOk rc P f) {r0 : Ref}
    (hP : P r0) (hf : refId r0 < 2 ^ 24) :
    ∃ rc', rc.increase (encRef r0) = some rc' ∧ rc'.SameLen rc ∧
      CntOk rc' P (fun r => f r + same r r0) := by
  obtain ⟨rc', e, hl, hv⟩ := rc.increase_ok r0 hf _ (h r0 hP)
  refine ⟨rc', e, hl, ?_⟩
  intro r hr
  rw [hv]
  simp only [same]
  by_cases he : r = r0
  · subst he; rw [if_pos rfl, if_pos rfl]; refine congrArg some ?_; omega
  · rw [if_neg he, if_neg he, h r hr]; rfl

theorem CntOk.dec {rc : RefCounts} {P : Ref → Prop} {f : Ref → Nat} (h : CntOk rc P f) {r0 : Ref}
    (hP : P r0) (hf : refId r0 < 2 ^ 24) (h1 : 1 ≤ f r0) :
    ∃ rc', rc.decrease (encRef r0) = some rc' ∧ rc'.SameLen rc ∧
      CntOk rc' P (fun r => f r - same r r0) := by
  obtain ⟨rc', e, hl, hv⟩ := rc.decrease_ok r0 hf _ (h r0 hP)
  refine ⟨rc', e, hl, ?_⟩
  intro r hr
  rw [hv]
  simp only [same]
  by_cases he : r = r0
  · subst he; rw [if_pos rfl, if_pos rfl]; refine congrArg some ?_; omega
  · rw [if_neg he, if_neg he, h r hr]; rfl

theorem CntOk.decAll {P : Ref → Prop} (l : List Nat) : ∀ {rc : RefCounts} {f : Ref → Nat},
    CntOk rc P f → l.Nodup → (∀ m ∈ l, P (.mbr m) ∧ m < 2 ^ 24 ∧ 1 ≤ f (.mbr m)) →
    ∃ rc', AProf.decreaseAll rc l = some rc' ∧ rc'.SameLen rc ∧
      CntOk rc' P (fun r => f r - gcnt (some l.toFinset) r) := by
  induction l with
  | nil =>
    intro rc f h _ _
    refine ⟨rc, rfl, ⟨rfl, rfl⟩, ?_⟩
    intro r hr
    have : gcnt (some ([] : List Nat).toFinset) r = 0 := by cases r <;> simp [gcnt]
    simp only [this]; exact h r hr
  | cons m l ih =>
    intro rc f h hn hm
    rw [List.nodup_cons] at hn
    obtain ⟨p1, p2, p3⟩ := hm m (by simp)
    obtain ⟨rc1, e1, hl1, h1⟩ := h.dec p1 (r0 := .mbr m) p2 p3
    obtain ⟨rc2, e2, hl2, h2⟩ := ih h1 hn.2 (by
      intro m' hm'
      obtain ⟨q1, q2, q3⟩ := hm m' (by simp [hm'])
      refine ⟨q1, q2, ?_⟩
      have : m' ≠ m := fun e => hn.1 (e ▸ hm')
      simp [same, this]; exact q3)
    refine ⟨rc2, ?_, ⟨hl2.1.trans hl1.1, hl2.2.trans hl1.2⟩, ?_⟩
    · have hmk : IIdx.makeMbr m = some m := IIdx.make_eq (.mbr m) p2
      have e1' : rc.decrease m = some rc1 := e1
      simp [AProf.decreaseAll, hmk, e1', e2]
    · intro r hr
      rw [h2 r hr]
      congr 2
      cases r with
      | grp g => simp [gcnt, same]
      | mbr x =>
        by_cases hx : x = m
        · subst hx; simp [gcnt, same, hn.1]
        · simp [gcnt, same, hx]

/-- A step that conforms. -/
def Good (L : Ref → Nat) (st : ISys ι kind R A) (s : PState ι (KeyOf kind) A) (op : POp ι (KeyOf kind) A)
    (out : POut ι (KeyOf kind) A) (st' : ISys ι kind R A) : Prop :=
  ∃ s' Sm' Sg', PRepL st' s' Sm' Sg' L ∧ PStep st.cfg s op s' out ∧ st'.cfg = st.cfg

/-- A step that conforms, up to references left behind. -/
def GoodL (L : Ref → Nat) (st : ISys ι kind R A) (s : PState ι (KeyOf kind) A) (op : POp ι (KeyOf kind) A)
    (out : POut ι (KeyOf kind) A) (st' : ISys ι kind R A) : Prop :=
  ∃ s' Sm' Sg' L', PRepL st' s' Sm' Sg' L' ∧ PStepL st.cfg s L op s' L' out ∧ st'.cfg = st.cfg

theorem used_congr {s s' : PState ι (KeyOf kind) A} (ht : s'.tab = s.tab) (hd : s'.dflt = s.dflt)
    (hg : s'.grp = s.grp) (r : Ref) : s'.Used r ↔ s.Used r := by
  unfold PState.Used; rw [ht, hd, hg]

namespace PRepL
variable {st : ISys ι kind R A} {s : PState ι (KeyOf kind) A} {Sm Sg : Finset Nat} {L : Ref → Nat}

theorem keep (h : PRepL st s Sm Sg L) {op : POp ι (KeyOf kind) A} {out}
    (hs : PStep st.cfg s op s out) : Good L st s op out st := ⟨s, Sm, Sg, h, hs, rfl⟩

theorem cntOk (h : PRepL st s Sm Sg L) : CntOk st.prof.rc s.Has (fun r => refs s Sg r + L r) := h.cnt

theorem mfree_le (h : PRepL st s Sm Sg L) :
    st.prof.mbrH.firstUnset ≤ st.prof.entries.length ∧ st.prof.mbrH.firstUnset ≤ Sm.card := by
  constructor
  · by_contra hc
    have := (h.mlt _ (h.hm.least st.prof.entries.length (by omega))).1
    omega
  · have : Finset.range st.prof.mbrH.firstUnset ⊆ Sm :=
      fun j hj => h.hm.least j (Finset.mem_range.1 hj)
    simpa using Finset.card_le_card this

theorem gfree_le (h : PRepL st s Sm Sg L) :
    st.prof.grpH.firstUnset ≤ st.prof.groups.length ∧ st.prof.grpH.firstUnset ≤ Sg.card := by
  constructor
  · by_contra hc
    have := (h.glt _ (h.hg.least st.prof.groups.length (by omega))).1
    omega
  · have : Finset.range st.prof.grpH.firstUnset ⊆ Sg :=
      fun j hj => h.hg.least j (Finset.mem_range.1 hj)
    simpa using Finset.card_le_card this

theorem validMbr (h : PRepL st s Sm Sg L) (m : Nat) :
    st.prof.isValidMbr m = some (decide (m ∈ Sm)) := h.hm.validHandle m

theorem validGrp (h : PRepL st s Sm Sg L) (g : Nat) :
    st.prof.isValidGrp g = some (decide (g ∈ Sg)) := h.hg.validHandle g

/-- Insert or overwrite in a vector. -/
theorem insertVec {α : Type} (v : List α) (i : Nat) (x : α) (h : i ≤ v.length) :
    (if i = v.length then v ++ [x] else v.set i x).length = max v.length (i + 1) ∧
      ∀ j, (if i = v.length then v ++ [x] else v.set i x)[j]? = if j = i then some x else v[j]? := by
  by_cases he : i = v.length
  · subst he
    rw [if_pos rfl]
    refine ⟨by simp, ?_⟩
    intro j
    rw [List.getElem?_append]
    split
    · rw [if_neg (by omega)]
    · by_cases hj : j = v.length
      · simp [hj]
      · rw [if_neg hj, List.getElem?_eq_none (by simp; omega),
          List.getElem?_eq_none (by omega)]
  · rw [if_neg he]
    refine ⟨by simp; omega, ?_⟩
    intro j
    rw [List.getElem?_set]
    by_cases hj : i = j
    · subst hj; simp; omega
    · rw [if_neg hj, if_neg (by omega)]

theorem addMember (h : PRepL st s Sm Sg L) (a : Option A) (hc : st.prof.numMembers < 2 ^ 24) :
    ∃ out st', st.exec (.addMember a) = some (out, st') ∧ Good L st s (.addMember a) out st' := by
  cases a with
  | none => exact ⟨_, _, rfl, h.keep ⟨rfl, rfl⟩⟩
  | some a =>
    obtain ⟨mh, e1, hmh⟩ := h.hm.getHandle
    obtain ⟨hle, hcard⟩ := h.mfree_le
    have hfree := h.hm.free
    rw [h.nm] at hc
    generalize st.prof.mbrH.firstUnset = pos at *
    have hpos : pos < 2 ^ 24 := by omega
    obtain ⟨rc', e2, hl1, hl2, hv⟩ := st.prof.rc.set_ok (.mbr pos) hpos 0
      (by simp only [refId]; rw [h.mlen]; exact hle)
    have hmk : IIdx.makeMbr pos = some (encRef (.mbr pos)) := IIdx.make_eq (.mbr pos) hpos
    obtain ⟨il, iv⟩ := insertVec st.prof.entries pos a hle
    have hnone : s.mem pos = none := by rw [h.mem, if_neg hfree]
    refine ⟨.id pos, _, by
        simp only [ISys.exec, AProf.addMember, e1, Option.bind_eq_bind, Option.bind_some,
        AProf.entriesInsert, if_pos hle, hmk, e2, Option.pure_def, Option.map_some, if_true]
        rfl, ?_⟩
    refine ⟨{ s with mem := fun x => if x = pos then some a else s.mem x }, insert pos Sm, Sg, ?_, ⟨pos, hnone, rfl, rfl⟩, ?_⟩
    · have hhas : ∀ r, s.Has r → r ≠ .mbr pos := by
        rintro r hr rfl
        simp [PState.Has, hnone] at hr
      have hhas' : ∀ r, PState.Has { s with mem := fun x => if x = pos then some a else s.mem x } r ↔
          r = .mbr pos ∨ s.Has r := by
        intro r
        cases r with
        | grp g => simp [PState.Has]
        | mbr m =>
          by_cases hm : m = pos
          · subst hm; simp [PState.Has]
          · simp [PState.Has, hm]
      refine
        { sel := h.sel, hm := hmh, nm := ?_, mlt := ?_, mlen := ?_, mem := ?_, hg := h.hg,
          ng := h.ng, glt := h.glt, glen := le_of_le_of_eq h.glen hl2.symm, grp := h.grp, sorted := h.sorted,
          tabs := h.tabs, closed := ?_, cnt := ?_, nol := ?_ }
      · simp only; rw [Finset.card_insert_of_notMem hfree, h.nm]
      · intro m hm
        simp only
        rw [il]
        rcases Finset.mem_insert.1 hm with rfl | hm
        · exact ⟨by omega, hpos⟩
        · have := h.mlt m hm
          exact ⟨by omega, this.2⟩
      · simp only; rw [hl1, il, h.mlen]
      · intro m
        simp only
        rw [iv]
        by_cases hm : m = pos
        · subst hm; simp
        · simp only [if_neg hm, h.mem, Finset.mem_insert, hm, false_or, if_false]
      · intro r hr
        exact (hhas' r).2 (.inr (h.closed r ((used_congr rfl rfl rfl r).1 hr)))
      · intro r hr
        simp only
        show _ = some ((refs s Sg r + L r) % 2 ^ 32)
        rw [hv]
        rcases (hhas' r).1 hr with rfl | hr
        · rw [if_pos rfl]
          have : refs s Sg (.mbr pos) = 0 := by
            by_contra hc
            have := h.closed _ ((h.refs_pos (.mbr pos)).1 (by omega))
            exact hhas _ this rfl
          rw [this, h.nol _ fun hh => hhas _ hh rfl]; rfl
        · rw [if_neg (hhas r hr), h.cnt r hr]
      · exact fun r hr => h.nol r fun hh => hr ((hhas' r).2 (.inr hh))
    · rfl

theorem delMember (h : PRepL st s Sm Sg L) (hn : Room ι L) (m : Nat) :
    ∃ out st', st.exec (.delMember m) = some (out, st') ∧ GoodL L st s (.delMember m) out st' := by
  by_cases hm : m ∈ Sm
  · have hhas := (h.mem_iff m).2 hm
    obtain ⟨c, e1, hc⟩ := h.count_zero hn hhas
    have hmk : IIdx.makeMbr m = some (encRef (.mbr m)) := IIdx.make_eq (.mbr m) (h.fits hhas)
    by_cases hL : 0 < L (.mbr m)
    · refine ⟨.err .inUse, st, ?_, s, Sm, Sg, L, h, ⟨rfl, .inl ⟨hL, hhas, rfl, rfl⟩⟩, rfl⟩
      simp [ISys.exec, AProf.deleteMember, h.validMbr, hm, hmk, e1, hc.2 (.inr hL), ISys.code]
    have hL0 : L (.mbr m) = 0 := by omega
    have hc : 0 < c ↔ s.Used (.mbr m) := by rw [hc]; exact or_iff_left hL
    by_cases hu : s.Used (.mbr m)
    · refine ⟨.err .inUse, st, ?_, ⟨s, Sm, Sg, L, h, ⟨rfl, .inr ⟨hL0, .inr (.inl ⟨hhas, hu, rfl, rfl⟩)⟩⟩, rfl⟩⟩
      simp [ISys.exec, AProf.deleteMember, h.validMbr, hm, hmk, e1, hc.2 hu, ISys.code]
    · have hc0 : ¬ c > 0 := fun hp => hu (hc.1 hp)
      obtain ⟨mh, e2, hmh⟩ := h.hm.releaseHandle m
      refine ⟨.done, _, by
          simp only [ISys.exec, AProf.deleteMember, h.validMbr, hm, decide_true, hmk, e1, hc0, e2,
          Option.bind_eq_bind, Option.bind_some, Bool.not_true, if_false, if_true,
          Bool.false_eq_true, Option.pure_def, Option.map_some, ISys.code]
          rfl, ?_⟩
      refine ⟨{ s with mem := fun x => if x = m then none else s.mem x }, Sm.erase m, Sg, L, ?_, ⟨rfl, .inr ⟨hL0, .inr (.inr ⟨hhas, hu, rfl, rfl⟩)⟩⟩, ?_⟩
      · have hhas' : ∀ r, PState.Has { s with mem := fun x => if x = m then none else s.mem x } r ↔
            r ≠ .mbr m ∧ s.Has r := by
          intro r
          cases r with
          | grp g => simp [PState.Has]
          | mbr x =>
            by_cases hx : x = m
            · subst hx; simp [PState.Has]
            · simp [PState.Has, hx]
        refine
          { sel := h.sel, hm := hmh, nm := ?_, mlt := ?_, mlen := h.mlen, mem := ?_, hg := h.hg,
            ng := h.ng, glt := h.glt, glen := h.glen, grp := h.grp, sorted := h.sorted,
            tabs := h.tabs, closed := ?_, cnt := ?_, nol := ?_ }
        · simp only; rw [Finset.card_erase_of_mem hm, h.nm]
        · intro x hx
          exact h.mlt x (Finset.mem_of_mem_erase hx)
        · intro x
          simp only
          by_cases hx : x = m
          · subst hx; simp
          · simp only [h.mem, Finset.mem_erase, hx, ne_eq, not_false_eq_true, true_and, if_false]
        · intro r hr
          have hr' := (used_congr (s := s) rfl rfl rfl r).1 hr
          refine (hhas' r).2 ⟨?_, h.closed r hr'⟩
          rintro rfl
          exact hu hr'
        · intro r hr
          show _ = some ((refs s Sg r + L r) % 2 ^ 32)
          exact h.cnt r ((hhas' r).1 hr).2
        · intro r hr
          by_cases he : r = .mbr m
          · rw [he]; exact hL0
          · exact h.nol r fun hh => hr ((hhas' r).2 ⟨he, hh⟩)
      · rfl
  · have hhas : ¬ s.Has (.mbr m) := fun hh => hm ((h.mem_iff m).1 hh)
    refine ⟨.err .noMember, st, ?_, ⟨s, Sm, Sg, L, h, ⟨rfl, .inr ⟨h.nol _ hhas, .inl ⟨hhas, rfl, rfl⟩⟩⟩, rfl⟩⟩
    simp [ISys.exec, AProf.deleteMember, h.validMbr, hm, ISys.code]

theorem modMember (h : PRepL st s Sm Sg L) (m : Nat) (a : Option A) :
    ∃ out st', st.exec (.modMember m a) = some (out, st') ∧ Good L st s (.modMember m a) out st' := by
  cases a with
  | none => exact ⟨_, _, rfl, h.keep ⟨rfl, rfl⟩⟩
  | some a =>
    by_cases hm : m ∈ Sm
    · have hhas := (h.mem_iff m).2 hm
      have hlt := (h.mlt m hm).1
      refine ⟨.done, _, by
          simp only [ISys.exec, AProf.modifyMember, h.validMbr, hm, decide_true, hlt,
          Option.bind_eq_bind, Option.bind_some, Bool.not_true, if_false, if_true,
          Bool.false_eq_true, Option.pure_def, Option.map_some, ISys.code]
          rfl, ?_⟩
      refine ⟨{ s with mem := fun x => if x = m then some a else s.mem x }, Sm, Sg, ?_, .inr ⟨hhas, rfl, rfl⟩, ?_⟩
      · have hhas' : ∀ r, PState.Has { s with mem := fun x => if x = m then some a else s.mem x } r ↔
            s.Has r := by
          intro r
          cases r with
          | grp g => simp [PState.Has]
          | mbr x =>
            by_cases hx : x = m
            · subst hx
              simp only [PState.Has] at hhas
              simp [PState.Has, hhas]
            · simp [PState.Has, hx]
        refine
          { sel := h.sel, hm := h.hm, nm := h.nm, mlt := ?_, mlen := ?_, mem := ?_, hg := h.hg,
            ng := h.ng, glt := h.glt, glen := h.glen, grp := h.grp, sorted := h.sorted,
            tabs := h.tabs, closed := ?_, cnt := ?_, nol := ?_ }
        · intro x hx
          simp only [List.length_set]; exact h.mlt x hx
        · simp only [List.length_set]; exact h.mlen
        · intro x
          simp only [List.getElem?_set]
          by_cases hx : x = m
          · subst hx; simp [hm, hlt]
          · simp only [if_neg hx, h.mem, if_neg (Ne.symm hx)]
        · intro r hr
          exact (hhas' r).2 (h.closed r ((used_congr (s := s) rfl rfl rfl r).1 hr))
        · intro r hr
          show _ = some ((refs s Sg r + L r) % 2 ^ 32)
          exact h.cnt r ((hhas' r).1 hr)
        · exact fun r hr => h.nol r fun hh => hr ((hhas' r).2 hh)
      · rfl
    · have hhas : ¬ s.Has (.mbr m) := fun hh => hm ((h.mem_iff m).1 hh)
      refine ⟨.err .noMember, st, ?_, h.keep (.inl ⟨hhas, rfl, rfl⟩)⟩
      simp [ISys.exec, AProf.modifyMember, h.validMbr, hm, ISys.code]

theorem newGroup (h : PRepL st s Sm Sg L) (hc : st.prof.numGroups < 2 ^ 24) :
    ∃ out st', st.exec .newGroup = some (out, st') ∧ Good L st s .newGroup out st' := by
  obtain ⟨gh, e1, hgh⟩ := h.hg.getHandle
  obtain ⟨hle, hcard⟩ := h.gfree_le
  have hfree := h.hg.free
  rw [h.ng] at hc
  generalize st.prof.grpH.firstUnset = pos at *
  have hpos : pos < 2 ^ 24 := by omega
  obtain ⟨rc', e2, hl1, hl2, hv⟩ := st.prof.rc.set_ok (.grp pos) hpos 0
    (by simp only [refId]; exact hle.trans h.glen)
  have hmk : IIdx.makeGrp pos = some (encRef (.grp pos)) := IIdx.make_eq (.grp pos) hpos
  obtain ⟨il, iv⟩ := insertVec st.prof.groups pos [] hle
  have hnone : s.grp pos = none := by rw [h.grp, if_neg hfree]
  refine ⟨.id pos, _, by
      simp only [ISys.exec, AProf.createGroup, e1, Option.bind_eq_bind, Option.bind_some,
      AProf.insertGroup, if_pos hle, hmk, e2, Option.pure_def, Option.map_some]
      rfl, ?_⟩
  refine ⟨{ s with grp := fun x => if x = pos then some ∅ else s.grp x }, Sm, insert pos Sg, ?_, ⟨pos, hnone, rfl, rfl⟩, ?_⟩
  · have hhas : ∀ r, s.Has r → r ≠ .grp pos := by
      rintro r hr rfl
      simp [PState.Has, hnone] at hr
    have hhas' : ∀ r, PState.Has { s with grp := fun x => if x = pos then some ∅ else s.grp x } r ↔
        r = .grp pos ∨ s.Has r := by
      intro r
      cases r with
      | mbr g => simp [PState.Has]
      | grp m =>
        by_cases hm : m = pos
        · subst hm; simp [PState.Has]
        · simp [PState.Has, hm]
    have hused : ∀ r, PState.Used { s with grp := fun x => if x = pos then some ∅ else s.grp x } r →
        s.Used r := by
      rintro r (h1 | h1 | ⟨m, g, G, rfl, hG, hm⟩)
      · exact .inl h1
      · exact .inr (.inl h1)
      · simp only at hG
        split at hG
        · simp only [Option.some.injEq] at hG
          subst hG; simp at hm
        · exact .inr (.inr ⟨m, g, G, rfl, hG, hm⟩)
    refine
      { sel := h.sel, hm := h.hm, nm := h.nm, mlt := h.mlt, mlen := hl1.trans h.mlen,
        mem := h.mem, hg := hgh, ng := ?_, glt := ?_, glen := ?_, grp := ?_, sorted := ?_,
        tabs := h.tabs, closed := ?_, cnt := ?_, nol := ?_ }
    · simp only; rw [Finset.card_insert_of_notMem hfree, h.ng]
    · intro g hg
      simp only
      rw [il]
      rcases Finset.mem_insert.1 hg with rfl | hg
      · exact ⟨by omega, hpos⟩
      · have := h.glt g hg
        exact ⟨by omega, this.2⟩
    · simp only; rw [hl2, il]; exact max_le_max h.glen le_rfl
    · intro g
      simp only
      rw [iv]
      by_cases hg : g = pos
      · subst hg; simp
      · simp only [if_neg hg, h.grp, Finset.mem_insert, hg, false_or, if_false]
    · intro l hl
      simp only at hl
      split at hl
      · rcases List.mem_append.1 hl with hl | hl
        · exact h.sorted l hl
        · simp only [List.mem_singleton] at hl; subst hl; simp
      · rcases List.mem_or_eq_of_mem_set hl with hl | rfl
        · exact h.sorted l hl
        · simp
    · intro r hr
      exact (hhas' r).2 (.inr (h.closed r (hused r hr)))
    · intro r hr
      have hrefs : refs ({ s with grp := fun x => if x = pos then some ∅ else s.grp x } :
          PState ι (KeyOf kind) A) (insert pos Sg) r = refs s Sg r := by
        unfold refs
        rw [Finset.sum_insert hfree]
        have : gcnt (some ∅) r = 0 := by cases r <;> simp [gcnt]
        simp only [if_true, this, Nat.zero_add]
        congr 1
        refine Finset.sum_congr rfl (fun g hg => ?_)
        rw [if_neg (fun e : g = pos => hfree (e ▸ hg))]
      simp only
      rw [hv, hrefs]
      rcases (hhas' r).1 hr with rfl | hr
      · rw [if_pos rfl]
        have : refs s Sg (.grp pos) = 0 := by
          by_contra hc
          have := h.closed _ ((h.refs_pos (.grp pos)).1 (by omega))
          exact hhas _ this rfl
        rw [this, h.nol _ fun hh => hhas _ hh rfl]; rfl
      · rw [if_neg (hhas r hr), h.cnt r hr]
    · exact fun r hr => h.nol r fun hh => hr ((hhas' r).2 (.inr hh))
  · rfl

theorem delGroup (h : PRepL st s Sm Sg L) (hn : Room ι L) (g : Nat) :
    ∃ out st', st.exec (.delGroup g) = some (out, st') ∧ GoodL L st s (.delGroup g) out st' := by
  by_cases hg : g ∈ Sg
  · have hhas := (h.grp_iff g).2 hg
    obtain ⟨c, e1, hc⟩ := h.count_zero hn hhas
    have hmk : IIdx.makeGrp g = some (encRef (.grp g)) := IIdx.make_eq (.grp g) (h.fits hhas)
    by_cases hL : 0 < L (.grp g)
    · refine ⟨.err .inUse, st, ?_, s, Sm, Sg, L, h, ⟨rfl, .inl ⟨hL, hhas, rfl, rfl⟩⟩, rfl⟩
      simp [ISys.exec, AProf.deleteGroup, h.validGrp, hg, hmk, e1, hc.2 (.inr hL), ISys.code]
    have hL0 : L (.grp g) = 0 := by omega
    have hc : 0 < c ↔ s.Used (.grp g) := by rw [hc]; exact or_iff_left hL
    by_cases hu : s.Used (.grp g)
    · refine ⟨.err .inUse, st, ?_, ⟨s, Sm, Sg, L, h, ⟨rfl, .inr ⟨hL0, .inr (.inl ⟨hhas, hu, rfl, rfl⟩)⟩⟩, rfl⟩⟩
      simp [ISys.exec, AProf.deleteGroup, h.validGrp, hg, hmk, e1, hc.2 hu, ISys.code]
    · have hc0 : ¬ c > 0 := fun hp => hu (hc.1 hp)
      obtain ⟨gh, e2, hgh⟩ := h.hg.releaseHandle g
      obtain ⟨l, el, hsl, hgl⟩ := h.info hg
      have hgm : ∀ m, m ∈ l → s.Used (.mbr m) := fun m hm =>
        .inr (.inr ⟨m, g, _, rfl, hgl, List.mem_toFinset.2 hm⟩)
      obtain ⟨rc', e3, hlen, hcnt⟩ := h.cntOk.decAll l (hsl.imp (fun hab => by omega)) (by
        intro m hm
        have hh := h.closed _ (hgm m hm)
        exact ⟨hh, h.fits hh, Nat.le_add_right_of_le ((h.refs_pos _).2 (hgm m hm))⟩)
      refine ⟨.done, _, by
          simp only [ISys.exec, AProf.deleteGroup, h.validGrp, hg, decide_true, hmk, e1, hc0, e2,
          el, e3, Option.bind_eq_bind, Option.bind_some, Bool.not_true, if_false, if_true,
          Bool.false_eq_true, Option.pure_def, Option.map_some, ISys.code]
          rfl, ?_⟩
      refine ⟨{ s with grp := fun x => if x = g then none else s.grp x }, Sm, Sg.erase g, L, ?_, ⟨rfl, .inr ⟨hL0, .inr (.inr ⟨hhas, hu, rfl, rfl⟩)⟩⟩, ?_⟩
      · have hhas' : ∀ r, PState.Has { s with grp := fun x => if x = g then none else s.grp x } r ↔
            r ≠ .grp g ∧ s.Has r := by
          intro r
          cases r with
          | mbr g => simp [PState.Has]
          | grp x =>
            by_cases hx : x = g
            · subst hx; simp [PState.Has]
            · simp [PState.Has, hx]
        have hused : ∀ r, PState.Used { s with grp := fun x => if x = g then none else s.grp x } r →
            s.Used r := by
          rintro r (h1 | h1 | ⟨m, g, G, rfl, hG, hm⟩)
          · exact .inl h1
          · exact .inr (.inl h1)
          · simp only at hG
            split at hG
            · cases hG
            · exact .inr (.inr ⟨m, g, G, rfl, hG, hm⟩)
        refine
          { sel := h.sel, hm := h.hm, nm := h.nm, mlt := h.mlt, mlen := hlen.1.trans h.mlen,
            mem := h.mem, hg := hgh, ng := ?_, glt := ?_, glen := le_of_le_of_eq h.glen hlen.2.symm, grp := ?_,
            sorted := h.sorted, tabs := h.tabs, closed := ?_, cnt := ?_, nol := ?_ }
        · simp only; rw [Finset.card_erase_of_mem hg, h.ng]
        · intro x hx
          exact h.glt x (Finset.mem_of_mem_erase hx)
        · intro x
          simp only
          by_cases hx : x = g
          · subst hx; simp
          · simp only [h.grp, Finset.mem_erase, hx, ne_eq, not_false_eq_true, true_and, if_false]
        · intro r hr
          refine (hhas' r).2 ⟨?_, h.closed r (hused r hr)⟩
          rintro rfl
          exact hu (hused _ hr)
        · intro r hr
          simp only
          rw [hcnt r ((hhas' r).1 hr).2]
          congr 2
          unfold refs
          beta_reduce
          rw [← Finset.add_sum_erase Sg (fun g => gcnt (s.grp g) r) hg]
          have : ∑ x ∈ Sg.erase g, gcnt (if x = g then none else s.grp x) r =
              ∑ x ∈ Sg.erase g, gcnt (s.grp x) r :=
            Finset.sum_congr rfl (fun x hx => by rw [if_neg (Finset.ne_of_mem_erase hx)])
          simp only [this, hgl]
          omega
        · intro r hr
          by_cases he : r = .grp g
          · rw [he]; exact hL0
          · exact h.nol r fun hh => hr ((hhas' r).2 ⟨he, hh⟩)
      · rfl
  · have hhas : ¬ s.Has (.grp g) := fun hh => hg ((h.grp_iff g).1 hh)
    refine ⟨.err .noGroup, st, ?_, ⟨s, Sm, Sg, L, h, ⟨rfl, .inr ⟨h.nol _ hhas, .inl ⟨hhas, rfl, rfl⟩⟩⟩, rfl⟩⟩
    simp [ISys.exec, AProf.deleteGroup, h.validGrp, hg, ISys.code]

theorem grp_none (h : PRepL st s Sm Sg L) {g : Nat} (hg : g ∉ Sg) : s.grp g = none := by
  rw [h.grp, if_neg hg]

theorem mem_none (h : PRepL st s Sm Sg L) {m : Nat} (hm : m ∉ Sm) : s.mem m = none := by
  rw [h.mem, if_neg hm]

/-- Replace the members of one group. -/
theorem setGroup (h : PRepL st s Sm Sg L) {g : Nat} (hg : g ∈ Sg) (l' : List Nat)
    (hs : l'.Pairwise (· < ·)) (rc' : RefCounts) (hlen : rc'.SameLen st.prof.rc)
    (hcl : ∀ m ∈ l', s.Has (.mbr m))
    (hcnt : CntOk rc' s.Has (fun r => refs s Sg r + L r + gcnt (some l'.toFinset) r - gcnt (s.grp g) r)) :
    PRepL { st with prof := { st.prof with groups := st.prof.groups.set g l', rc := rc' } }
      { s with grp := fun x => if x = g then some l'.toFinset else s.grp x } Sm Sg L := by
  have hlt := (h.glt g hg).1
  have hhas' : ∀ r, PState.Has { s with grp := fun x => if x = g then some l'.toFinset else s.grp x } r ↔
      s.Has r := by
    intro r
    cases r with
    | mbr g => simp [PState.Has]
    | grp x =>
      by_cases hx : x = g
      · subst hx
        have := (h.grp_iff x).2 hg
        simp only [PState.Has] at this
        simp [PState.Has, this]
      · simp [PState.Has, hx]
  refine
    { sel := h.sel, hm := h.hm, nm := h.nm, mlt := h.mlt, mlen := hlen.1.trans h.mlen,
      mem := h.mem, hg := h.hg, ng := h.ng, glt := ?_, glen := ?_, grp := ?_,
      sorted := ?_, tabs := h.tabs, closed := ?_, cnt := ?_, nol := ?_ }
  · intro x hx
    simp only [List.length_set]; exact h.glt x hx
  · simp only [List.length_set]; exact le_of_le_of_eq h.glen hlen.2.symm
  · intro x
    simp only [List.getElem?_set]
    by_cases hx : x = g
    · subst hx; simp [hg, hlt]
    · simp only [if_neg hx, h.grp, if_neg (Ne.symm hx)]
  · intro l hl
    rcases List.mem_or_eq_of_mem_set hl with hl | rfl
    · exact h.sorted l hl
    · exact hs
  · intro r hr
    rw [hhas']
    rcases hr with h1 | h1 | ⟨m, x, G, rfl, hG, hm⟩
    · exact h.closed r (.inl h1)
    · exact h.closed r (.inr (.inl h1))
    · simp only at hG
      split at hG
      · simp only [Option.some.injEq] at hG
        subst hG
        exact hcl m (List.mem_toFinset.1 hm)
      · exact h.closed _ (.inr (.inr ⟨m, x, G, rfl, hG, hm⟩))
  · intro r hr
    simp only
    rw [hcnt r ((hhas' r).1 hr)]
    have := refs_grp (s := s)
      (s' := { s with grp := fun x => if x = g then some l'.toFinset else s.grp x }) (Sg := Sg)
      rfl rfl g hg (fun x hx => by simp [hx]) r
    simp only [if_true] at this
    refine congrArg some (congrArg (· % 2 ^ 32) ?_)
    beta_reduce
    omega
  · exact fun r hr => h.nol r fun hh => hr ((hhas' r).2 hh)

theorem join (h : PRepL st s Sm Sg L) (m g : Nat) :
    ∃ out st', st.exec (.join m g) = some (out, st') ∧ Good L st s (.join m g) out st' := by
  by_cases hm : m ∈ Sm
  · have hhas := (h.mem_iff m).2 hm
    by_cases hg : g ∈ Sg
    · obtain ⟨l, el, hsl, hgl⟩ := h.info hg
      obtain ⟨a1, a2, a3⟩ := Ras.add_spec l m hsl
      by_cases hml : m ∈ l
      · have hfin : (Ras.add l m).2.toFinset = l.toFinset := by
          ext y; simp only [List.mem_toFinset, a3]
          exact ⟨fun hy => hy.elim (fun e => e ▸ hml) id, .inr⟩
        refine ⟨.err .already, _, by
          simp only [ISys.exec, AProf.addMemberToGroup, h.validMbr, h.validGrp, hm, hg,
            decide_true, el, a1, hml, not_true_eq_false, decide_false, Option.bind_eq_bind,
            Option.bind_some, Bool.not_true, if_false, Bool.false_eq_true, Option.pure_def,
            Option.map_some, ISys.code]
          rfl, ?_⟩
        have hr := h.setGroup hg (Ras.add l m).2 a2 st.prof.rc ⟨rfl, rfl⟩ (by
          intro x hx
          have hx' : x ∈ l := by
            have : x ∈ (Ras.add l m).2.toFinset := List.mem_toFinset.2 hx
            rw [hfin] at this; exact List.mem_toFinset.1 this
          exact h.closed _ (.inr (.inr ⟨x, g, _, rfl, hgl, List.mem_toFinset.2 hx'⟩))) (by
          rw [hfin, hgl]
          intro r hr
          simp only [Nat.add_sub_cancel]
          exact h.cnt r hr)
        have hs : ({ s with grp := fun x => if x = g then some (Ras.add l m).2.toFinset else s.grp x } :
            PState ι (KeyOf kind) A) = s := by
          have : (fun x => if x = g then some (Ras.add l m).2.toFinset else s.grp x) = s.grp := by
            funext x
            by_cases hx : x = g
            · subst hx; rw [if_pos rfl, hfin, hgl]
            · rw [if_neg hx]
          rw [this]
        rw [hs] at hr
        exact ⟨s, Sm, Sg, hr, .inr (.inr ⟨_, hhas, hgl, .inl ⟨List.mem_toFinset.2 hml, rfl, rfl⟩⟩), rfl⟩
      · have hfin : (Ras.add l m).2.toFinset = insert m l.toFinset := by
          ext y; simp only [List.mem_toFinset, a3, Finset.mem_insert]
        have hmk : IIdx.makeMbr m = some (encRef (.mbr m)) := IIdx.make_eq (.mbr m) (h.fits hhas)
        obtain ⟨rc', e2, hlen, hcnt⟩ := h.cntOk.inc hhas (h.fits hhas)
        refine ⟨.done, _, by
          simp only [ISys.exec, AProf.addMemberToGroup, h.validMbr, h.validGrp, hm, hg,
            decide_true, el, a1, hml, not_false_eq_true, Option.bind_eq_bind, hmk, e2,
            Option.bind_some, Bool.not_true, if_false, if_true, Bool.false_eq_true, Option.pure_def,
            Option.map_some, ISys.code]
          rfl, ?_⟩
        have hr := h.setGroup hg (Ras.add l m).2 a2 rc' hlen (by
          intro x hx
          rcases (a3 x).1 hx with rfl | hx
          · exact hhas
          · exact h.closed _ (.inr (.inr ⟨x, g, _, rfl, hgl, List.mem_toFinset.2 hx⟩))) (by
          rw [hfin, hgl]
          intro r hr
          rw [hcnt r hr]
          refine congrArg some (congrArg (· % 2 ^ 32) ?_)
          cases r with
          | grp x => simp [gcnt, same]
          | mbr x =>
            by_cases hx : x = m
            · subst hx; simp [gcnt, same, hml]
            · simp [gcnt, same, hx])
        refine ⟨_, Sm, Sg, hr, .inr (.inr ⟨_, hhas, hgl, .inr ⟨by simpa using hml, rfl, ?_⟩⟩), rfl⟩
        rw [hfin]
    · have hgn := h.grp_none hg
      refine ⟨.err .noGroup, st, ?_, h.keep (.inr (.inl ⟨hhas, hgn, rfl, rfl⟩))⟩
      simp [ISys.exec, AProf.addMemberToGroup, h.validMbr, hm, h.validGrp, hg, ISys.code]
  · have hhas : ¬ s.Has (.mbr m) := fun hh => hm ((h.mem_iff m).1 hh)
    refine ⟨.err .noMember, st, ?_, h.keep (.inl ⟨hhas, rfl, rfl⟩)⟩
    simp [ISys.exec, AProf.addMemberToGroup, h.validMbr, hm, ISys.code]

theorem leave (h : PRepL st s Sm Sg L) (m g : Nat) :
    ∃ out st', st.exec (.leave m g) = some (out, st') ∧ Good L st s (.leave m g) out st' := by
  by_cases hm : m ∈ Sm
  · have hhas := (h.mem_iff m).2 hm
    by_cases hg : g ∈ Sg
    · obtain ⟨l, el, hsl, hgl⟩ := h.info hg
      obtain ⟨a1, a2, a3⟩ := Ras.remove_spec l m hsl
      by_cases hml : m ∈ l
      · have hfin : (Ras.remove l m).2.toFinset = l.toFinset.erase m := by
          ext y; simp only [List.mem_toFinset, a3, Finset.mem_erase]
        have hmk : IIdx.makeMbr m = some (encRef (.mbr m)) := IIdx.make_eq (.mbr m) (h.fits hhas)
        have hu : s.Used (.mbr m) := .inr (.inr ⟨m, g, _, rfl, hgl, List.mem_toFinset.2 hml⟩)
        obtain ⟨rc', e2, hlen, hcnt⟩ := h.cntOk.dec hhas (h.fits hhas) (Nat.le_add_right_of_le ((h.refs_pos _).2 hu))
        refine ⟨.done, _, by
          simp only [ISys.exec, AProf.removeMemberFromGroup, h.validMbr, h.validGrp, hm, hg,
            decide_true, el, a1, hml, Option.bind_eq_bind, hmk, e2,
            Option.bind_some, Bool.not_true, if_false, if_true, Bool.false_eq_true, Option.pure_def,
            Option.map_some, ISys.code]
          rfl, ?_⟩
        have hr := h.setGroup hg (Ras.remove l m).2 a2 rc' hlen (by
          intro x hx
          exact h.closed _ (.inr (.inr ⟨x, g, _, rfl, hgl, List.mem_toFinset.2 ((a3 x).1 hx).2⟩))) (by
          rw [hfin, hgl]
          intro r hr
          rw [hcnt r hr]
          refine congrArg some (congrArg (· % 2 ^ 32) ?_)
          cases r with
          | grp x => simp [gcnt, same]
          | mbr x =>
            by_cases hx : x = m
            · subst hx; simp [gcnt, same, hml]
            · simp [gcnt, same, hx])
        refine ⟨_, Sm, Sg, hr, .inr (.inr ⟨_, hhas, hgl, .inr ⟨by simpa using hml, rfl, ?_⟩⟩), rfl⟩
        rw [hfin]
      · have hfin : (Ras.remove l m).2.toFinset = l.toFinset := by
          ext y; simp only [List.mem_toFinset, a3]
          exact ⟨fun hy => hy.2, fun hy => ⟨fun e => hml (e ▸ hy), hy⟩⟩
        refine ⟨.err .notIn, _, by
          simp only [ISys.exec, AProf.removeMemberFromGroup, h.validMbr, h.validGrp, hm, hg,
            decide_true, el, a1, hml, decide_false, Option.bind_eq_bind,
            Option.bind_some, Bool.not_true, if_false, Bool.false_eq_true, Option.pure_def,
            Option.map_some, ISys.code]
          rfl, ?_⟩
        have hr := h.setGroup hg (Ras.remove l m).2 a2 st.prof.rc ⟨rfl, rfl⟩ (by
          intro x hx
          exact h.closed _ (.inr (.inr ⟨x, g, _, rfl, hgl, List.mem_toFinset.2 ((a3 x).1 hx).2⟩))) (by
          rw [hfin, hgl]
          intro r hr
          simp only [Nat.add_sub_cancel]
          exact h.cnt r hr)
        have hs : ({ s with grp := fun x => if x = g then some (Ras.remove l m).2.toFinset else s.grp x } :
            PState ι (KeyOf kind) A) = s := by
          have : (fun x => if x = g then some (Ras.remove l m).2.toFinset else s.grp x) = s.grp := by
            funext x
            by_cases hx : x = g
            · subst hx; rw [if_pos rfl, hfin, hgl]
            · rw [if_neg hx]
          rw [this]
        rw [hs] at hr
        exact ⟨s, Sm, Sg, hr, .inr (.inr ⟨_, hhas, hgl, .inl ⟨by simpa using hml, rfl, rfl⟩⟩), rfl⟩
    · have hgn := h.grp_none hg
      refine ⟨.err .noGroup, st, ?_, h.keep (.inr (.inl ⟨hhas, hgn, rfl, rfl⟩))⟩
      simp [ISys.exec, AProf.removeMemberFromGroup, h.validMbr, hm, h.validGrp, hg, ISys.code]
  · have hhas : ¬ s.Has (.mbr m) := fun hh => hm ((h.mem_iff m).1 hh)
    refine ⟨.err .noMember, st, ?_, h.keep (.inl ⟨hhas, rfl, rfl⟩)⟩
    simp [ISys.exec, AProf.removeMemberFromGroup, h.validMbr, hm, ISys.code]

end PRepL
end Bm
