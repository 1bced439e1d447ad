import Verif.Lemmas.ProfileTab

/-! Histories of calls on an action profile and its tables. -/

set_option linter.unusedSectionVars false

namespace Bm
open Spec

variable {ι : Type} [DecidableEq ι] [Fintype ι] {kind : ι → TableKind} {R A : Type}

/-- Situations in which a call may be made without losing track of references: not more than
`2^24` members and groups; no reset while a group exists (C17); no clearing of a table that holds
references (C15). -/
def ISys.Pre (st : ISys ι kind R A) : POp ι (KeyOf kind) A → Prop
  | .addMember _ => st.prof.numMembers < 2 ^ 24
  | .newGroup => st.prof.numGroups < 2 ^ 24
  | .resetAll => st.prof.numGroups = 0
  | .clear i d => (st.tabs i).mu.numEntries = 0 ∧ (d = true → (st.tabs i).defaultSet = false)
  | _ => True

/-- Results after which the reference counts are still right: not a refused addition to a table,
not a refused modification of an existing entry. -/
def CleanOut : POp ι (KeyOf kind) A → POut ι (KeyOf kind) A → Prop
  | .tAdd _ _ _ _, .tab _ (.err _) => False
  | .tMod _ _ _, .err _ => False
  | _, _ => True

/-- Histories staying within these limits. -/
def CleanRun : ISys ι kind R A → List (POp ι (KeyOf kind) A) → Prop
  | _, [] => True
  | st, op :: ops => op.Valid st.cfg ∧ st.Pre op ∧
      match st.exec op with
      | none => True
      | some (out, st') => CleanOut op out ∧ CleanRun st' ops

namespace PRepL
variable {st : ISys ι kind R A} {s : PState ι (KeyOf kind) A} {Sm Sg : Finset Nat}

theorem Good.of_delM {m : Nat} {out} {st' : ISys ι kind R A}
    (h : GoodL (fun _ => 0) st s (.delMember m) out st') : Good (fun _ => 0) st s (.delMember m) out st' := by
  obtain ⟨s', Sm', Sg', L', h1, ⟨rfl, h2⟩, h3⟩ := h
  rcases h2 with ⟨h2, _⟩ | ⟨_, h2⟩
  · exact absurd h2 (Nat.lt_irrefl 0)
  · exact ⟨s', Sm', Sg', h1, h2, h3⟩

theorem Good.of_delG {g : Nat} {out} {st' : ISys ι kind R A}
    (h : GoodL (fun _ => 0) st s (.delGroup g) out st') : Good (fun _ => 0) st s (.delGroup g) out st' := by
  obtain ⟨s', Sm', Sg', L', h1, ⟨rfl, h2⟩, h3⟩ := h
  rcases h2 with ⟨h2, _⟩ | ⟨_, h2⟩
  · exact absurd h2 (Nat.lt_irrefl 0)
  · exact ⟨s', Sm', Sg', h1, h2, h3⟩

end PRepL

namespace PRep
open PRepL
variable {st : ISys ι kind R A} {s : PState ι (KeyOf kind) A} {Sm Sg : Finset Nat}

theorem exec (h : PRep st s Sm Sg) (hn : Fintype.card ι ≤ 254) (op : POp ι (KeyOf kind) A)
    (hv : op.Valid st.cfg) (hp : st.Pre op) :
    ∃ out st', st.exec op = some (out, st') ∧ (CleanOut op out → Good (fun _ => 0) st s op out st') := by
  have drop : ∀ {op : POp ι (KeyOf kind) A},
      (∃ out st', st.exec op = some (out, st') ∧ Good (fun _ => 0) st s op out st') →
      ∃ out st', st.exec op = some (out, st') ∧ (CleanOut op out → Good (fun _ => 0) st s op out st') :=
    fun ⟨o, s', e, g⟩ => ⟨o, s', e, fun _ => g⟩
  cases op with
  | addMember a => exact drop (h.addMember a hp)
  | delMember m => exact drop (by
      obtain ⟨o, s', e, g⟩ := h.delMember (room_zero hn) m
      exact ⟨o, s', e, Good.of_delM g⟩)
  | modMember m a => exact drop (h.modMember m a)
  | newGroup => exact drop (h.newGroup hp)
  | delGroup g => exact drop (by
      obtain ⟨o, s', e, q⟩ := h.delGroup (room_zero hn) g
      exact ⟨o, s', e, Good.of_delG q⟩)
  | join m g => exact drop (h.join m g)
  | leave m g => exact drop (h.leave m g)
  | getMember m => exact drop (h.getMember m)
  | getMembers => exact drop h.getMembers
  | getGroup g => exact drop (h.getGroup g)
  | getGroups => exact drop h.getGroups
  | counts => exact drop h.counts
  | tAdd i key r now =>
    obtain ⟨o, s', e, g⟩ := h.tAdd i key r now hv
    exact ⟨o, s', e, fun hc => g (fun e' he => by rw [he] at hc; exact hc)⟩
  | tDel i hd => exact drop (h.tDel i hd)
  | tMod i hd r =>
    obtain ⟨o, s', e, g⟩ := h.tMod i hd r
    exact ⟨o, s', e, fun hc => g (fun e' he => by rw [he] at hc; exact hc)⟩
  | tGet i hd => exact drop (h.tGet i hd)
  | tLookup i q nb ts hash => exact drop (h.tLookup i q nb ts hash hv)
  | setDflt i r => exact drop (h.setDflt i r)
  | unsetDflt i => exact drop (h.unsetDflt i)
  | resetAll => exact drop (h.resetAll hp)
  | clear i b =>
    obtain ⟨E, hr, hT, _, hd⟩ := h.tabs i
    refine drop (h.clear i b ?_ ?_)
    · obtain ⟨l, hl, hlen⟩ := hr.live_count
      have hl0 : l = [] := List.length_eq_zero_iff.1 (hlen.trans hp.1)
      intro x
      rw [hT, mapT_none]
      have := (hl.2 x).not.1 (by rw [hl0]; simp)
      simpa using this
    · intro hb
      rcases hd with ⟨_, e⟩ | ⟨r, e, _⟩
      · exact e
      · rw [hp.2 hb] at e; cases e

theorem run (hn : Fintype.card ι ≤ 254) (ops : List (POp ι (KeyOf kind) A)) :
    ∀ {st : ISys ι kind R A} {s Sm Sg}, PRep st s Sm Sg → CleanRun st ops →
    ∃ outs st' s' Sm' Sg', st.run ops = some (outs, st') ∧ PRep st' s' Sm' Sg' ∧
      PTrace st.cfg s ops outs s' ∧ st'.cfg = st.cfg := by
  induction ops with
  | nil => intro st s Sm Sg h _; exact ⟨[], st, s, Sm, Sg, rfl, h, .nil s, rfl⟩
  | cons op ops ih =>
    intro st s Sm Sg h hc
    obtain ⟨hv, hp, hrest⟩ := hc
    · obtain ⟨out, st1, e, hg⟩ := h.exec hn op hv hp
      rw [e] at hrest
      obtain ⟨hco, hcl⟩ := hrest
      obtain ⟨s1, Sm1, Sg1, h1, hs1, hcfg⟩ := hg hco
      obtain ⟨outs, st2, s2, Sm2, Sg2, e2, h2, tr, hcfg2⟩ := ih h1 hcl
      rw [hcfg] at tr
      exact ⟨out :: outs, st2, s2, Sm2, Sg2, by simp [ISys.run, e, e2], h2, .cons hs1 tr,
        hcfg2.trans hcfg⟩

end PRep

/-! ## With references left behind -/

/-- Situations in which a call may be made: not more than `2^24` members and groups; no reset while a group
exists (C17). -/
def ISys.SafePre (st : ISys ι kind R A) : POp ι (KeyOf kind) A → Prop
  | .addMember _ => st.prof.numMembers < 2 ^ 24
  | .newGroup => st.prof.numGroups < 2 ^ 24
  | .resetAll => st.prof.numGroups = 0
  | _ => True

/-- Not a refused modification of an existing entry. -/
def SafeOut : POp ι (KeyOf kind) A → POut ι (KeyOf kind) A → Prop
  | .tMod _ _ _, .err _ => False
  | _, _ => True

/-- Histories staying within these limits; entries may be refused and tables may be cleared. -/
def SafeRun : ISys ι kind R A → List (POp ι (KeyOf kind) A) → Prop
  | _, [] => True
  | st, op :: ops => op.Valid st.cfg ∧ st.SafePre op ∧
      match st.exec op with
      | none => True
      | some (out, st') => SafeOut op out ∧ SafeRun st' ops

namespace PRepL
variable {st : ISys ι kind R A} {s : PState ι (KeyOf kind) A} {Sm Sg : Finset Nat} {L : Ref → Nat}

theorem execL (h : PRepL st s Sm Sg L) (hn : Room ι L) (op : POp ι (KeyOf kind) A)
    (hv : op.Valid st.cfg) (hp : st.SafePre op) :
    ∃ out st', st.exec op = some (out, st') ∧ (SafeOut op out →
      ∃ s' Sm' Sg' L', PRepL st' s' Sm' Sg' L' ∧ PStepL st.cfg s L op s' L' out ∧ st'.cfg = st.cfg ∧
        ∀ r, L' r ≤ L r + leftBehind st.cfg.size [op]) := by
  have same : ∀ {op : POp ι (KeyOf kind) A},
      (∀ s' out, PStep st.cfg s op s' out → PStepL st.cfg s L op s' L out) →
      (∃ out st', st.exec op = some (out, st') ∧ Good L st s op out st') →
      ∃ out st', st.exec op = some (out, st') ∧ (SafeOut op out →
      ∃ s' Sm' Sg' L', PRepL st' s' Sm' Sg' L' ∧ PStepL st.cfg s L op s' L' out ∧ st'.cfg = st.cfg ∧
        ∀ r, L' r ≤ L r + leftBehind st.cfg.size [op]) :=
    fun hs ⟨o, st', e, s', Sm', Sg', a, b, c⟩ =>
      ⟨o, st', e, fun _ => ⟨s', Sm', Sg', L, a, hs _ _ b, c, fun _ => Nat.le_add_right _ _⟩⟩
  cases op with
  | addMember a => exact same (fun _ _ x => ⟨x, rfl⟩) (h.addMember a hp)
  | delMember m =>
    obtain ⟨o, st', e, s', Sm', Sg', L', a, b, c⟩ := h.delMember hn m
    exact ⟨o, st', e, fun _ => ⟨s', Sm', Sg', L', a, b, c, fun r => by rw [b.1]; exact Nat.le_add_right _ _⟩⟩
  | modMember m a => exact same (fun _ _ x => ⟨x, rfl⟩) (h.modMember m a)
  | newGroup => exact same (fun _ _ x => ⟨x, rfl⟩) (h.newGroup hp)
  | delGroup g =>
    obtain ⟨o, st', e, s', Sm', Sg', L', a, b, c⟩ := h.delGroup hn g
    exact ⟨o, st', e, fun _ => ⟨s', Sm', Sg', L', a, b, c, fun r => by rw [b.1]; exact Nat.le_add_right _ _⟩⟩
  | join m g => exact same (fun _ _ x => ⟨x, rfl⟩) (h.join m g)
  | leave m g => exact same (fun _ _ x => ⟨x, rfl⟩) (h.leave m g)
  | getMember m => exact same (fun _ _ x => ⟨x, rfl⟩) (h.getMember m)
  | getMembers => exact same (fun _ _ x => ⟨x, rfl⟩) h.getMembers
  | getGroup g => exact same (fun _ _ x => ⟨x, rfl⟩) (h.getGroup g)
  | getGroups => exact same (fun _ _ x => ⟨x, rfl⟩) h.getGroups
  | counts => exact same (fun _ _ x => ⟨x, rfl⟩) h.counts
  | tAdd i key r now =>
    obtain ⟨o, st', e, s', Sm', Sg', L', a, b, c⟩ := h.tAddL i key r now hv
    refine ⟨o, st', e, fun _ => ⟨s', Sm', Sg', L', a, b, c, fun x => ?_⟩⟩
    simp only [leftBehind]
    rcases b.2 with ⟨_, e⟩ | ⟨_, e⟩
    · rw [e]; dsimp only; split <;> omega
    · rw [e]; omega
  | tDel i hd => exact same (fun _ _ x => ⟨x, rfl⟩) (h.tDel i hd)
  | tMod i hd r =>
    obtain ⟨o, st', e, g⟩ := h.tMod i hd r
    refine ⟨o, st', e, fun hc => ?_⟩
    obtain ⟨s', Sm', Sg', a, b, c⟩ := g (fun e' he => by rw [he] at hc; exact hc)
    exact ⟨s', Sm', Sg', L, a, ⟨b, rfl⟩, c, fun _ => Nat.le_add_right _ _⟩
  | tGet i hd => exact same (fun _ _ x => ⟨x, rfl⟩) (h.tGet i hd)
  | tLookup i q nb ts hash => exact same (fun _ _ x => ⟨x, rfl⟩) (h.tLookup i q nb ts hash hv)
  | setDflt i r => exact same (fun _ _ x => ⟨x, rfl⟩) (h.setDflt i r)
  | unsetDflt i => exact same (fun _ _ x => ⟨x, rfl⟩) (h.unsetDflt i)
  | resetAll =>
    obtain ⟨o, st', e, s', Sm', Sg', a, b, c⟩ := h.resetAll hp
    exact ⟨o, st', e, fun _ => ⟨s', Sm', Sg', _, a, ⟨b, rfl⟩, c, fun _ => Nat.zero_le _⟩⟩
  | clear i b =>
    obtain ⟨o, st', s', L', e, a, b, c, d⟩ := h.clearL i b
    refine ⟨o, st', e, fun _ => ⟨s', Sm, Sg, L', a, b, c, fun r => ?_⟩⟩
    have := d r
    simp only [leftBehind]
    omega

theorem leftBehind_cons (size : ι → Nat) (op : POp ι (KeyOf kind) A) (ops : List (POp ι (KeyOf kind) A)) :
    leftBehind size (op :: ops) = leftBehind size [op] + leftBehind size ops := by
  cases op <;> simp [leftBehind]

theorem runL (ops : List (POp ι (KeyOf kind) A)) :
    ∀ {st : ISys ι kind R A} {s Sm Sg L}, PRepL st s Sm Sg L → SafeRun st ops →
    (∀ r, Fintype.card ι * (2 ^ 24 + 1) + 2 ^ 24 + (L r + leftBehind st.cfg.size ops) < 2 ^ 32) →
    ∃ outs st' s' Sm' Sg' L', st.run ops = some (outs, st') ∧ PRepL st' s' Sm' Sg' L' ∧
      PTraceL st.cfg s L ops outs s' L' ∧ st'.cfg = st.cfg ∧ ∀ r, L' r ≤ L r + leftBehind st.cfg.size ops := by
  induction ops with
  | nil => intro st s Sm Sg L h _ _; exact ⟨[], st, s, Sm, Sg, L, rfl, h, .nil s L, rfl, fun _ => Nat.le_refl _⟩
  | cons op ops ih =>
    intro st s Sm Sg L h hc hb
    obtain ⟨hv, hp, hrest⟩ := hc
    obtain ⟨out, st1, e, hg⟩ := h.execL (fun r => by have := hb r; omega) op hv hp
    rw [e] at hrest
    obtain ⟨hco, hcl⟩ := hrest
    obtain ⟨s1, Sm1, Sg1, L1, h1, hs1, hcfg, hle⟩ := hg hco
    obtain ⟨outs, st2, s2, Sm2, Sg2, L2, e2, h2, tr, hcfg2, hle2⟩ := ih h1 hcl (fun r => by
      have h3 := hb r
      have h4 := hle r
      rw [leftBehind_cons] at h3
      rw [hcfg]
      omega)
    rw [hcfg] at tr
    refine ⟨out :: outs, st2, s2, Sm2, Sg2, L2, by simp [ISys.run, e, e2], h2, .cons hs1 tr,
      hcfg2.trans hcfg, fun r => ?_⟩
    have h4 := hle r
    have h5 := hle2 r
    rw [hcfg] at h5
    rw [leftBehind_cons]
    omega

end PRepL

/-! ## All histories -/

/-- What holds after every history, however the reference counts stand. -/
structure WRep (st : ISys ι kind R A) (Sg : Finset Nat) (M : Nat → Finset Nat) : Prop where
  sel : st.prof.withSelection = true
  hg : st.prof.grpH.Rep Sg
  grp : ∀ (g : Nat) (l : List Nat), st.prof.groups[g]? = some l → l.Pairwise (· < ·) ∧ l.toFinset = M g
  tabs : ∀ i, ∃ T d, TabRep (st.tabs i) T d

namespace WRep
variable {st st' : ISys ι kind R A} {Sg : Finset Nat} {M : Nat → Finset Nat}

theorem congr (h : WRep st Sg M) (h1 : st'.prof.withSelection = st.prof.withSelection)
    (h2 : st'.prof.grpH = st.prof.grpH) (h3 : st'.prof.groups = st.prof.groups)
    (h4 : ∀ i, ∃ T d, TabRep (st'.tabs i) T d) : WRep st' Sg M :=
  ⟨by rw [h1]; exact h.sel, by rw [h2]; exact h.hg, by rw [h3]; exact h.grp, h4⟩

theorem updTab (h : WRep st Sg M) (i : ι) {t'} (ht : ∃ T d, TabRep t' T d) (j : ι) :
    ∃ T d, TabRep (upd st.tabs i t' j) T d := by
  by_cases hj : j = i
  · subst hj; rw [upd_self]; exact ht
  · rw [upd_ne _ _ _ hj]; exact h.tabs j

theorem make_ok {r : Ref} {w : Nat} (h : IIdx.make r = some w) : refId r < 2 ^ 24 ∧ w = encRef r := by
  by_cases hr : refId r < 2 ^ 24
  · rw [IIdx.make_eq r hr] at h
    exact ⟨hr, by simpa using h.symm⟩
  · rw [IIdx.make_none r hr] at h; cases h

/-- Groups after a change of one group. -/
theorem setGroup (h : WRep st Sg M) {g : Nat} {l l' : List Nat} (hl : st.prof.groups[g]? = some l)
    (M' : Finset Nat) (h1 : l'.Pairwise (· < ·)) (h2 : l'.toFinset = M') (x : Nat) (lx : List Nat)
    (hx : (st.prof.groups.set g l')[x]? = some lx) :
    lx.Pairwise (· < ·) ∧ lx.toFinset = if x = g then M' else M x := by
  have hlt : g < st.prof.groups.length := by
    by_contra hc
    rw [List.getElem?_eq_none (by omega)] at hl; cases hl
  rw [List.getElem?_set] at hx
  by_cases hxg : g = x
  · subst hxg
    simp only [if_true, hlt, Option.some.injEq] at hx
    subst hx
    rw [if_pos rfl]; exact ⟨h1, h2⟩
  · rw [if_neg hxg] at hx
    rw [if_neg (fun e => hxg e.symm)]
    exact h.grp x lx hx

/-- Every call that returns keeps the invariant. -/
theorem step (h : WRep st Sg M) {op : POp ι (KeyOf kind) A} {out : POut ι (KeyOf kind) A}
    (hv : op.Valid st.cfg) (e : st.exec op = some (out, st')) :
    WRep st' (groupsAfter Sg op out) (membersAfter M op out) := by
  cases op with
  | addMember a =>
    have : groupsAfter Sg (.addMember a : POp ι (KeyOf kind) A) out = Sg := rfl
    cases a with
    | none =>
      simp only [ISys.exec, AProf.addMember, Option.map_some, Option.some.injEq, Prod.mk.injEq] at e
      rw [← e.2]; exact h
    | some a =>
      simp only [ISys.exec, AProf.addMember, AProf.entriesInsert, Option.map_eq_some_iff,
        Option.bind_eq_bind, Option.bind_eq_some_iff, Prod.exists, Option.pure_def,
        Option.some.injEq, Prod.mk.injEq] at e
      obtain ⟨a1, a2, p, ⟨b1, b2, hb, p1, hp1, ⟨_, rfl⟩, rfl⟩, rfl, rfl⟩ := e
      split at hp1
      · simp only [Option.bind_eq_some_iff, Option.some.injEq] at hp1
        obtain ⟨_, _, _, _, rfl⟩ := hp1
        exact h.congr rfl rfl rfl h.tabs
      · cases hp1
  | delMember m =>
    simp only [ISys.exec, AProf.deleteMember, Option.map_eq_some_iff,
      Option.bind_eq_bind, Option.bind_eq_some_iff, Prod.exists, Option.pure_def,
      Prod.mk.injEq] at e
    obtain ⟨c, p, ⟨v, _, e⟩, rfl, rfl⟩ := e
    cases v with
    | false =>
      simp only [Bool.not_false, if_true, Option.some.injEq, Prod.mk.injEq] at e
      rw [← e.2]; exact h
    | true =>
      simp only [Bool.not_true, Bool.false_eq_true, if_false, Option.bind_eq_some_iff] at e
      obtain ⟨_, _, c, _, e⟩ := e
      split at e
      · simp only [Option.some.injEq, Prod.mk.injEq] at e
        rw [← e.2]; exact h
      · simp only [Option.bind_eq_some_iff, Prod.exists] at e
        obtain ⟨_, _, _, e⟩ := e
        split at e
        · simp only [Option.some.injEq, Prod.mk.injEq] at e
          rw [← e.2]; exact h.congr rfl rfl rfl h.tabs
        · cases e
  | modMember m a =>
    cases a with
    | none =>
      simp only [ISys.exec, AProf.modifyMember, Option.map_some, Option.some.injEq, Prod.mk.injEq] at e
      rw [← e.2]; exact h
    | some a =>
      simp only [ISys.exec, AProf.modifyMember, Option.map_eq_some_iff,
        Option.bind_eq_bind, Option.bind_eq_some_iff, Prod.exists, Option.pure_def,
        Prod.mk.injEq] at e
      obtain ⟨c, p, ⟨v, _, e⟩, rfl, rfl⟩ := e
      cases v with
      | false =>
        simp only [Bool.not_false, if_true, Option.some.injEq, Prod.mk.injEq] at e
        rw [← e.2]; exact h
      | true =>
        simp only [Bool.not_true, Bool.false_eq_true, if_false] at e
        split at e
        · simp only [Option.some.injEq, Prod.mk.injEq] at e
          rw [← e.2]; exact h.congr rfl rfl rfl h.tabs
        · cases e
  | newGroup =>
    obtain ⟨gh, e1, hgh⟩ := h.hg.getHandle
    simp only [ISys.exec, AProf.createGroup, AProf.insertGroup, e1, Option.map_eq_some_iff,
        Option.bind_eq_bind, Option.bind_some, Option.bind_eq_some_iff, Prod.exists, Option.pure_def,
        Option.some.injEq, Prod.mk.injEq] at e
    obtain ⟨g, p, ⟨gs, hgs, w, _, rc, _, rfl, rfl⟩, rfl, rfl⟩ := e
    generalize st.prof.grpH.firstUnset = pos at *
    split at hgs
    · rename_i hle
      simp only [Option.some.injEq] at hgs
      subst hgs
      refine ⟨h.sel, hgh, ?_, h.tabs⟩
      intro x lx hx
      obtain ⟨_, iv⟩ := PRepL.insertVec st.prof.groups pos [] hle
      simp only [iv] at hx
      simp only [membersAfter]
      split at hx
      · rename_i hxp
        simp only [Option.some.injEq] at hx
        subst hx
        rw [if_pos hxp]; simp
      · rename_i hxp
        rw [if_neg hxp]; exact h.grp x lx hx
    · cases hgs
  | delGroup g =>
    simp only [ISys.exec, AProf.deleteGroup, Option.map_eq_some_iff,
      Option.bind_eq_bind, Option.bind_eq_some_iff, Prod.exists, Option.pure_def,
      Prod.mk.injEq] at e
    obtain ⟨c, p, ⟨v, _, e⟩, rfl, rfl⟩ := e
    cases v with
    | false =>
      simp only [Bool.not_false, if_true, Option.some.injEq, Prod.mk.injEq] at e
      rw [← e.2, ← e.1]; exact h
    | true =>
      simp only [Bool.not_true, Bool.false_eq_true, if_false, Option.bind_eq_some_iff] at e
      obtain ⟨_, _, c, _, e⟩ := e
      split at e
      · simp only [Option.some.injEq, Prod.mk.injEq] at e
        rw [← e.2, ← e.1]; exact h
      · obtain ⟨gh, e2, hgh⟩ := h.hg.releaseHandle g
        simp only [Option.bind_eq_some_iff, Prod.exists, e2, Option.some.injEq, Prod.mk.injEq] at e
        obtain ⟨_, _, _, _, ok, gh', ⟨rfl, rfl⟩, e⟩ := e
        split at e
        · simp only [Option.some.injEq, Prod.mk.injEq] at e
          rw [← e.2, ← e.1]; exact ⟨h.sel, hgh, h.grp, h.tabs⟩
        · cases e
  | join m g =>
    simp only [ISys.exec, AProf.addMemberToGroup, Option.map_eq_some_iff,
      Option.bind_eq_bind, Option.bind_eq_some_iff, Prod.exists, Option.pure_def,
      Prod.mk.injEq] at e
    obtain ⟨c, p, ⟨v, _, e⟩, rfl, rfl⟩ := e
    cases v with
    | false =>
      simp only [Bool.not_false, if_true, Option.some.injEq, Prod.mk.injEq] at e
      rw [← e.2, ← e.1]; exact h
    | true =>
      simp only [Bool.not_true, Bool.false_eq_true, if_false, Option.bind_eq_some_iff] at e
      obtain ⟨v, _, e⟩ := e
      cases v with
      | false =>
        simp only [Bool.not_false, if_true, Option.some.injEq, Prod.mk.injEq] at e
        rw [← e.2, ← e.1]; exact h
      | true =>
        simp only [Bool.not_true, Bool.false_eq_true, if_false, Option.bind_eq_some_iff] at e
        obtain ⟨l, hl, e⟩ := e
        obtain ⟨hs, hM⟩ := h.grp g l hl
        obtain ⟨a1, a2, a3⟩ := Ras.add_spec l m hs
        split at e
        · simp only [Option.bind_eq_some_iff, Option.some.injEq, Prod.mk.injEq] at e
          obtain ⟨_, _, _, _, rfl, rfl⟩ := e
          refine ⟨h.sel, h.hg, ?_, h.tabs⟩
          intro x lx hx
          have := h.setGroup hl (insert m (M g)) a2 (by ext y; simp [a3, ← hM]) x lx hx
          refine ⟨this.1, this.2.trans ?_⟩
          simp only [membersAfter, ISys.code]
          by_cases hxg : x = g <;> simp [hxg]
        · rename_i hno
          simp only [Option.some.injEq, Prod.mk.injEq] at e
          obtain ⟨rfl, rfl⟩ := e
          refine ⟨h.sel, h.hg, ?_, h.tabs⟩
          intro x lx hx
          have := h.setGroup hl (M g) a2 (by
            have hm : m ∈ l := by rw [a1] at hno; simpa using hno
            ext y; simp only [← hM, List.mem_toFinset, a3]
            exact ⟨fun hy => hy.elim (fun e => e ▸ hm) id, .inr⟩) x lx hx
          refine ⟨this.1, this.2.trans ?_⟩
          simp only [membersAfter, ISys.code]
          by_cases hxg : x = g <;> simp [hxg]
  | leave m g =>
    simp only [ISys.exec, AProf.removeMemberFromGroup, Option.map_eq_some_iff,
      Option.bind_eq_bind, Option.bind_eq_some_iff, Prod.exists, Option.pure_def,
      Prod.mk.injEq] at e
    obtain ⟨c, p, ⟨v, _, e⟩, rfl, rfl⟩ := e
    cases v with
    | false =>
      simp only [Bool.not_false, if_true, Option.some.injEq, Prod.mk.injEq] at e
      rw [← e.2, ← e.1]; exact h
    | true =>
      simp only [Bool.not_true, Bool.false_eq_true, if_false, Option.bind_eq_some_iff] at e
      obtain ⟨v, _, e⟩ := e
      cases v with
      | false =>
        simp only [Bool.not_false, if_true, Option.some.injEq, Prod.mk.injEq] at e
        rw [← e.2, ← e.1]; exact h
      | true =>
        simp only [Bool.not_true, Bool.false_eq_true, if_false, Option.bind_eq_some_iff] at e
        obtain ⟨l, hl, e⟩ := e
        obtain ⟨hs, hM⟩ := h.grp g l hl
        obtain ⟨a1, a2, a3⟩ := Ras.remove_spec l m hs
        split at e
        · simp only [Option.bind_eq_some_iff, Option.some.injEq, Prod.mk.injEq] at e
          obtain ⟨_, _, _, _, rfl, rfl⟩ := e
          refine ⟨h.sel, h.hg, ?_, h.tabs⟩
          intro x lx hx
          have := h.setGroup hl ((M g).erase m) a2 (by ext y; simp [a3, ← hM]) x lx hx
          refine ⟨this.1, this.2.trans ?_⟩
          simp only [membersAfter, ISys.code]
          by_cases hxg : x = g <;> simp [hxg]
        · rename_i hno
          simp only [Option.some.injEq, Prod.mk.injEq] at e
          obtain ⟨rfl, rfl⟩ := e
          refine ⟨h.sel, h.hg, ?_, h.tabs⟩
          intro x lx hx
          have := h.setGroup hl (M g) a2 (by
            have hm : m ∉ l := by rw [a1] at hno; simpa using hno
            ext y; simp only [← hM, List.mem_toFinset, a3]
            exact ⟨fun hy => hy.2, fun hy => ⟨fun e => hm (e ▸ hy), hy⟩⟩) x lx hx
          refine ⟨this.1, this.2.trans ?_⟩
          simp only [membersAfter, ISys.code]
          by_cases hxg : x = g <;> simp [hxg]
  | getMember m =>
    simp only [ISys.exec, Option.map_eq_some_iff, Prod.mk.injEq] at e
    obtain ⟨_, _, _, rfl⟩ := e; exact h
  | getMembers =>
    simp only [ISys.exec, Option.map_eq_some_iff, Prod.mk.injEq] at e
    obtain ⟨_, _, _, rfl⟩ := e; exact h
  | getGroup g =>
    simp only [ISys.exec, Option.map_eq_some_iff, Prod.mk.injEq] at e
    obtain ⟨_, _, _, rfl⟩ := e; exact h
  | getGroups =>
    simp only [ISys.exec, Option.map_eq_some_iff, Prod.mk.injEq] at e
    obtain ⟨_, _, _, rfl⟩ := e; exact h
  | counts =>
    simp only [ISys.exec, Option.some.injEq, Prod.mk.injEq] at e
    rw [← e.2]; exact h
  | tAdd i key r now =>
    simp only [ISys.exec, ISys.tAdd, Option.bind_eq_bind, Option.bind_eq_some_iff] at e
    obtain ⟨c, _, e⟩ := e
    cases c with
    | some c =>
      simp only [Option.pure_def, Option.some.injEq, Prod.mk.injEq] at e
      rw [← e.2]; exact h
    | none =>
      simp only [Option.bind_eq_some_iff, Prod.exists, Option.pure_def, Option.some.injEq,
        Prod.mk.injEq] at e
      obtain ⟨w, hw, rc, _, o, mu, ho, rfl, rfl⟩ := e
      obtain ⟨hr, rfl⟩ := make_ok hw
      obtain ⟨T, d, ht⟩ := h.tabs i
      obtain ⟨o', mu', T', e', hst⟩ := ht.add key r hr now (by rintro x rfl; exact hv)
      rw [ho] at e'
      simp only [Option.some.injEq, Prod.mk.injEq] at e'
      obtain ⟨rfl, rfl⟩ := e'
      exact h.congr rfl rfl rfl (h.updTab i ⟨_, _, hst.rep⟩)
  | tDel i hd =>
    simp only [ISys.exec, ISys.tDel, Option.bind_eq_bind, Option.bind_eq_some_iff] at e
    obtain ⟨⟨c, r⟩, _, e⟩ := e
    split at e
    · simp only [Option.bind_eq_some_iff, Prod.exists, Option.pure_def, Option.some.injEq,
        Prod.mk.injEq] at e
      obtain ⟨rc, _, o, mu, ho, rfl, rfl⟩ := e
      obtain ⟨T, d, ht⟩ := h.tabs i
      obtain ⟨o', mu', T', e', hst⟩ := ht.delete hd
      rw [ho] at e'
      simp only [Option.some.injEq, Prod.mk.injEq] at e'
      obtain ⟨rfl, rfl⟩ := e'
      exact h.congr rfl rfl rfl (h.updTab i ⟨_, _, hst.rep⟩)
    · simp only [Option.pure_def, Option.some.injEq, Prod.mk.injEq] at e
      rw [← e.2]; exact h
  | tMod i hd r =>
    simp only [ISys.exec, ISys.tMod, Option.bind_eq_bind, Option.bind_eq_some_iff] at e
    obtain ⟨⟨c, r0⟩, _, e⟩ := e
    split at e
    · simp only [Option.bind_eq_some_iff] at e
      obtain ⟨rc, _, c, _, e⟩ := e
      cases c with
      | some c =>
        simp only [Option.pure_def, Option.some.injEq, Prod.mk.injEq] at e
        rw [← e.2]; exact h.congr rfl rfl rfl h.tabs
      | none =>
        simp only [Option.bind_eq_some_iff, Prod.exists, Option.pure_def, Option.some.injEq,
          Prod.mk.injEq] at e
        obtain ⟨w, hw, rc', _, o, mu, ho, rfl, rfl⟩ := e
        obtain ⟨hr, rfl⟩ := make_ok hw
        obtain ⟨T, d, ht⟩ := h.tabs i
        obtain ⟨o', mu', T', e', hst⟩ := ht.modify hd r hr
        rw [ho] at e'
        simp only [Option.some.injEq, Prod.mk.injEq] at e'
        obtain ⟨rfl, rfl⟩ := e'
        exact h.congr rfl rfl rfl (h.updTab i ⟨_, _, hst.rep⟩)
    · simp only [Option.pure_def, Option.some.injEq, Prod.mk.injEq] at e
      rw [← e.2]; exact h
  | tGet i hd =>
    simp only [ISys.exec, ISys.tGet, Option.bind_eq_bind, Option.bind_eq_some_iff, Option.pure_def,
      Option.some.injEq, Prod.mk.injEq] at e
    obtain ⟨_, _, _, rfl⟩ := e; exact h
  | tLookup i q nb ts hash =>
    obtain ⟨T, d, ht⟩ := h.tabs i
    obtain ⟨o, mu', e1, hst, _⟩ := ht.lookup q nb ts hv
    have hrep : WRep (st.setMu i mu') Sg M := h.congr rfl rfl rfl (h.updTab i ⟨_, _, hst.rep⟩)
    simp only [ISys.exec, ISys.tLookup, e1, Option.bind_eq_bind, Option.bind_some,
      Option.pure_def] at e
    split at e
    · simp only [Option.bind_eq_some_iff, Option.some.injEq, Prod.mk.injEq] at e
      obtain ⟨_, _, _, rfl⟩ := e; exact hrep
    · split at e
      · simp only [Option.bind_eq_some_iff, Option.some.injEq, Prod.mk.injEq] at e
        obtain ⟨_, _, _, rfl⟩ := e; exact hrep
      · simp only [Option.some.injEq, Prod.mk.injEq] at e
        rw [← e.2]; exact hrep
  | setDflt i r =>
    simp only [ISys.exec, ISys.setDflt, Option.bind_eq_bind, Option.pure_def] at e
    split at e
    · simp only [Option.some.injEq, Prod.mk.injEq] at e
      rw [← e.2]; exact h
    · simp only [Option.bind_eq_some_iff] at e
      obtain ⟨v, _, e⟩ := e
      cases v with
      | false =>
        simp only [Bool.not_false, if_true, Option.some.injEq, Prod.mk.injEq] at e
        rw [← e.2]; exact h
      | true =>
        simp only [Bool.not_true, Bool.false_eq_true, if_false, Option.bind_eq_some_iff,
          Option.some.injEq, Prod.mk.injEq] at e
        obtain ⟨rc, _, w, hw, rc', _, _, rfl⟩ := e
        obtain ⟨hr, rfl⟩ := make_ok hw
        obtain ⟨T, d, ht⟩ := h.tabs i
        exact h.congr rfl rfl rfl (h.updTab i ⟨_, _, ht.setDefault r hr⟩)
  | unsetDflt i =>
    simp only [ISys.exec, ISys.unsetDflt, Option.bind_eq_bind, Option.pure_def,
      Option.bind_eq_some_iff, Option.some.injEq, Prod.mk.injEq] at e
    obtain ⟨rc, _, _, rfl⟩ := e
    obtain ⟨T, d, ht⟩ := h.tabs i
    exact h.congr rfl rfl rfl (h.updTab i ⟨_, _, ht.unsetDefault⟩)
  | clear i b =>
    simp only [ISys.exec, Option.some.injEq, Prod.mk.injEq] at e
    obtain ⟨_, rfl⟩ := e
    obtain ⟨T, d, ht⟩ := h.tabs i
    exact h.congr rfl rfl rfl (h.updTab i ⟨_, _, ht.clear b⟩)
  | resetAll =>
    simp only [ISys.exec, Option.some.injEq, Prod.mk.injEq] at e
    obtain ⟨_, rfl⟩ := e
    refine ⟨h.sel, h.hg, ?_, ?_⟩
    · intro g l hl; simp [ISys.resetAll, AProf.resetState] at hl
    · intro i
      obtain ⟨T, d, ht⟩ := h.tabs i
      exact ⟨_, _, ht.clear true⟩

end WRep
end Bm
