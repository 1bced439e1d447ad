import Verif.Lemmas.ProfileRun
import Mathlib.Data.Finset.Option
import Mathlib.Data.Finset.Sum
import Mathlib.Algebra.BigOperators.Option
import Mathlib.Data.Finset.Prod

/-!
# C15, C16, C17: action profiles and the tables that share them

The system is one action profile with any finite number of indirect tables (of any kinds and
sizes up to `2^24`).  The theorems about reference counts need at most 254 tables: counts are
32-bit numbers, and 254 full tables with the maximal number of groups stay below `2^32`.
-/

set_option linter.unusedSectionVars false

namespace Bm
open Spec

variable {ι : Type} [DecidableEq ι] [Fintype ι] {kind : ι → TableKind} {R A : Type}

/-- A new profile with new tables. -/
def ISys.fresh (kind : ι → TableKind) (R A : Type) (size sizeKey : ι → Nat) (meters : Nat → R)
    (const : ι → Bool) : ISys ι kind R A where
  tabs := fun i =>
    { mu := MUnit.init (kind i).str Nat (size i) (sizeKey i) meters, constDefault := const i }

theorem PRep.fresh (size sizeKey : ι → Nat) (hs : ∀ i, size i ≤ 2 ^ 24) (meters : Nat → R)
    (const : ι → Bool) :
    PRep (ISys.fresh kind R A size sizeKey meters const) PState.empty ∅ ∅ :=
  PRepL.init _ rfl (fun i => TabRep.init (kind i) (size i) (sizeKey i) (hs i) meters (const i))

theorem WRep.fresh (size sizeKey : ι → Nat) (hs : ∀ i, size i ≤ 2 ^ 24) (meters : Nat → R)
    (const : ι → Bool) :
    WRep (ISys.fresh kind R A size sizeKey meters const) ∅ (fun _ => ∅) where
  sel := rfl
  hg := HandleMgr.Rep.empty
  grp := by intro g l h; simp [ISys.fresh] at h
  tabs := fun i => ⟨_, _, TabRep.init (kind i) (size i) (sizeKey i) (hs i) meters (const i)⟩

/-! ## C15 -/

/-- **C15 (part).**  Every history within the limits of `CleanRun` behaves as specified by
`PTrace`: no call is undefined, a member or group can be deleted exactly when nothing refers to
it, lookups always find the member an entry points to.

Missing from the full property: histories in which a table refuses an addition or a modification,
and clearing a table that holds entries.  The code miscounts there, see `C15_failed_add_leaks`,
`C15_failed_modify_loses`, `C15_clear_leaks`. -/
theorem C15_conforms_partial (hn : Fintype.card ι ≤ 254) (size sizeKey : ι → Nat)
    (hs : ∀ i, size i ≤ 2 ^ 24) (meters : Nat → R) (const : ι → Bool)
    (ops : List (POp ι (KeyOf kind) A))
    (hc : CleanRun (ISys.fresh kind R A size sizeKey meters const) ops) :
    ∃ outs st' s', (ISys.fresh kind R A size sizeKey meters const).run ops = some (outs, st') ∧
      PTrace (ISys.fresh kind R A size sizeKey meters const).cfg PState.empty ops outs s' := by
  obtain ⟨outs, st', s', _, _, e, _, tr, _⟩ := PRep.run hn ops (PRep.fresh size sizeKey hs meters const) hc
  exact ⟨outs, st', s', e, tr⟩

/-- The things that can refer to a member or group: an entry of a table, the default entry of a
table (no handle), or a group. -/
def Refers (s : PState ι (KeyOf kind) A) (r : Ref) : (ι × Option Nat) ⊕ Nat → Prop
  | .inl (i, some h) => ∃ k, s.tab i h = some (k, r)
  | .inl (i, none) => s.dflt i = some r
  | .inr g => ∃ m G, r = .mbr m ∧ s.grp g = some G ∧ m ∈ G

open Classical in
theorem PRepL.refs_card {st : ISys ι kind R A} {s : PState ι (KeyOf kind) A} {Sm Sg : Finset Nat} {L : Ref → Nat}
    (h : PRepL st s Sm Sg L) (r : Ref) :
    ∃ l : Finset ((ι × Option Nat) ⊕ Nat), (∀ x, x ∈ l ↔ Refers s r x) ∧ l.card = refs s Sg r := by
  refine ⟨((Finset.univ ×ˢ Finset.insertNone (Finset.range hBound)).disjSum Sg).filter
    (Refers s r), ?_, ?_⟩
  · intro x
    rw [Finset.mem_filter]
    constructor
    · exact fun hx => hx.2
    · intro hx
      refine ⟨?_, hx⟩
      rcases x with ⟨i, _ | hd⟩ | g
      · simp
      · obtain ⟨k, e⟩ := hx
        have := (h.tabs i).lt e
        simpa [hBound] using this
      · obtain ⟨m, G, _, hG, _⟩ := hx
        simpa using h.has_grp hG
  · unfold refs tcnt
    generalize Finset.range hBound = B
    rw [Finset.card_filter, Finset.sum_disjSum, Finset.sum_product]
    refine congrArg₂ (· + ·) (Finset.sum_congr rfl (fun i _ => ?_))
      (Finset.sum_congr rfl (fun g _ => ?_))
    · rw [Finset.sum_insertNone, Nat.add_comm]
      refine congrArg₂ (· + ·) (Finset.sum_congr rfl (fun hd _ => ?_)) ?_
      · simp only [Refers, pts, Option.map_eq_some_iff, Prod.exists, exists_eq_right]
        exact if_congr Iff.rfl rfl rfl
      · by_cases hd : s.dflt i = some r <;> simp [Refers, dcnt, hd]
    · cases r with
      | grp _ => simp [Refers, gcnt]
      | mbr m =>
        cases hG : s.grp g with
        | none => simp [Refers, gcnt, hG]
        | some G => simp [Refers, gcnt, hG]

/-- **C15 (part), the counts.**  After every history within the limits, there is a state allowed
by the specification such that for every existing member or group: the stored count is the number
of table entries, default entries and groups referring to it, and deleting it is refused exactly
when there are any. -/
theorem C15_counts_partial (hn : Fintype.card ι ≤ 254) (size sizeKey : ι → Nat)
    (hs : ∀ i, size i ≤ 2 ^ 24) (meters : Nat → R) (const : ι → Bool)
    (ops : List (POp ι (KeyOf kind) A))
    (hc : CleanRun (ISys.fresh kind R A size sizeKey meters const) ops) :
    ∃ outs st' s', (ISys.fresh kind R A size sizeKey meters const).run ops = some (outs, st') ∧
      PTrace (ISys.fresh kind R A size sizeKey meters const).cfg PState.empty ops outs s' ∧
      ∀ r, s'.Has r →
        (∃ w, IIdx.make r = some w ∧ ∃ l : Finset ((ι × Option Nat) ⊕ Nat),
          (∀ x, x ∈ l ↔ Refers s' r x) ∧ st'.prof.rc.get w = some l.card) ∧
        ∃ out st'', st'.exec (match r with | .mbr m => .delMember m | .grp g => .delGroup g) =
            some (out, st'') ∧
          (out = .err .inUse ∨ out = .done) ∧ (out = .err .inUse ↔ ∃ x, Refers s' r x) := by
  obtain ⟨outs, st', s', Sm, Sg, e, h, tr, _⟩ :=
    PRep.run hn ops (PRep.fresh size sizeKey hs meters const) hc
  refine ⟨outs, st', s', e, tr, ?_⟩
  intro r hr
  have hused : s'.Used r ↔ ∃ x, Refers s' r x := by
    constructor
    · rintro (⟨i, hd, k, e⟩ | ⟨i, e⟩ | ⟨m, g, G, rfl, hG, hm⟩)
      · exact ⟨.inl (i, some hd), k, e⟩
      · exact ⟨.inl (i, none), e⟩
      · exact ⟨.inr g, m, G, rfl, hG, hm⟩
    · rintro ⟨⟨i, _ | hd⟩ | g, hx⟩
      · exact .inr (.inl ⟨i, hx⟩)
      · obtain ⟨k, e⟩ := hx; exact .inl ⟨i, hd, k, e⟩
      · obtain ⟨m, G, rfl, hG, hm⟩ := hx; exact .inr (.inr ⟨m, g, G, rfl, hG, hm⟩)
  constructor
  · obtain ⟨l, hl, hcard⟩ := h.refs_card r
    refine ⟨_, IIdx.make_eq r (h.fits hr), l, hl, ?_⟩
    rw [RefCounts.get_enc _ _ (h.fits hr), h.cnt r hr, hcard, Nat.add_zero,
      Nat.mod_eq_of_lt (h.refs_lt hn r)]
  · rw [← hused]
    cases r with
    | mbr m =>
      obtain ⟨out, st'', e, hg⟩ := h.delMember (PRepL.room_zero hn) m
      obtain ⟨_, _, _, _, hstep, _⟩ := PRepL.Good.of_delM hg
      refine ⟨out, st'', e, ?_⟩
      rcases hstep with ⟨h1, _⟩ | ⟨_, h2, rfl, _⟩ | ⟨_, h2, rfl, _⟩
      · exact absurd hr h1
      · simp [h2]
      · simp [h2]
    | grp g =>
      obtain ⟨out, st'', e, hg⟩ := h.delGroup (PRepL.room_zero hn) g
      obtain ⟨_, _, _, _, hstep, _⟩ := PRepL.Good.of_delG hg
      refine ⟨out, st'', e, ?_⟩
      rcases hstep with ⟨h1, _⟩ | ⟨_, h2, rfl, _⟩ | ⟨_, h2, rfl, _⟩
      · exact absurd hr h1
      · simp [h2]
      · simp [h2]

/-- Something refers to `r`. -/
theorem used_iff (s : PState ι (KeyOf kind) A) (r : Ref) : s.Used r ↔ ∃ x, Refers s r x := by
  constructor
  · rintro (⟨i, hd, k, e⟩ | ⟨i, e⟩ | ⟨m, g, G, rfl, hG, hm⟩)
    · exact ⟨.inl (i, some hd), k, e⟩
    · exact ⟨.inl (i, none), e⟩
    · exact ⟨.inr g, m, G, rfl, hG, hm⟩
  · rintro ⟨⟨i, _ | hd⟩ | g, hx⟩
    · exact .inr (.inl ⟨i, hx⟩)
    · obtain ⟨k, e⟩ := hx; exact .inl ⟨i, hd, k, e⟩
    · obtain ⟨m, G, rfl, hG, hm⟩ := hx; exact .inr (.inr ⟨m, g, G, rfl, hG, hm⟩)

/-- **C15 (part), with refused additions and cleared tables.**  Unlike `C15_conforms_partial` this covers histories in
which tables refuse entries and are cleared.  No call is undefined, lookups always find the member an entry points to,
nothing in use can be deleted.  What the code does wrong is exactly this: every refused addition, and every entry or
default entry removed by clearing, leaves one reference behind (`PTraceL`), which is counted until everything is reset;
what has been left a reference cannot be deleted.

`leftBehind` bounds what a history can leave behind; the counters have 32 bits.  Missing from the full property:
refused modifications (`C15_failed_modify_loses`) and, of course, that nothing is left behind. -/
theorem C15_leaks_partial (size sizeKey : ι → Nat)
    (hs : ∀ i, size i ≤ 2 ^ 24) (meters : Nat → R) (const : ι → Bool)
    (ops : List (POp ι (KeyOf kind) A))
    (hn : Fintype.card ι * (2 ^ 24 + 1) + 2 ^ 24 + leftBehind size ops < 2 ^ 32)
    (hc : SafeRun (ISys.fresh kind R A size sizeKey meters const) ops) :
    ∃ outs st' s' L', (ISys.fresh kind R A size sizeKey meters const).run ops = some (outs, st') ∧
      PTraceL (ISys.fresh kind R A size sizeKey meters const).cfg PState.empty (fun _ => 0) ops outs s' L' ∧
      ∀ r, s'.Has r →
        (∃ w, IIdx.make r = some w ∧ ∃ l : Finset ((ι × Option Nat) ⊕ Nat),
          (∀ x, x ∈ l ↔ Refers s' r x) ∧ st'.prof.rc.get w = some ((l.card + L' r) % 2 ^ 32)) := by
  obtain ⟨outs, st', s', Sm, Sg, L', e, h, tr, _⟩ :=
    PRepL.runL ops (PRep.fresh size sizeKey hs meters const) hc (fun r => by
      show _ + _ + (0 + leftBehind size ops) < _
      omega)
  refine ⟨outs, st', s', L', e, tr, ?_⟩
  intro r hr
  obtain ⟨l, hl, hcard⟩ := h.refs_card r
  refine ⟨_, IIdx.make_eq r (h.fits hr), l, hl, ?_⟩
  rw [RefCounts.get_enc _ _ (h.fits hr), h.cnt r hr, hcard]

/-- Consequence: after every such history a deletion is refused if something refers to the member or group, and if it is
refused although nothing refers to it, a reference has been left behind. -/
theorem C15_no_dangling_partial (size sizeKey : ι → Nat)
    (hs : ∀ i, size i ≤ 2 ^ 24) (meters : Nat → R) (const : ι → Bool)
    (ops : List (POp ι (KeyOf kind) A))
    (hn : Fintype.card ι * (2 ^ 24 + 1) + 2 ^ 24 + leftBehind size ops < 2 ^ 32)
    (hc : SafeRun (ISys.fresh kind R A size sizeKey meters const) ops) :
    ∃ outs st' s' L', (ISys.fresh kind R A size sizeKey meters const).run ops = some (outs, st') ∧
      PTraceL (ISys.fresh kind R A size sizeKey meters const).cfg PState.empty (fun _ => 0) ops outs s' L' ∧
      (∀ r x, Refers s' r x → s'.Has r) ∧
      ∀ r, s'.Has r →
        ∃ out st'', st'.exec (match r with | .mbr m => .delMember m | .grp g => .delGroup g) =
            some (out, st'') ∧
          (out = .err .inUse ∨ out = .done) ∧ (out = .err .inUse ↔ (∃ x, Refers s' r x) ∨ 0 < L' r) := by
  have h0 := PRepL.runL ops (PRep.fresh (kind := kind) (R := R) (A := A) size sizeKey hs meters const) hc (fun r => by
      show _ + _ + (0 + leftBehind size ops) < _
      omega)
  obtain ⟨outs, st', s', Sm, Sg, L', e, h, tr, _, hle⟩ := h0
  have hroom : PRepL.Room ι L' := by
    intro r
    have := hle r
    have h1 : (ISys.fresh kind R A size sizeKey meters const).cfg.size = size := rfl
    rw [h1, Nat.zero_add] at this
    omega
  refine ⟨outs, st', s', L', e, tr, fun r x hx => h.closed r ((used_iff s' r).2 ⟨x, hx⟩), ?_⟩
  intro r hr
  rw [← used_iff]
  cases r with
  | mbr m =>
    obtain ⟨out, st'', e, _, _, _, _, _, ⟨_, hstep⟩, _⟩ := h.delMember hroom m
    refine ⟨out, st'', e, ?_⟩
    rcases hstep with ⟨h1, _, rfl, _⟩ | ⟨h0, ⟨h1, _⟩ | ⟨_, h2, rfl, _⟩ | ⟨_, h2, rfl, _⟩⟩
    · simp [h1]
    · exact absurd hr h1
    · simp [h2]
    · simp [h2, h0]
  | grp g =>
    obtain ⟨out, st'', e, _, _, _, _, _, ⟨_, hstep⟩, _⟩ := h.delGroup hroom g
    refine ⟨out, st'', e, ?_⟩
    rcases hstep with ⟨h1, _, rfl, _⟩ | ⟨h0, ⟨h1, _⟩ | ⟨_, h2, rfl, _⟩ | ⟨_, h2, rfl, _⟩⟩
    · simp [h1]
    · exact absurd hr h1
    · simp [h2]
    · simp [h2, h0]

/-! ## C16 -/

theorem WRep.run (ops : List (POp ι (KeyOf kind) A)) :
    ∀ {st st' : ISys ι kind R A} {Sg M outs}, WRep st Sg M → (∀ op ∈ ops, op.Valid st.cfg) →
      st.run ops = some (outs, st') →
      WRep st' (liveGroups Sg ops outs) (addedMembers M ops outs) := by
  induction ops with
  | nil =>
    intro st st' Sg M outs h _ e
    simp only [ISys.run, Option.some.injEq, Prod.mk.injEq] at e
    obtain ⟨rfl, rfl⟩ := e
    exact h
  | cons op ops ih =>
    intro st st' Sg M outs h hv e
    simp only [ISys.run, Option.bind_eq_bind, Option.bind_eq_some_iff, Prod.exists, Option.pure_def,
      Option.some.injEq, Prod.mk.injEq] at e
    obtain ⟨o, st1, e1, os, st2, e2, rfl, rfl⟩ := e
    refine ih (h.step (hv op (by simp)) e1) ?_ e2
    intro op' h'
    have := hv op' (by simp [h'])
    exact this

/-- Selection in a sorted list. -/
theorem getFromHash_spec {p : AProf A} {g : Nat} {l : List Nat} (hl : p.groups[g]? = some l)
    (hs : l.Pairwise (· < ·)) (hne : l ≠ []) :
    (∀ hash, ∃ m ∈ l, p.getFromHash g hash = some m) ∧
    ∀ h0, ∀ m ∈ l, ∃ k, k < l.length ∧ p.getFromHash g (h0 + k) = some m ∧
      ∀ k', k' < l.length → p.getFromHash g (h0 + k') = some m → k' = k := by
  have hlen : 0 < l.length := List.length_pos_iff.2 hne
  have hget : ∀ hash, p.getFromHash g hash = l[hash % l.length]? := by
    intro hash
    simp [AProf.getFromHash, hl, Ras.getNth, hne]
  refine ⟨?_, ?_⟩
  · intro hash
    have hlt : hash % l.length < l.length := Nat.mod_lt _ hlen
    exact ⟨l[hash % l.length], List.getElem_mem hlt, by rw [hget, List.getElem?_eq_getElem hlt]⟩
  · intro h0 m hm
    obtain ⟨j, hj, rfl⟩ := List.getElem_of_mem hm
    have hnd : l.Nodup := hs.imp (fun hab => by omega)
    have inj : ∀ a, l[a % l.length]? = some l[j] → a % l.length = j := by
      intro a ha
      have hlt : a % l.length < l.length := Nat.mod_lt _ hlen
      rw [List.getElem?_eq_getElem hlt, Option.some.injEq] at ha
      exact (List.Nodup.getElem_inj_iff hnd).1 ha
    refine ⟨(j + l.length - h0 % l.length) % l.length, Nat.mod_lt _ hlen, ?_, ?_⟩
    · rw [hget]
      have : (h0 + (j + l.length - h0 % l.length) % l.length) % l.length = j := by
        have h1 : h0 % l.length < l.length := Nat.mod_lt _ hlen
        rw [Nat.add_mod, Nat.mod_mod, ← Nat.add_mod, Nat.add_mod]
        rw [Nat.add_mod_mod]
        have : h0 % l.length + (j + l.length - h0 % l.length) = j + l.length := by omega
        rw [this, Nat.add_mod_right, Nat.mod_eq_of_lt hj]
      rw [this, List.getElem?_eq_getElem hj]
    · intro k' hk' e
      rw [hget] at e
      have h2 := inj _ e
      have h1 : h0 % l.length < l.length := Nat.mod_lt _ hlen
      have h3 : (h0 % l.length + k') % l.length = j := by rw [Nat.mod_add_mod]; exact h2
      rcases Nat.lt_or_ge (h0 % l.length + k') l.length with hlt | hge
      · rw [Nat.mod_eq_of_lt hlt] at h3
        have : j + l.length - h0 % l.length = k' + l.length := by omega
        rw [this, Nat.add_mod_right, Nat.mod_eq_of_lt hk']
      · rw [Nat.mod_eq_sub_mod hge, Nat.mod_eq_of_lt (by omega)] at h3
        have : j + l.length - h0 % l.length = k' := by omega
        rw [this, Nat.mod_eq_of_lt hk']

/-- **C16.**  After every history of calls (whatever their results), in every group of the
profile: the members are exactly those added and not removed (`addedMembers`, a fold over the
calls and results); if there are any, every hash value selects one of them, and among any `n`
consecutive hash values (`n` the number of members) each member is selected by exactly one. -/
theorem C16_group_selection (size sizeKey : ι → Nat)
    (hs : ∀ i, size i ≤ 2 ^ 24) (meters : Nat → R) (const : ι → Bool)
    (ops : List (POp ι (KeyOf kind) A))
    (hv : ∀ op ∈ ops, op.Valid (ISys.fresh kind R A size sizeKey meters const).cfg)
    (outs st') (e : (ISys.fresh kind R A size sizeKey meters const).run ops = some (outs, st'))
    (g : Nat) (l : List Nat) (hl : st'.prof.getGroup g = some (some l)) :
    l.Pairwise (· < ·) ∧ (∀ m, m ∈ l ↔ m ∈ addedMembers (fun _ => ∅) ops outs g) ∧
    (l ≠ [] → (∀ hash, ∃ m ∈ l, st'.prof.getFromHash g hash = some m) ∧
      ∀ h0, ∀ m ∈ l, ∃ k, k < l.length ∧ st'.prof.getFromHash g (h0 + k) = some m ∧
        ∀ k', k' < l.length → st'.prof.getFromHash g (h0 + k') = some m → k' = k) := by
  have h := WRep.run ops (WRep.fresh size sizeKey hs meters const) hv e
  have hl' : st'.prof.groups[g]? = some l := by
    simp only [AProf.getGroup, Option.bind_eq_bind, Option.bind_eq_some_iff, Option.pure_def] at hl
    obtain ⟨v, _, hl⟩ := hl
    cases v with
    | false => simp at hl
    | true =>
      simp only [Bool.not_true, Bool.false_eq_true, if_false, Option.bind_eq_some_iff,
        Option.some.injEq] at hl
      obtain ⟨l', h1, rfl⟩ := hl
      exact h1
  obtain ⟨h1, h2⟩ := h.grp g l hl'
  refine ⟨h1, ?_, fun hne => getFromHash_spec hl' h1 hne⟩
  intro m
  rw [← h2, List.mem_toFinset]

/-! ## C17 -/

/-- **C17 (part).**  After any history (whatever the results) at whose end every group that was
created has been deleted, a state reset leaves the profile and the tables empty, and everything
done afterwards (within the limits of `CleanRun`) has the results allowed for an empty system.

Missing from the full property: resets while groups exist, where the code fails
(`C17_reset_with_groups`). -/
theorem C17_reset_usable_partial (hn : Fintype.card ι ≤ 254) (size sizeKey : ι → Nat)
    (hs : ∀ i, size i ≤ 2 ^ 24) (meters : Nat → R) (const : ι → Bool)
    (ops : List (POp ι (KeyOf kind) A))
    (hv : ∀ op ∈ ops, op.Valid (ISys.fresh kind R A size sizeKey meters const).cfg)
    (outs st') (e : (ISys.fresh kind R A size sizeKey meters const).run ops = some (outs, st'))
    (hg : liveGroups ∅ ops outs = ∅) :
    ∃ st'', st'.exec .resetAll = some (.done, st'') ∧
      ∀ ops', CleanRun st'' ops' → ∃ outs' st3 s3, st''.run ops' = some (outs', st3) ∧
        PTrace st''.cfg PState.empty ops' outs' s3 := by
  have h := WRep.run ops (WRep.fresh size sizeKey hs meters const) hv e
  rw [hg] at h
  refine ⟨st'.resetAll, rfl, ?_⟩
  intro ops' hc
  have hrep : PRep st'.resetAll PState.empty ∅ ∅ := by
    refine
      { nol := fun _ _ => rfl, sel := h.sel, hm := HandleMgr.Rep.empty, nm := rfl, mlt := by simp, mlen := rfl,
        mem := by simp [PState.empty], hg := h.hg, ng := rfl, glt := by simp,
        glen := Nat.le_refl _, grp := by simp [PState.empty],
        sorted := by simp [ISys.resetAll, AProf.resetState],
        tabs := ?_, closed := ?_, cnt := ?_ }
    · intro i
      obtain ⟨T, d, ht⟩ := h.tabs i
      exact ht.clear true
    · rintro r (⟨i, hd, k, e⟩ | ⟨i, e⟩ | ⟨m, g, G, rfl, e, _⟩) <;> simp [PState.empty] at e
    · intro r hr; cases r <;> simp [PState.Has, PState.empty] at hr
  obtain ⟨outs', st3, s3, _, _, e3, _, tr, _⟩ := PRep.run hn ops' hrep hc
  exact ⟨outs', st3, s3, e3, tr⟩

/-- **C17 fails exactly otherwise.**  If a group exists at the time of the reset, then after the
reset listing the groups is undefined: `get_groups` allocates room for zero groups and writes one
for every group handle, because `reset_state` does not clear the group handles. -/
theorem C17_reset_with_groups (size sizeKey : ι → Nat)
    (hs : ∀ i, size i ≤ 2 ^ 24) (meters : Nat → R) (const : ι → Bool)
    (ops : List (POp ι (KeyOf kind) A))
    (hv : ∀ op ∈ ops, op.Valid (ISys.fresh kind R A size sizeKey meters const).cfg)
    (outs st') (e : (ISys.fresh kind R A size sizeKey meters const).run ops = some (outs, st'))
    (hg : liveGroups ∅ ops outs ≠ ∅) :
    ∃ st'', st'.exec .resetAll = some (.done, st'') ∧ st''.exec .getGroups = none := by
  have h := WRep.run ops (WRep.fresh size sizeKey hs meters const) hv e
  refine ⟨st'.resetAll, rfl, ?_⟩
  obtain ⟨hs, e1, _, hmem⟩ := h.hg.iterate
  have e2 : st'.resetAll.prof.grpH.iterate = some hs := e1
  have hne : ¬ hs.length = st'.resetAll.prof.numGroups := by
    have : st'.resetAll.prof.numGroups = 0 := rfl
    rw [this, List.length_eq_zero_iff]
    rintro rfl
    obtain ⟨g, hg'⟩ := Finset.nonempty_iff_ne_empty.2 hg
    have := (hmem g).2 hg'
    simp at this
  simp only [ISys.exec, AProf.getGroups, e2, Option.bind_eq_bind, Option.bind_some, if_neg hne,
    Option.map_none]

/-! ## Concrete cases -/

section Demo

/-- Results in short form. -/
inductive Note
  | err (e : PErr) | done | id (n : Nat) | other
  | entry (h : Nat) | refused (e : TErr) | look (hit : Option Nat) (r : Look Nat)
deriving DecidableEq

/-- Short form of a result. -/
def note {K : Unit → Type} : POut Unit K Nat → Note
  | .err e => .err e
  | .done => .done
  | .id n => .id n
  | .tab _ (.err e) => .refused e
  | .tab _ (.handle h) => .entry h
  | .tab _ .done => .done
  | .look h r => .look h r
  | _ => .other

/-- One exact-match table (4 entries, one-byte keys); actions are numbers. -/
def sys : ISys Unit (fun _ => .exact 1) Unit Nat :=
  ISys.fresh _ _ _ (fun _ => 4) (fun _ => 1) (fun _ => ()) (fun _ => false)

/-- Results of a history. -/
def notes (ops : List (POp Unit (KeyOf fun _ => TableKind.exact 1) Nat)) : Option (List Note) :=
  (sys.run ops).map fun x => x.1.map note

/-- Two members in a group, entries to the group and to one member, a default. -/
def demoP : List (POp Unit (KeyOf fun _ => TableKind.exact 1) Nat) :=
  [.addMember (some 10), .addMember (some 20), .newGroup, .join 0 0, .join 1 0,
   .tAdd () (some [1]) (.grp 0) 0, .tAdd () (some [2]) (.mbr 1) 0, .setDflt () (.mbr 0),
   .delMember 0, .delGroup 0, .tLookup () [1] 0 0 5, .tLookup () [1] 0 0 6, .tLookup () [9] 0 0 0,
   .tDel () 0, .delGroup 0, .unsetDflt (), .delMember 0, .delMember 1, .tLookup () [2] 0 0 0]

example : notes demoP = some [.id 0, .id 1, .id 0, .done, .done, .entry 0, .entry 1, .done,
    .err .inUse, .err .inUse, .look (some 0) (.act 20), .look (some 0) (.act 10),
    .look none (.act 10), .done, .done, .done, .done, .err .inUse, .look (some 1) (.act 20)] := by
  decide +kernel

/-- Checks `CleanRun` by execution. -/
def cleanB {A : Type} : ISys Unit (fun _ => .exact 1) Unit A →
    List (POp Unit (KeyOf fun _ => TableKind.exact 1) A) → Bool
  | _, [] => true
  | st, op :: ops =>
    (match op with
      | .tAdd _ (some k) _ _ => k.length == 1
      | .tLookup _ q _ _ _ => q.length == 1
      | .addMember _ => st.prof.numMembers < 2 ^ 24
      | .newGroup => st.prof.numGroups < 2 ^ 24
      | .resetAll => st.prof.numGroups == 0
      | .clear i d => (st.tabs i).mu.numEntries == 0 && (!d || !(st.tabs i).defaultSet)
      | _ => true) &&
    match st.exec op with
    | none => true
    | some (out, st') =>
      (match op, out with
        | .tAdd _ _ _ _, .tab _ (.err _) => false
        | .tMod _ _ _, .err _ => false
        | _, _ => true) && cleanB st' ops

theorem cleanB_sound {A : Type} (ops) : ∀ st : ISys Unit (fun _ => .exact 1) Unit A, cleanB st ops = true → CleanRun st ops := by
  induction ops with
  | nil => intro st _; trivial
  | cons op ops ih =>
    intro st h
    simp only [cleanB, Bool.and_eq_true] at h
    obtain ⟨h1, h2⟩ := h
    refine ⟨?_, ?_, ?_⟩
    · cases op <;> try trivial
      · rename_i i key r now
        cases key with
        | none => trivial
        | some k => simpa [POp.Valid, ISys.cfg, exactSpec] using h1
      · simpa [POp.Valid, ISys.cfg, exactSpec] using h1
    · cases op <;> first | trivial | (simpa [ISys.Pre] using h1) | skip
      rename_i i d
      simp only [ISys.Pre]
      simp only [Bool.and_eq_true, beq_iff_eq, Bool.or_eq_true, Bool.not_eq_true'] at h1
      refine ⟨h1.1, fun hd => ?_⟩
      rcases h1.2 with h | h
      · rw [hd] at h; cases h
      · exact h
    · cases he : st.exec op with
      | none => trivial
      | some x =>
        obtain ⟨out, st'⟩ := x
        rw [he] at h2
        simp only [Bool.and_eq_true] at h2
        refine ⟨?_, ih st' h2.2⟩
        cases op <;> try trivial
        · cases out with
          | tab j o => cases o <;> first | trivial | (simp at h2)
          | _ => trivial
        · cases out <;> first | trivial | (simp at h2)

/-- The hypotheses of `C15_conforms_partial` hold for this history, which contains refused
deletions, lookups through the group and a reset. -/
example : CleanRun sys (demoP ++ [.tDel () 1, .delMember 1, .clear () true, .resetAll,
    .addMember (some 1)]) := cleanB_sound _ _ (by decide +kernel)

/-- Checks `SafeRun` by execution. -/
def safeB {A : Type} : ISys Unit (fun _ => .exact 1) Unit A →
    List (POp Unit (KeyOf fun _ => TableKind.exact 1) A) → Bool
  | _, [] => true
  | st, op :: ops =>
    (match op with
      | .tAdd _ (some k) _ _ => k.length == 1
      | .tLookup _ q _ _ _ => q.length == 1
      | .addMember _ => st.prof.numMembers < 2 ^ 24
      | .newGroup => st.prof.numGroups < 2 ^ 24
      | .resetAll => st.prof.numGroups == 0
      | _ => true) &&
    match st.exec op with
    | none => true
    | some (out, st') =>
      (match op, out with
        | .tMod _ _ _, .err _ => false
        | _, _ => true) && safeB st' ops

theorem safeB_sound {A : Type} (ops) : ∀ st : ISys Unit (fun _ => .exact 1) Unit A, safeB st ops = true → SafeRun st ops := by
  induction ops with
  | nil => intro st _; trivial
  | cons op ops ih =>
    intro st h
    simp only [safeB, Bool.and_eq_true] at h
    obtain ⟨h1, h2⟩ := h
    refine ⟨?_, ?_, ?_⟩
    · cases op <;> try trivial
      · rename_i i key r now
        cases key with
        | none => trivial
        | some k => simpa [POp.Valid, ISys.cfg, exactSpec] using h1
      · simpa [POp.Valid, ISys.cfg, exactSpec] using h1
    · cases op <;> first | trivial | (simpa [ISys.SafePre] using h1)
    · cases he : st.exec op with
      | none => trivial
      | some x =>
        obtain ⟨out, st'⟩ := x
        rw [he] at h2
        simp only [Bool.and_eq_true] at h2
        refine ⟨?_, ih st' h2.2⟩
        cases op <;> try trivial
        cases out <;> first | trivial | (simp at h2)

/-- An addition is refused, the table is cleared, members are used again; nothing refers to members 0 and 1 any more,
but they stay; member 2 can be deleted; a reset makes room again. -/
def demoL : List (POp Unit (KeyOf fun _ => TableKind.exact 1) Nat) :=
  [.addMember (some 10), .addMember (some 20), .addMember (some 30), .tAdd () (some [1]) (.mbr 0) 0,
   .tAdd () (some [1]) (.mbr 1) 0, .tLookup () [1] 0 0 5, .clear () true, .delMember 0, .delMember 1,
   .tAdd () (some [7]) (.mbr 0) 0, .tLookup () [7] 0 0 0, .delMember 2, .clear () true, .resetAll, .addMember (some 5)]

example : notes demoL = some [.id 0, .id 1, .id 2, .entry 0, .refused .duplicate, .look (some 0) (.act 10), .done,
    .err .inUse, .err .inUse, .entry 0, .look (some 0) (.act 10), .done, .done, .done, .id 0] := by
  decide +kernel

/-- The hypotheses of `C15_leaks_partial` hold for it. -/
example : SafeRun sys demoL ∧
    Fintype.card Unit * (2 ^ 24 + 1) + 2 ^ 24 + leftBehind (fun _ => 4) demoL < 2 ^ 32 :=
  ⟨safeB_sound _ _ (by decide +kernel), by decide +kernel⟩

/-- Members 0 and 1 are added to group 0, member 0 is removed again, another group is created. -/
example : notes [.addMember (some 10), .addMember (some 20), .addMember (some 30), .newGroup,
    .newGroup, .join 0 0, .join 2 0, .join 0 0, .join 1 1, .leave 0 0, .leave 1 0] =
    some [.id 0, .id 1, .id 2, .id 0, .id 1, .done, .done, .err .already, .done, .done,
      .err .notIn] := by decide +kernel

example : ((sys.run [.addMember (some 10), .addMember (some 20), .addMember (some 30), .newGroup,
    .join 0 0, .join 2 0, .join 1 0, .leave 0 0]).map fun x =>
      (x.2.prof.getGroup 0, [7, 8, 9].map (x.2.prof.getFromHash 0))) =
    some (some (some [1, 2]), [some 2, some 1, some 2]) := by decide +kernel

/-- Groups created and deleted before a reset: hypothesis of `C17_reset_usable_partial`. -/
example : (sys.run [.addMember (some 10), .newGroup, .join 0 0, .tAdd () (some [1]) (.grp 0) 0,
      .tAdd () (some [1]) (.grp 0) 0, .newGroup, .delGroup 1, .tDel () 0, .clear () true]).map
      (fun x => x.1.map note) =
    some [.id 0, .id 0, .done, .entry 0, .refused .duplicate, .id 1, .done, .done, .done] ∧
    (∀ outs st', sys.run [.newGroup, .delGroup 0] = some (outs, st') →
      liveGroups ∅ [.newGroup, .delGroup 0] outs = ∅) := by
  refine ⟨by decide +kernel, ?_⟩
  intro outs st' e
  have : (sys.run [.newGroup, .delGroup 0]).map Prod.fst = some [.id 0, .done] := rfl
  rw [e] at this
  simp only [Option.map_some, Option.some.injEq] at this
  subst this
  rfl

/-- A group exists at the time of the reset: hypothesis of `C17_reset_with_groups`. -/
example : ∀ outs st', sys.run [.newGroup] = some (outs, st') →
      liveGroups ∅ [.newGroup] outs ≠ ∅ := by
  intro outs st' e
  have : (sys.run [.newGroup]).map Prod.fst = some [.id 0] := rfl
  rw [e] at this
  simp only [Option.map_some, Option.some.injEq] at this
  subst this
  simp [liveGroups, groupsAfter]

/-! ## Where the code does not meet the property -/

/-- **C15 fails, refused addition.**  The second addition is refused (duplicate key).  After the
first entry is deleted nothing refers to the member, but it cannot be deleted any more: the
refused addition left its reference behind. -/
theorem C15_failed_add_leaks :
    notes [.addMember (some 10), .tAdd () (some [1]) (.mbr 0) 0, .tAdd () (some [1]) (.mbr 0) 0,
      .tDel () 0, .delMember 0] =
    some [.id 0, .entry 0, .refused .duplicate, .done, .err .inUse] := by decide +kernel

/-- **C15 fails, refused modification.**  The modification is refused (there is no member 7), the
entry still points to member 0.  But the reference was dropped, so the member can be deleted while
the entry uses it, -/
theorem C15_failed_modify_loses :
    notes [.addMember (some 10), .tAdd () (some [1]) (.mbr 0) 0, .tMod () 0 (.mbr 7),
      .delMember 0] = some [.id 0, .entry 0, .err .noMember, .done] := by decide +kernel

/-- ... and the next packet matching the entry reads a member that does not exist: undefined. -/
theorem C15_failed_modify_crashes :
    notes [.addMember (some 10), .tAdd () (some [1]) (.mbr 0) 0, .tMod () 0 (.mbr 7),
      .delMember 0, .tLookup () [1] 0 0 0] = none := by decide +kernel

/-- **C15 fails, clearing a table.**  Clearing a table removes the entry without dropping its
reference: the member can never be deleted. -/
theorem C15_clear_leaks :
    notes [.addMember (some 10), .tAdd () (some [1]) (.mbr 0) 0, .clear () true, .delMember 0] =
    some [.id 0, .entry 0, .done, .err .inUse] := by decide +kernel

/-- **C17 fails.**  A group exists when the state is reset; creating a group afterwards fails
(the new handle is 1, but the list of groups is empty). -/
theorem C17_create_after_reset :
    notes [.newGroup, .resetAll] = some [.id 0, .done] ∧
    notes [.newGroup, .resetAll, .newGroup] = none ∧
    notes [.newGroup, .resetAll, .addMember (some 1), .join 0 0] = none := by decide +kernel

end Demo
end Bm
