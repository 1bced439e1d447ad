import Verif.Lemmas.ActionProfile
import Mathlib.Data.Fintype.Basic
import Mathlib.Algebra.BigOperators.Group.Finset.Piecewise
import Mathlib.Data.Nat.Cast.Basic

/-! The invariant of an action profile with its tables, and the effect of each call. -/

set_option linter.unusedSectionVars false

namespace Bm
open Spec

section upd
variable {ι : Type} [DecidableEq ι] {P : ι → Type}

theorem upd_self (f : ∀ i, P i) (i : ι) (x : P i) : upd f i x i = x := by simp [upd]

theorem upd_ne (f : ∀ i, P i) (i : ι) (x : P i) {j : ι} (h : j ≠ i) : upd f i x j = f j := by
  simp [upd, h]

theorem upd_eq (f : ∀ i, P i) (i : ι) : upd f i (f i) = f := by
  funext j
  by_cases h : j = i
  · subst h; rw [upd_self]
  · rw [upd_ne _ _ _ h]

theorem upd_upd (f : ∀ i, P i) (i : ι) (x y : P i) : upd (upd f i x) i y = upd f i y := by
  funext j
  by_cases h : j = i
  · subst h; rw [upd_self, upd_self]
  · rw [upd_ne _ _ _ h, upd_ne _ _ _ h, upd_ne _ _ _ h]

end upd

/-! ## One table -/

section table
variable {k : TableKind} {R : Type}

/-- A table of the model holds the entries `T` and the default `d`. -/
def TabRep (t : ITab k.str R) (T : Nat → Option (k.K × Ref)) (d : Option Ref) : Prop :=
  ∃ E, MRep k.laws t.mu E ∧ T = mapT (t.mu.tab E) ∧
    (∀ h key w, t.mu.tab E h = some (key, w) → ∃ r, refId r < 2 ^ 24 ∧ w = encRef r) ∧
    ((t.defaultSet = false ∧ d = none) ∨
      ∃ r, t.defaultSet = true ∧ refId r < 2 ^ 24 ∧ t.defaultIndex = encRef r ∧ d = some r)

variable {t : ITab k.str R} {T : Nat → Option (k.K × Ref)} {d : Option Ref}

theorem TabRep.lt (h : TabRep t T d) {hd : Nat} {kv} (ht : T hd = some kv) : hd < 2 ^ 32 := by
  obtain ⟨E, hr, rfl, _⟩ := h
  obtain ⟨k', r⟩ := kv
  obtain ⟨w, e, _⟩ := mapT_some.1 ht
  rw [(hr.tab_some e).2]
  exact handleSet_lt _ _

theorem TabRep.live (h : TabRep t T d) : ∃ l, Live T l ∧ l.length ≤ 2 ^ 24 := by
  obtain ⟨E, hr, rfl, _⟩ := h
  obtain ⟨l, hl, hn⟩ := hr.live_count
  have h1 := hr.count_le
  have h2 := hr.size
  exact ⟨l, (live_mapT l).2 hl, by omega⟩

/-- Reading an entry. -/
theorem TabRep.getEntry (h : TabRep t T d) (hd : Nat) :
    (∃ key r, T hd = some (key, r) ∧ refId r < 2 ^ 24 ∧
      t.mu.getEntry hd = some (.success, some (key, encRef r))) ∨
    (T hd = none ∧ ∃ c, t.mu.getEntry hd = some (c, none) ∧
      (c = .invalidHandle ∨ c = .expiredHandle)) := by
  obtain ⟨E, hr, rfl, hw, _⟩ := h
  cases ht : t.mu.tab E hd with
  | none => exact .inr ⟨(mapT_none _).2 ht, hr.get_stale hd ht⟩
  | some kv =>
    obtain ⟨key, w⟩ := kv
    obtain ⟨r, h1, rfl⟩ := hw hd key w ht
    refine .inl ⟨key, r, mapT_some.2 ⟨_, ht, IIdx.toRef_enc r h1⟩, h1, ?_⟩
    exact hr.get_live hd ht

/-- What a call on the match unit does to the table. -/
structure TabStep (t : ITab k.str R) (T : Nat → Option (k.K × Ref)) (d : Option Ref)
    (op : TOp k.K Ref) (o : TOut k.K Ref) (mu' : MUnit k.str Nat R)
    (T' : Nat → Option (k.K × Ref)) : Prop where
  rep : TabRep { t with mu := mu' } T' d
  spec : TStep k.spec t.mu.size (decide (t.mu.sizeKey = 0)) T op T' o
  size : mu'.size = t.mu.size
  sizeKey : mu'.sizeKey = t.mu.sizeKey

theorem TabRep.add (h : TabRep t T d) (key : Option k.K) (r : Ref) (hr : refId r < 2 ^ 24)
    (now : Nat) (hv : ∀ x, key = some x → k.spec.okK x) :
    ∃ o mu' T', t.mu.exec (.add key (encRef r) now) = some (o, mu') ∧
      TabStep t T d (.add key r now) (ISys.outRef o) mu' T' := by
  obtain ⟨E, hm, rfl, hw, hd⟩ := h
  obtain ⟨o, mu', E', e, st⟩ := hm.exec (.add key (encRef r) now) (by
    cases key with
    | none => trivial
    | some x => exact hv x rfl)
  have hs := (TStep.add_mapT st.spec)
  rw [IIdx.toRef_enc r hr] at hs
  refine ⟨o, mu', mapT (mu'.tab E'), e, ⟨E', st.rep, rfl, ?_, hd⟩, hs, st.size, st.sizeKey⟩
  intro h' key' w' hw'
  have sp := st.spec
  cases hk : decide (t.mu.sizeKey = 0) with
  | true =>
    rw [hk] at sp
    simp only [TStep] at sp
    rw [sp.2] at hw'
    exact hw _ _ _ hw'
  | false =>
    rw [hk] at sp
    cases key with
    | none =>
      simp only [TStep] at sp
      rw [sp.2] at hw'
      exact hw _ _ _ hw'
    | some x =>
      simp only [TStep] at sp
      rcases sp with ⟨_, _, e2⟩ | ⟨_, _, _, e2⟩ | ⟨_, _, hh, _, _, _, _, e2⟩
      · rw [e2] at hw'; exact hw _ _ _ hw'
      · rw [e2] at hw'; exact hw _ _ _ hw'
      · rw [e2] at hw'
        simp only at hw'
        split at hw'
        · simp only [Option.some.injEq, Prod.mk.injEq] at hw'
          exact ⟨r, hr, hw'.2.symm⟩
        · exact hw _ _ _ hw'

theorem TabRep.delete (h : TabRep t T d) (hd : Nat) :
    ∃ o mu' T', t.mu.exec (.delete hd) = some (o, mu') ∧
      TabStep t T d (.delete hd) (ISys.outRef o) mu' T' := by
  obtain ⟨E, hm, rfl, hw, hdf⟩ := h
  obtain ⟨o, mu', E', e, st⟩ := hm.exec (.delete hd) trivial
  refine ⟨o, mu', mapT (mu'.tab E'), e, ⟨E', st.rep, rfl, ?_, hdf⟩, (TStep.delete_mapT st.spec), st.size,
    st.sizeKey⟩
  intro h' key' w' hw'
  have sp := st.spec
  simp only [TStep] at sp
  rcases sp with ⟨_, _, e2⟩ | ⟨_, _, e2⟩
  · rw [e2] at hw'
    simp only at hw'
    split at hw'
    · cases hw'
    · exact hw _ _ _ hw'
  · rw [e2] at hw'; exact hw _ _ _ hw'

theorem TabRep.modify (h : TabRep t T d) (hd : Nat) (r : Ref) (hr : refId r < 2 ^ 24) :
    ∃ o mu' T', t.mu.exec (.modify hd (encRef r)) = some (o, mu') ∧
      TabStep t T d (.modify hd r) (ISys.outRef o) mu' T' := by
  obtain ⟨E, hm, rfl, hw, hdf⟩ := h
  obtain ⟨o, mu', E', e, st⟩ := hm.exec (.modify hd (encRef r)) trivial
  have hs := (TStep.modify_mapT st.spec)
  rw [IIdx.toRef_enc r hr] at hs
  refine ⟨o, mu', mapT (mu'.tab E'), e, ⟨E', st.rep, rfl, ?_, hdf⟩, hs, st.size, st.sizeKey⟩
  intro h' key' w' hw'
  have sp := st.spec
  simp only [TStep] at sp
  rcases sp with ⟨_, _, _, _, e2⟩ | ⟨_, _, e2⟩
  · rw [e2] at hw'
    simp only at hw'
    split at hw'
    · simp only [Option.some.injEq, Prod.mk.injEq] at hw'
      exact ⟨r, hr, hw'.2.symm⟩
    · exact hw _ _ _ hw'
  · rw [e2] at hw'; exact hw _ _ _ hw'

theorem TabRep.get (h : TabRep t T d) (hd : Nat) :
    ∃ o mu', t.mu.exec (.get hd) = some (o, mu') ∧
      TStep k.spec t.mu.size (decide (t.mu.sizeKey = 0)) T (.get hd) T (ISys.outRef o) := by
  obtain ⟨E, hm, rfl, hw, hdf⟩ := h
  obtain ⟨o, mu', E', e, st⟩ := hm.exec (.get hd) trivial
  have hs := (TStep.get_mapT st.spec)
  have : mapT (mu'.tab E') = mapT (t.mu.tab E) := hs.1
  rw [this] at hs
  exact ⟨o, mu', e, hs⟩

theorem TabRep.lookup (h : TabRep t T d) (q : Bytes) (nb ts : Nat) (hq : k.spec.okQ q) :
    ∃ o mu', t.mu.exec (.lookup q nb ts) = some (o, mu') ∧
      TabStep t T d (.lookup q nb ts) (ISys.outRef o) mu' T ∧
      (o = .miss ∨ ∃ h key r, o = .hit h (encRef r) ∧ T h = some (key, r) ∧ refId r < 2 ^ 24) := by
  obtain ⟨E, hm, rfl, hw, hdf⟩ := h
  obtain ⟨o, mu', E', e, st⟩ := hm.exec (.lookup q nb ts) hq
  have h1 : mu'.tab E' = t.mu.tab E := st.spec.1
  have hs := (TStep.lookup_mapT st.spec)
  rw [h1] at hs
  refine ⟨o, mu', e, ⟨⟨E', st.rep, by simp only [h1], ?_, hdf⟩, hs, st.size, st.sizeKey⟩, ?_⟩
  · simp only [h1]; exact hw
  · rcases st.spec.2 with ⟨rfl, _⟩ | ⟨h', key, w, rfl, e2, _⟩
    · exact .inl rfl
    · obtain ⟨r, hr, rfl⟩ := hw _ _ _ e2
      exact .inr ⟨h', key, r, rfl, mapT_some.2 ⟨_, e2, IIdx.toRef_enc r hr⟩, hr⟩

theorem TabRep.clear (h : TabRep t T d) (b : Bool) :
    TabRep (ISys.clearTab t b) (fun _ => none) (if b then none else d) := by
  obtain ⟨E, hm, rfl, hw, hdf⟩ := h
  refine ⟨fun _ => none, hm.resetState, ?_, ?_, ?_⟩
  · funext hd; simp [mapT, MUnit.tab]
  · intro hd key w e; simp [MUnit.tab] at e
  · cases b with
    | true => exact .inl ⟨rfl, rfl⟩
    | false => exact hdf

theorem TabRep.setDefault (h : TabRep t T d) (r : Ref) (hr : refId r < 2 ^ 24) :
    TabRep { t with defaultSet := true, defaultIndex := encRef r } T (some r) := by
  obtain ⟨E, hm, rfl, hw, hdf⟩ := h
  exact ⟨E, hm, rfl, hw, .inr ⟨r, rfl, hr, rfl, rfl⟩⟩

theorem TabRep.unsetDefault (h : TabRep t T d) : TabRep { t with defaultSet := false } T none := by
  obtain ⟨E, hm, rfl, hw, hdf⟩ := h
  exact ⟨E, hm, rfl, hw, .inl ⟨rfl, rfl⟩⟩

theorem TabRep.init (k : TableKind) (size sizeKey : Nat) (hs : size ≤ 2 ^ 24) (meters : Nat → R)
    (c : Bool) :
    TabRep ({ mu := MUnit.init k.str Nat size sizeKey meters, constDefault := c } : ITab k.str R)
      (fun _ => none) none := by
  refine ⟨fun _ => none, MRep.init k.laws size sizeKey hs meters, ?_, ?_, .inl ⟨rfl, rfl⟩⟩
  · funext hd; simp [mapT, MUnit.tab]
  · intro hd key w e; simp [MUnit.tab] at e

end table

/-! ## The whole system -/

variable {ι : Type} [DecidableEq ι] [Fintype ι] {kind : ι → TableKind} {R A : Type}

/-- Keys of the tables. -/
abbrev KeyOf (kind : ι → TableKind) : ι → Type := fun i => (kind i).K

/-- Static data. -/
def ISys.cfg (st : ISys ι kind R A) : PCfg ι (KeyOf kind) where
  sp := fun i => (kind i).spec
  size := fun i => (st.tabs i).mu.size
  keyless := fun i => decide ((st.tabs i).mu.sizeKey = 0)
  constDflt := fun i => (st.tabs i).constDefault

open Classical in
/-- Reference from a default entry. -/
noncomputable def dcnt (d : Option Ref) (r : Ref) : Nat := if d = some r then 1 else 0

/-- Reference from a group. -/
def gcnt : Option (Finset Nat) → Ref → Nat
  | some G, .mbr m => if m ∈ G then 1 else 0
  | _, _ => 0

/-- Number of references to `r`. -/
noncomputable def refs (s : PState ι (KeyOf kind) A) (Sg : Finset Nat) (r : Ref) : Nat :=
  (∑ i, (tcnt (s.tab i) r + dcnt (s.dflt i) r)) + ∑ g ∈ Sg, gcnt (s.grp g) r

/-- The model state `st` represents the specification state `s`; `Sm` and `Sg` are the live
members and groups, `L` tells how many references are counted too much. -/
structure PRepL (st : ISys ι kind R A) (s : PState ι (KeyOf kind) A) (Sm Sg : Finset Nat) (L : Ref → Nat) :
    Prop where
  sel : st.prof.withSelection = true
  hm : st.prof.mbrH.Rep Sm
  nm : st.prof.numMembers = Sm.card
  mlt : ∀ m ∈ Sm, m < st.prof.entries.length ∧ m < 2 ^ 24
  mlen : st.prof.rc.mbr.length = st.prof.entries.length
  mem : ∀ m, s.mem m = if m ∈ Sm then st.prof.entries[m]? else none
  hg : st.prof.grpH.Rep Sg
  ng : st.prof.numGroups = Sg.card
  glt : ∀ g ∈ Sg, g < st.prof.groups.length ∧ g < 2 ^ 24
  glen : st.prof.groups.length ≤ st.prof.rc.grp.length
  grp : ∀ g, s.grp g = if g ∈ Sg then st.prof.groups[g]?.map List.toFinset else none
  sorted : ∀ l ∈ st.prof.groups, l.Pairwise (· < ·)
  tabs : ∀ i, TabRep (st.tabs i) (s.tab i) (s.dflt i)
  closed : ∀ r, s.Used r → s.Has r
  cnt : ∀ r, s.Has r → st.prof.rc.at' r = some ((refs s Sg r + L r) % 2 ^ 32)
  nol : ∀ r, ¬ s.Has r → L r = 0

/-- The same with the right reference counts. -/
abbrev PRep (st : ISys ι kind R A) (s : PState ι (KeyOf kind) A) (Sm Sg : Finset Nat) : Prop :=
  PRepL st s Sm Sg fun _ => 0

section refs
variable {s s' : PState ι (KeyOf kind) A} {Sg : Finset Nat}

theorem refs_tab (hm : s'.grp = s.grp) (hd : s'.dflt = s.dflt) (i : ι) (T')
    (ht : s'.tab = upd s.tab i T') (r : Ref) :
    refs s' Sg r + tcnt (s.tab i) r = refs s Sg r + tcnt T' r := by
  have := sum_change Finset.univ (fun i => tcnt (s.tab i) r + dcnt (s.dflt i) r)
    (fun i => tcnt (s'.tab i) r + dcnt (s'.dflt i) r) i (Finset.mem_univ _) (by
      intro b _ hb
      simp only [ht, upd_ne _ _ _ hb, hd])
  simp only [ht, upd_self, hd] at this
  unfold refs
  rw [ht, hd, hm]
  omega

theorem refs_dflt (hm : s'.grp = s.grp) (ht : s'.tab = s.tab) (i : ι) (d')
    (hd : s'.dflt = upd s.dflt i d') (r : Ref) :
    refs s' Sg r + dcnt (s.dflt i) r = refs s Sg r + dcnt d' r := by
  have := sum_change Finset.univ (fun i => tcnt (s.tab i) r + dcnt (s.dflt i) r)
    (fun i => tcnt (s'.tab i) r + dcnt (s'.dflt i) r) i (Finset.mem_univ _) (by
      intro b _ hb
      simp only [hd, upd_ne _ _ _ hb, ht])
  simp only [hd, upd_self, ht] at this
  unfold refs
  rw [ht, hd, hm]
  omega

theorem refs_grp (ht : s'.tab = s.tab) (hd : s'.dflt = s.dflt) (g : Nat) (hg : g ∈ Sg)
    (hm : ∀ x, x ≠ g → s'.grp x = s.grp x) (r : Ref) :
    refs s' Sg r + gcnt (s.grp g) r = refs s Sg r + gcnt (s'.grp g) r := by
  have := sum_change Sg (fun g => gcnt (s.grp g) r) (fun g => gcnt (s'.grp g) r) g hg (by
      intro b _ hb
      simp only [hm b hb])
  unfold refs
  rw [ht, hd]
  omega

theorem refs_congr (ht : s'.tab = s.tab) (hd : s'.dflt = s.dflt) (hm : s'.grp = s.grp) (r : Ref) :
    refs s' Sg r = refs s Sg r := by
  unfold refs; rw [ht, hd, hm]

end refs

namespace PRepL
variable {st : ISys ι kind R A} {s : PState ι (KeyOf kind) A} {Sm Sg : Finset Nat} {L : Ref → Nat}

theorem mem_iff (h : PRepL st s Sm Sg L) (m : Nat) : s.Has (.mbr m) ↔ m ∈ Sm := by
  simp only [PState.Has, h.mem]
  split
  · rename_i hm
    simp [hm, (h.mlt m hm).1]
  · rename_i hm; simp [hm]

theorem grp_iff (h : PRepL st s Sm Sg L) (g : Nat) : s.Has (.grp g) ↔ g ∈ Sg := by
  simp only [PState.Has, h.grp]
  split
  · rename_i hm
    simp [hm, (h.glt g hm).1]
  · rename_i hm; simp [hm]

theorem fits (h : PRepL st s Sm Sg L) {r : Ref} (hr : s.Has r) : refId r < 2 ^ 24 := by
  cases r with
  | mbr m => exact (h.mlt m ((h.mem_iff m).1 hr)).2
  | grp g => exact (h.glt g ((h.grp_iff g).1 hr)).2

theorem has_grp (h : PRepL st s Sm Sg L) {g : Nat} {G} (hg : s.grp g = some G) : g ∈ Sg :=
  (h.grp_iff g).1 (by simp [PState.Has, hg])

/-- The list behind a group. -/
theorem info (h : PRepL st s Sm Sg L) {g : Nat} (hg : g ∈ Sg) :
    ∃ l, st.prof.groups[g]? = some l ∧ l.Pairwise (· < ·) ∧ s.grp g = some l.toFinset := by
  have hl := (h.glt g hg).1
  refine ⟨st.prof.groups[g], List.getElem?_eq_getElem hl, h.sorted _ (List.getElem_mem hl), ?_⟩
  rw [h.grp, if_pos hg, List.getElem?_eq_getElem hl]; rfl

theorem refs_pos (h : PRepL st s Sm Sg L) (r : Ref) : 0 < refs s Sg r ↔ s.Used r := by
  have key : 0 < refs s Sg r ↔ (∃ i, 0 < tcnt (s.tab i) r + dcnt (s.dflt i) r) ∨
      ∃ g ∈ Sg, 0 < gcnt (s.grp g) r := by
    unfold refs
    constructor
    · intro hp
      by_contra hc
      push Not at hc
      rw [Finset.sum_eq_zero (fun i _ => by have := hc.1 i; omega),
        Finset.sum_eq_zero (fun g hg => by have := hc.2 g hg; omega)] at hp
      omega
    · rintro (⟨i, hi⟩ | ⟨g, hg, hp⟩)
      · have := Finset.single_le_sum (f := fun i => tcnt (s.tab i) r + dcnt (s.dflt i) r)
          (fun _ _ => Nat.zero_le _) (Finset.mem_univ i)
        omega
      · have := Finset.single_le_sum (f := fun g => gcnt (s.grp g) r)
          (fun _ _ => Nat.zero_le _) hg
        omega
  rw [key]
  unfold PState.Used
  constructor
  · rintro (⟨i, hi⟩ | ⟨g, hg, hp⟩)
    · by_cases ht : 0 < tcnt (s.tab i) r
      · obtain ⟨hd, k, e⟩ := (tcnt_pos _ r (fun hd kv e => (h.tabs i).lt e)).1 ht
        exact .inl ⟨i, hd, k, e⟩
      · have : 0 < dcnt (s.dflt i) r := by omega
        refine .inr (.inl ⟨i, ?_⟩)
        by_contra hc
        simp [dcnt, hc] at this
    · cases hG : s.grp g with
      | none => rw [hG] at hp; simp [gcnt] at hp
      | some G =>
        rw [hG] at hp
        cases r with
        | grp _ => simp [gcnt] at hp
        | mbr m =>
          by_cases hm : m ∈ G
          · exact .inr (.inr ⟨m, g, G, rfl, hG, hm⟩)
          · simp [gcnt, hm] at hp
  · rintro (⟨i, hd, k, e⟩ | ⟨i, e⟩ | ⟨m, g, G, rfl, hG, hm⟩)
    · left
      refine ⟨i, ?_⟩
      have := (tcnt_pos (s.tab i) r (fun hd kv e => (h.tabs i).lt e)).2 ⟨hd, k, e⟩
      omega
    · left
      exact ⟨i, by simp [dcnt, e]⟩
    · right
      exact ⟨g, h.has_grp hG, by simp [gcnt, hG, hm]⟩

/-- With few tables the counts do not overflow. -/
theorem refs_le (h : PRepL st s Sm Sg L) (r : Ref) :
    refs s Sg r ≤ Fintype.card ι * (2 ^ 24 + 1) + 2 ^ 24 := by
  have h1 : ∑ i, (tcnt (s.tab i) r + dcnt (s.dflt i) r) ≤ Fintype.card ι * (2 ^ 24 + 1) := by
    have := Finset.sum_le_card_nsmul (Finset.univ : Finset ι)
      (fun i => tcnt (s.tab i) r + dcnt (s.dflt i) r) (2 ^ 24 + 1) (by
        intro i _
        obtain ⟨l, hl, hlen⟩ := (h.tabs i).live
        have h1 := tcnt_le (s.tab i) r l hl
        have h2 : dcnt (s.dflt i) r ≤ 1 := by simp only [dcnt]; split <;> omega
        omega)
    simpa using this
  have h2 : ∑ g ∈ Sg, gcnt (s.grp g) r ≤ 2 ^ 24 := by
    have h3 := Finset.sum_le_card_nsmul Sg (fun g => gcnt (s.grp g) r) 1 (by
      intro g _
      simp only [gcnt]
      split
      · split <;> omega
      · omega)
    have h4 : Sg.card ≤ 2 ^ 24 := by
      have : Sg ⊆ Finset.range (2 ^ 24) := fun g hg => Finset.mem_range.2 (h.glt g hg).2
      simpa using Finset.card_le_card this
    simp only [nsmul_eq_mul, Nat.cast_id, mul_one] at h3
    omega
  unfold refs
  omega

theorem refs_lt (h : PRepL st s Sm Sg L) (hn : Fintype.card ι ≤ 254) (r : Ref) :
    refs s Sg r < 2 ^ 32 := by
  have := h.refs_le r
  have h5 : Fintype.card ι * (2 ^ 24 + 1) ≤ 254 * (2 ^ 24 + 1) := Nat.mul_le_mul_right _ hn
  omega

/-- The counts do not overflow. -/
def Room (ι : Type) [Fintype ι] (L : Ref → Nat) : Prop :=
  ∀ r, Fintype.card ι * (2 ^ 24 + 1) + 2 ^ 24 + L r < 2 ^ 32

theorem room_zero (hn : Fintype.card ι ≤ 254) : Room ι fun _ => 0 := by
  intro r
  have h5 : Fintype.card ι * (2 ^ 24 + 1) ≤ 254 * (2 ^ 24 + 1) := Nat.mul_le_mul_right _ hn
  beta_reduce
  omega

/-- A stored count is zero exactly when nothing refers to the object and nothing is counted too much. -/
theorem count_zero (h : PRepL st s Sm Sg L) (hn : Room ι L) {r : Ref} (hr : s.Has r) :
    ∃ c, st.prof.rc.get (encRef r) = some c ∧ (0 < c ↔ s.Used r ∨ 0 < L r) := by
  refine ⟨_, by rw [RefCounts.get_enc _ _ (h.fits hr)]; exact h.cnt r hr, ?_⟩
  rw [Nat.mod_eq_of_lt (by have := h.refs_le r; have := hn r; omega), ← h.refs_pos r]
  omega

end PRepL
end Bm
