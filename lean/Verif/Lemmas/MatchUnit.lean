import Verif.Model.MatchUnit
import Verif.Spec.Table
import Verif.Lemmas.LookupLaws
import Verif.Lemmas.HandleMgr
import Mathlib.Data.Finset.Card

/-! Invariant of the match units and the effect of each call. -/

namespace Bm
open Spec
variable {K V R : Type}

/-! ## Handles -/

theorem handleInternal_eq (h : Nat) : handleInternal h = h % 2 ^ 24 := by
  have : (0x00ffffff : Nat) = 2 ^ 24 - 1 := by norm_num
  rw [handleInternal, this, Nat.and_two_pow_sub_one_eq_mod]

theorem handleVersion_eq (h : Nat) : handleVersion h = h / 2 ^ 24 := by
  rw [handleVersion, Nat.shiftRight_eq_div_pow]

theorem slotOf_eq (h : Nat) : slotOf h = handleInternal h := (handleInternal_eq h).symm

theorem handleSet_eq (v i : Nat) (hi : i < 2 ^ 24) : handleSet v i = v % 256 * 2 ^ 24 + i := by
  have h1 : v &&& 0xff = v % 256 := by
    have : (0xff : Nat) = 2 ^ 8 - 1 := by norm_num
    rw [this, Nat.and_two_pow_sub_one_eq_mod]
  rw [handleSet, h1, Nat.shiftLeft_eq, Nat.mul_comm, ← Nat.two_pow_add_eq_or_of_lt hi]
  have := Nat.mod_lt v (by norm_num : 256 > 0)
  rw [Nat.mod_eq_of_lt (by omega)]

theorem handleSet_lt (v i : Nat) : handleSet v i < 2 ^ 32 := Nat.mod_lt _ (by norm_num)

theorem handleVersion_set (v i : Nat) (hi : i < 2 ^ 24) :
    handleVersion (handleSet v i) = v % 256 := by
  rw [handleSet_eq v i hi, handleVersion_eq]; omega

theorem handleInternal_set (v i : Nat) (hi : i < 2 ^ 24) :
    handleInternal (handleSet v i) = i := by
  rw [handleSet_eq v i hi, handleInternal_eq]; omega

theorem handleSet_self (h : Nat) (hv : handleVersion h < 256) :
    handleSet (handleVersion h) (handleInternal h) = h := by
  rw [handleSet_eq _ _ (by rw [handleInternal_eq]; exact Nat.mod_lt _ (by norm_num))]
  rw [handleVersion_eq, handleInternal_eq] at *
  omega

theorem handle_ext {h h' : Nat} (hi : handleInternal h = handleInternal h')
    (hv : handleVersion h = handleVersion h') : h = h' := by
  rw [handleInternal_eq, handleInternal_eq] at hi
  rw [handleVersion_eq, handleVersion_eq] at hv
  omega

theorem setAt_self {α : Type} (f : Nat → α) (i : Nat) (a : α) : setAt f i a i = a := by
  simp [setAt]

theorem setAt_of_ne {α : Type} (f : Nat → α) {i j : Nat} (a : α) (h : j ≠ i) :
    setAt f i a j = f j := by simp [setAt, h]

theorem mem_of_mapM {α β : Type} {f : α → Option β} {l : List α} {r : List β}
    (h : l.mapM f = some r) {x : β} (hx : x ∈ r) : ∃ a ∈ l, f a = some x := by
  induction l generalizing r with
  | nil => simp at h; subst h; simp at hx
  | cons a l ih =>
    rw [List.mapM_cons] at h
    simp only [Option.bind_eq_bind, Option.bind_eq_some_iff, Option.pure_def,
      Option.some.injEq] at h
    obtain ⟨b, hb, r', hr', rfl⟩ := h
    rcases List.mem_cons.1 hx with rfl | hx
    · exact ⟨a, by simp, hb⟩
    · obtain ⟨a', ha', e⟩ := ih hr' hx
      exact ⟨a', by simp [ha'], e⟩

theorem mapM_of_mem {α β : Type} {f : α → Option β} {l : List α} {r : List β}
    (h : l.mapM f = some r) {a : α} (ha : a ∈ l) : ∃ x ∈ r, f a = some x := by
  induction l generalizing r with
  | nil => simp at ha
  | cons b l ih =>
    rw [List.mapM_cons] at h
    simp only [Option.bind_eq_bind, Option.bind_eq_some_iff, Option.pure_def,
      Option.some.injEq] at h
    obtain ⟨c, hc, r', hr', rfl⟩ := h
    rcases List.mem_cons.1 ha with rfl | ha
    · exact ⟨c, by simp, hc⟩
    · obtain ⟨x, hx, e⟩ := ih hr' ha
      exact ⟨x, by simp [hx], e⟩

/-! ## Invariant -/

/-- `E` gives the entry stored in each slot. -/
structure MRep {L : LookupStr K} {sp : MatchSpec K} (W : Laws L sp) (mu : MUnit L V R)
    (E : Nat → Option (K × V)) : Prop where
  size : mu.size ≤ 2 ^ 24
  hm : ∃ S : Finset Nat, mu.handles.Rep S ∧ mu.numEntries = S.card ∧
    ∀ i, i ∈ S ↔ (E i).isSome = true
  ls : W.Rep mu.lstr mu.size (fun i => (E i).map Prod.fst)
  ent : ∀ i kv, E i = some kv → (mu.entries i).kv = some kv ∧
    (mu.metas i).version = (mu.entries i).version
  ver : ∀ i, (mu.entries i).version < 256

/-- The table seen through handles. -/
def MUnit.tab {L : LookupStr K} (mu : MUnit L V R) (E : Nat → Option (K × V)) (h : Nat) :
    Option (K × V) :=
  if handleVersion h = (mu.entries (handleInternal h)).version then E (handleInternal h) else none

namespace MUnit
variable {L : LookupStr K} (mu mu' : MUnit L V R)

theorem handleList_congr (hh : mu'.handles = mu.handles) (hs : mu'.size = mu.size)
    (hm : ∀ i, (mu'.metas i).version = (mu.metas i).version) : mu'.handleList = mu.handleList := by
  simp only [MUnit.handleList, hh, hs, hm]

theorem sweepEntries_congr (hh : mu'.handles = mu.handles) (hs : mu'.size = mu.size)
    (hm : ∀ i, (mu'.metas i).version = (mu.metas i).version ∧ (mu'.metas i).ts = (mu.metas i).ts ∧
      (mu'.metas i).timeoutMs = (mu.metas i).timeoutMs) :
    mu'.sweepEntries = mu.sweepEntries := by
  funext now
  simp only [MUnit.sweepEntries, hh, hs, fun i => (hm i).1, fun i => (hm i).2.1,
    fun i => (hm i).2.2]

theorem queryCounters_congr (h : Nat) (hh : mu'.handles = mu.handles) (hs : mu'.size = mu.size)
    (hm : (mu'.metas (handleInternal h)).bytes = (mu.metas (handleInternal h)).bytes ∧
      (mu'.metas (handleInternal h)).packets = (mu.metas (handleInternal h)).packets) :
    mu'.queryCounters h = mu.queryCounters h := by
  simp only [MUnit.queryCounters, MUnit.validHandle, hh, hs, hm.1, hm.2]

theorem queryMeter_congr (h : Nat) (hh : mu'.handles = mu.handles) (hs : mu'.size = mu.size)
    (hm : mu'.meters (handleInternal h) = mu.meters (handleInternal h)) :
    mu'.queryMeter h = mu.queryMeter h := by
  simp only [MUnit.queryMeter, MUnit.validHandle, hh, hs, hm]

theorem getEntry_congr (h : Nat) (hh : mu'.handles = mu.handles) (hs : mu'.size = mu.size)
    (he : mu'.entries = mu.entries) : mu'.getEntry h = mu.getEntry h := by
  simp only [MUnit.getEntry, MUnit.checkHandle, hh, hs, he]

end MUnit

namespace MRep
variable {L : LookupStr K} {sp : MatchSpec K} {W : Laws L sp} {mu : MUnit L V R}
  {E : Nat → Option (K × V)}

theorem init (W : Laws L sp) (size sizeKey : Nat) (hs : size ≤ 2 ^ 24) (meters : Nat → R) :
    MRep W (MUnit.init L V size sizeKey meters) (fun _ => none) where
  size := hs
  hm := ⟨∅, HandleMgr.Rep.empty, rfl, by simp⟩
  ls := W.init size
  ent := by simp
  ver := by simp [MUnit.init]

theorem lt (h : MRep W mu E) {i : Nat} {kv : K × V} (hi : E i = some kv) : i < mu.size :=
  (W.ok h.ls i kv.1 (by simp [hi])).2

theorem lt24 (h : MRep W mu E) {i : Nat} {kv : K × V} (hi : E i = some kv) : i < 2 ^ 24 :=
  lt_of_lt_of_le (h.lt hi) h.size

/-- The handle of the entry in slot `i`. -/
theorem tab_set (h : MRep W mu E) {i : Nat} (hi : i < 2 ^ 24) :
    mu.tab E (handleSet (mu.entries i).version i) = E i := by
  rw [MUnit.tab, handleInternal_set _ _ hi, handleVersion_set _ _ hi,
    Nat.mod_eq_of_lt (h.ver i), if_pos rfl]

theorem tab_some (h : MRep W mu E) {hd : Nat} {kv : K × V} (ht : mu.tab E hd = some kv) :
    E (handleInternal hd) = some kv ∧ hd = handleSet (mu.entries (handleInternal hd)).version
      (handleInternal hd) := by
  rw [MUnit.tab] at ht
  split at ht
  · rename_i hv
    refine ⟨ht, ?_⟩
    rw [← hv, handleSet_self]
    rw [hv]; exact h.ver _
  · simp at ht

theorem hasSame_iff (h : MRep W mu E) (k : K) :
    HasSame sp (mu.tab E) k ↔ ∃ i k' v', E i = some (k', v') ∧ sp.same k' k := by
  constructor
  · rintro ⟨hd, k', v', ht, hs⟩
    exact ⟨_, k', v', (h.tab_some ht).1, hs⟩
  · rintro ⟨i, k', v', hi, hs⟩
    exact ⟨_, k', v', by rw [h.tab_set (h.lt24 hi)]; exact hi, hs⟩

theorem live (h : MRep W mu E) {l : List Nat} (hn : l.Nodup)
    (hm : ∀ i, i ∈ l ↔ (E i).isSome = true) :
    Live (mu.tab E) (l.map fun i => handleSet (mu.entries i).version i) := by
  constructor
  · refine (List.nodup_map_iff_inj_on hn).2 ?_
    intro a ha b hb hab
    obtain ⟨ka, hka⟩ := Option.isSome_iff_exists.1 ((hm a).1 ha)
    obtain ⟨kb, hkb⟩ := Option.isSome_iff_exists.1 ((hm b).1 hb)
    have := congrArg handleInternal hab
    rwa [handleInternal_set _ _ (h.lt24 hka), handleInternal_set _ _ (h.lt24 hkb)] at this
  · intro hd
    rw [List.mem_map]
    constructor
    · rintro ⟨i, hi, rfl⟩
      obtain ⟨ka, hka⟩ := Option.isSome_iff_exists.1 ((hm i).1 hi)
      rw [h.tab_set (h.lt24 hka)]
      exact (hm i).1 hi
    · intro hs
      obtain ⟨kv, hkv⟩ := Option.isSome_iff_exists.1 hs
      obtain ⟨h1, h2⟩ := h.tab_some hkv
      exact ⟨handleInternal hd, (hm _).2 (by simp [h1]), h2.symm⟩

theorem live_count (h : MRep W mu E) :
    ∃ l, Live (mu.tab E) l ∧ l.length = mu.numEntries := by
  obtain ⟨S, _, hc, hm⟩ := h.hm
  refine ⟨_, h.live (l := S.toList) S.nodup_toList (fun i => by rw [Finset.mem_toList]; exact hm i),
    by simp [hc]⟩

theorem count_le (h : MRep W mu E) : mu.numEntries ≤ mu.size := by
  obtain ⟨S, _, hc, hm⟩ := h.hm
  rw [hc]
  have : S ⊆ Finset.range mu.size := by
    intro i hi
    obtain ⟨kv, hkv⟩ := Option.isSome_iff_exists.1 ((hm i).1 hi)
    exact Finset.mem_range.2 (h.lt hkv)
  simpa using Finset.card_le_card this

theorem firstUnset_lt (h : MRep W mu E) (hc : mu.numEntries < mu.size) :
    mu.handles.firstUnset < mu.size := by
  obtain ⟨S, hr, hcard, _⟩ := h.hm
  have : Finset.range mu.handles.firstUnset ⊆ S := by
    intro i hi
    exact hr.least i (Finset.mem_range.1 hi)
  have := Finset.card_le_card this
  rw [Finset.card_range] at this
  omega

/-! ## Calls -/

/-- `checkHandle` decides membership. -/
theorem checkHandle (h : MRep W mu E) (hd : Nat) :
    (∃ kv, mu.tab E hd = some kv ∧ mu.checkHandle hd = some .success) ∨
    (mu.tab E hd = none ∧ ∃ c, mu.checkHandle hd = some c ∧
      (c = .invalidHandle ∨ c = .expiredHandle)) := by
  obtain ⟨S, hr, hcard, hm⟩ := h.hm
  unfold MUnit.checkHandle MUnit.tab
  simp only [hr.validHandle, Option.bind_eq_bind, Option.bind_some]
  by_cases hS : handleInternal hd ∈ S
  · obtain ⟨kv, hkv⟩ := Option.isSome_iff_exists.1 ((hm _).1 hS)
    have hlt := h.lt hkv
    by_cases hv : handleVersion hd = (mu.entries (handleInternal hd)).version
    · left
      refine ⟨kv, by rw [if_pos hv]; exact hkv, ?_⟩
      simp [hS, hlt, hv]
    · right
      refine ⟨if_neg hv, .expiredHandle, by simp [hS, hlt, hv], .inr rfl⟩
  · right
    have : E (handleInternal hd) = none := by
      rw [hm] at hS; simpa using hS
    refine ⟨by split <;> simp [this], .invalidHandle, by simp [hS], .inl rfl⟩

theorem add_slot (h : MRep W mu E) (k : K) (v : V) (now : Nat) (hk : sp.okK k)
    (hkey : mu.sizeKey ≠ 0) (hns : ¬ HasSame sp (mu.tab E) k) (hc : mu.numEntries < mu.size) :
    let i := mu.handles.firstUnset
    let hd := handleSet (mu.entries i).version i
    i < mu.size ∧ E i = none ∧ (∀ j < i, E j ≠ none) ∧
    ∃ hm ls, 
      let mu' := { mu with
            numEntries := mu.numEntries + 1
            handles := hm
            entries := setAt mu.entries i { version := (mu.entries i).version, kv := some (k, v) }
            lstr := ls
            metas := setAt mu.metas i
              { (mu.metas i).reset now with version := (mu.entries i).version } }
      mu.addEntry (some k) v now = some ((.success, hd), mu') ∧
      MRep W mu' (setAt E i (some (k, v))) := by
  intro i hd
  have hi : i < mu.size := h.firstUnset_lt hc
  have hi24 : i < 2 ^ 24 := lt_of_lt_of_le hi h.size
  obtain ⟨S, hr, hcard, hm⟩ := h.hm
  have hEi : E i = none := by
    have := hr.free
    rw [hm] at this
    simpa using this
  have hle : ∀ j < i, E j ≠ none := by
    intro j hj he
    have := (hm j).1 (hr.least j hj)
    simp [he] at this
  obtain ⟨hm', e1, r1⟩ := hr.getHandle
  obtain ⟨r, _, e2, hnone, hsome⟩ := W.retrieve h.ls k hk
  have hrn : r = none := by
    cases r with
    | none => rfl
    | some j =>
      obtain ⟨k', hk', hs⟩ := hsome j rfl
      rw [Option.map_eq_some_iff] at hk'
      obtain ⟨kv, hkv, rfl⟩ := hk'
      exact absurd ((h.hasSame_iff k).2 ⟨j, kv.1, kv.2, hkv, hs⟩) hns
  obtain ⟨ls', e3, r3⟩ := W.add h.ls k i hk hi (by simp [hEi]) (fun j hj he => hle j hj (by simpa using he))
    (hnone hrn)
  refine ⟨hi, hEi, hle, hm', ls', ?_, ?_⟩
  · subst hrn
    unfold MUnit.addEntry
    rw [if_neg hkey]
    simp only [e2, Option.isSome_none, Option.bind_eq_bind, Option.bind_some, Bool.false_eq_true,
      if_false, if_neg (not_le.2 hc), e1]
    change (if i < mu.size then _ else _) = _
    rw [if_pos hi]
    change (L.add mu.lstr k i).bind _ = _
    rw [e3, Option.bind_some]
    have e4 : handleInternal (handleSet (mu.entries i).version i) = i := handleInternal_set _ _ hi24
    have e5 : handleVersion (handleSet (mu.entries i).version i) = (mu.entries i).version := by
      rw [handleVersion_set _ _ hi24, Nat.mod_eq_of_lt (h.ver i)]
    change (if handleInternal (handleSet (mu.entries i).version i) < mu.size then
      some ((MCode.success, handleSet (mu.entries i).version i),
        { mu with
          numEntries := mu.numEntries + 1
          handles := hm'
          entries := setAt mu.entries i { version := (mu.entries i).version, kv := some (k, v) }
          lstr := ls'
          metas := setAt mu.metas (handleInternal (handleSet (mu.entries i).version i))
              { (mu.metas (handleInternal (handleSet (mu.entries i).version i))).reset now with
                version := handleVersion (handleSet (mu.entries i).version i) } }) else none) = _
    rw [e4, e5, if_pos hi]
  · constructor
    · exact h.size
    · refine ⟨insert i S, r1, ?_, ?_⟩
      · rw [Finset.card_insert_of_notMem hr.free]
        simp [hcard]
      · intro j
        rw [Finset.mem_insert, hm]
        by_cases hj : j = i
        · simp [hj, setAt]
        · simp [hj, setAt]
    · simp only
      convert r3 using 2 with j
      simp only [setAt]
      split <;> simp
    · intro j kv hj
      by_cases hji : j = i
      · subst hji
        simp only [setAt_self] at *
        exact ⟨hj, trivial⟩
      · simp only [setAt_of_ne _ _ hji] at *
        exact h.ent j kv hj
    · intro j
      by_cases hji : j = i
      · subst hji; simp only [setAt_self]; exact h.ver _
      · simp only [setAt_of_ne _ _ hji]; exact h.ver _

theorem add_dup (h : MRep W mu E) (k : K) (v : V) (now : Nat) (hk : sp.okK k)
    (hkey : mu.sizeKey ≠ 0) (hs : HasSame sp (mu.tab E) k) :
    mu.addEntry (some k) v now = some ((.duplicateEntry, 0), mu) := by
  obtain ⟨r, _, e2, hnone, _⟩ := W.retrieve h.ls k hk
  obtain ⟨i, k', v', hi, hs⟩ := (h.hasSame_iff k).1 hs
  cases r with
  | none => exact absurd hs (hnone rfl i k' (by simp [hi]))
  | some j =>
    unfold MUnit.addEntry
    rw [if_neg hkey]
    simp [e2]

theorem add_full (h : MRep W mu E) (k : K) (v : V) (now : Nat) (hk : sp.okK k)
    (hkey : mu.sizeKey ≠ 0) (hs : ¬ HasSame sp (mu.tab E) k) (hc : ¬ mu.numEntries < mu.size) :
    mu.addEntry (some k) v now = some ((.tableFull, 0), mu) := by
  obtain ⟨r, _, e2, _, hsome⟩ := W.retrieve h.ls k hk
  cases r with
  | some j =>
    obtain ⟨k', hk', hss⟩ := hsome j rfl
    rw [Option.map_eq_some_iff] at hk'
    obtain ⟨kv, hkv, rfl⟩ := hk'
    exact absurd ((h.hasSame_iff k).2 ⟨j, kv.1, kv.2, hkv, hss⟩) hs
  | none =>
    unfold MUnit.addEntry
    rw [if_neg hkey]
    simp [e2, not_lt.1 hc]

theorem delete_live (h : MRep W mu E) (hd : Nat) {kv : K × V} (ht : mu.tab E hd = some kv) :
    let i := handleInternal hd
    ∃ hm ls,
      let mu' := { mu with
            numEntries := mu.numEntries - 1
            handles := hm
            entries := setAt mu.entries i
              { mu.entries i with version := ((mu.entries i).version + 1) % 256 }
            lstr := ls }
      mu.deleteEntry hd = some (.success, mu') ∧ MRep W mu' (setAt E i none) := by
  intro i
  obtain ⟨hE, _⟩ := h.tab_some ht
  have hi24 := h.lt24 hE
  obtain ⟨S, hr, hcard, hm⟩ := h.hm
  have hiS : i ∈ S := (hm i).2 (by simp [i, hE])
  obtain ⟨hm', e1, r1⟩ := hr.releaseHandle i
  obtain ⟨ls', e2, r2⟩ := W.delete h.ls i kv.1 (by simp [i, hE])
  have hc : mu.checkHandle hd = some .success := by
    rcases h.checkHandle hd with ⟨_, _, h2⟩ | ⟨h1, _⟩
    · exact h2
    · rw [ht] at h1; simp at h1
  refine ⟨hm', ls', ?_, ?_⟩
  · unfold MUnit.deleteEntry
    simp only [hc, Option.bind_eq_bind, Option.bind_some, ne_eq, not_true_eq_false, if_false,
      (h.ent _ _ hE).1, handleVersion_set _ _ hi24]
    rw [e2, Option.bind_some]
    change (mu.handles.releaseHandle i).bind _ = _
    rw [e1, Option.bind_some]
    simp only [hiS, decide_true, if_true]
    simp [i, (h.ent _ _ hE).1]
  · constructor
    · exact h.size
    · refine ⟨S.erase i, r1, ?_, ?_⟩
      · rw [Finset.card_erase_of_mem hiS]
        simp [hcard]
      · intro j
        rw [Finset.mem_erase, hm]
        by_cases hj : j = i
        · simp [hj, setAt]
        · simp [hj, setAt]
    · simp only
      convert r2 using 2 with j
      simp only [setAt]
      split <;> simp
    · intro j kv' hj
      by_cases hji : j = i
      · subst hji; simp [setAt] at hj
      · simp only [setAt_of_ne _ _ hji] at *
        exact h.ent j kv' hj
    · intro j
      by_cases hji : j = i
      · subst hji; simp only [setAt_self]; exact Nat.mod_lt _ (by norm_num)
      · simp only [setAt_of_ne _ _ hji]; exact h.ver _

theorem delete_stale (h : MRep W mu E) (hd : Nat) (ht : mu.tab E hd = none) :
    ∃ c, mu.deleteEntry hd = some (c, mu) ∧ (c = .invalidHandle ∨ c = .expiredHandle) := by
  rcases h.checkHandle hd with ⟨kv, h1, _⟩ | ⟨_, c, hc, hcc⟩
  · rw [ht] at h1; simp at h1
  · refine ⟨c, ?_, hcc⟩
    unfold MUnit.deleteEntry
    rcases hcc with rfl | rfl <;> simp [hc]

theorem modify_live (h : MRep W mu E) (hd : Nat) (v : V) {k : K} {v' : V}
    (ht : mu.tab E hd = some (k, v')) :
    let i := handleInternal hd
    let mu' := { mu with entries := setAt mu.entries i { mu.entries i with kv := some (k, v) } }
    mu.modifyEntry hd v = some (.success, mu') ∧ MRep W mu' (setAt E i (some (k, v))) := by
  intro i mu'
  obtain ⟨hE, _⟩ := h.tab_some ht
  have hc : mu.checkHandle hd = some .success := by
    rcases h.checkHandle hd with ⟨_, _, h2⟩ | ⟨h1, _⟩
    · exact h2
    · rw [ht] at h1; simp at h1
  have hEi : E i = some (k, v') := hE
  constructor
  · unfold MUnit.modifyEntry
    simp only [hc, Option.bind_eq_bind, Option.bind_some, ne_eq, not_true_eq_false, if_false,
      (h.ent _ _ hE).1]
    rfl
  · constructor
    · exact h.size
    · obtain ⟨S, hr, hcard, hm⟩ := h.hm
      refine ⟨S, hr, hcard, ?_⟩
      intro j
      rw [hm]
      by_cases hj : j = i
      · subst hj; simp [setAt, hEi]
      · simp [hj, setAt]
    · have := h.ls
      simp only [mu']
      convert this using 2 with j
      by_cases hj : j = i
      · subst hj; simp [setAt, hEi]
      · simp [setAt, hj]
    · intro j kv' hj
      by_cases hji : j = i
      · subst hji
        simp only [mu', setAt_self] at *
        exact ⟨hj, (h.ent _ _ hEi).2⟩
      · simp only [mu', setAt_of_ne _ _ hji] at *
        exact h.ent j kv' hj
    · intro j
      by_cases hji : j = i
      · subst hji; simp only [mu', setAt_self]; exact h.ver _
      · simp only [mu', setAt_of_ne _ _ hji]; exact h.ver _

theorem modify_stale (h : MRep W mu E) (hd : Nat) (v : V) (ht : mu.tab E hd = none) :
    ∃ c, mu.modifyEntry hd v = some (c, mu) ∧ (c = .invalidHandle ∨ c = .expiredHandle) := by
  rcases h.checkHandle hd with ⟨kv, h1, _⟩ | ⟨_, c, hc, hcc⟩
  · rw [ht] at h1; simp at h1
  · refine ⟨c, ?_, hcc⟩
    unfold MUnit.modifyEntry
    rcases hcc with rfl | rfl <;> simp [hc]

theorem get_live (h : MRep W mu E) (hd : Nat) {kv : K × V} (ht : mu.tab E hd = some kv) :
    mu.getEntry hd = some (.success, some kv) := by
  obtain ⟨hE, _⟩ := h.tab_some ht
  rcases h.checkHandle hd with ⟨_, _, hc⟩ | ⟨h1, _⟩
  · unfold MUnit.getEntry
    simp [hc, (h.ent _ _ hE).1]
  · rw [ht] at h1; simp at h1

theorem get_stale (h : MRep W mu E) (hd : Nat) (ht : mu.tab E hd = none) :
    ∃ c, mu.getEntry hd = some (c, none) ∧ (c = .invalidHandle ∨ c = .expiredHandle) := by
  rcases h.checkHandle hd with ⟨kv, h1, _⟩ | ⟨_, c, hc, hcc⟩
  · rw [ht] at h1; simp at h1
  · refine ⟨c, ?_, hcc⟩
    unfold MUnit.getEntry
    rcases hcc with rfl | rfl <;> simp [hc]

theorem retrieve (h : MRep W mu E) (k : K) (hk : sp.okK k) :
    (∃ hd k' v', mu.tab E hd = some (k', v') ∧ sp.same k' k ∧
      mu.retrieveHandle (some k) = some (.success, hd)) ∨
    (¬ HasSame sp (mu.tab E) k ∧ mu.retrieveHandle (some k) = some (.badMatchKey, 0)) := by
  obtain ⟨r, e, _, hnone, hsome⟩ := W.retrieve h.ls k hk
  cases r with
  | none =>
    right
    refine ⟨?_, by simp [MUnit.retrieveHandle, e]⟩
    rw [h.hasSame_iff]
    rintro ⟨i, k', v', hi, hs⟩
    exact hnone rfl i k' (by simp [hi]) hs
  | some i =>
    left
    obtain ⟨k', hk', hs⟩ := hsome i rfl
    rw [Option.map_eq_some_iff] at hk'
    obtain ⟨⟨k1, v1⟩, hkv, rfl⟩ := hk'
    refine ⟨_, k1, v1, by rw [h.tab_set (h.lt24 hkv)]; exact hkv, hs, ?_⟩
    simp [MUnit.retrieveHandle, e, h.lt hkv]

/-- Only the lookup structure and the per-entry data change. -/
theorem of_eq (h : MRep W mu E) (mu' : MUnit L V R) (hs : mu'.size = mu.size)
    (hn : mu'.numEntries = mu.numEntries) (hh : mu'.handles = mu.handles)
    (he : mu'.entries = mu.entries) (hl : W.Rep mu'.lstr mu.size (fun i => (E i).map Prod.fst))
    (hmv : ∀ i, (mu'.metas i).version = (mu.metas i).version) : MRep W mu' E := by
  constructor
  · rw [hs]; exact h.size
  · rw [hn, hh]; exact h.hm
  · rw [hs]; exact hl
  · intro i kv hi; rw [he, hmv]; exact h.ent i kv hi
  · rw [he]; exact h.ver

theorem lookup (h : MRep W mu E) (q : Bytes) (nb ts : Nat) (hq : sp.okQ q) :
    ∃ ls, W.Rep ls mu.size (fun i => (E i).map Prod.fst) ∧
    ((mu.lookup q nb ts = some (.miss, { mu with lstr := ls }) ∧
        ∀ i k v, E i = some (k, v) → ¬ sp.m q k) ∨
     (∃ i k v, E i = some (k, v) ∧ sp.m q k ∧
        (∀ i' k' v', E i' = some (k', v') → sp.m q k' →
          sp.prio k < sp.prio k' ∨ (sp.prio k = sp.prio k' ∧ i ≤ i')) ∧
        mu.lookup q nb ts = some (.hit (handleSet (mu.entries i).version i) v,
          { mu with
            lstr := ls
            metas := setAt mu.metas i
              { mu.metas i with
                bytes := ((mu.metas i).bytes + nb) % 2 ^ 64
                packets := ((mu.metas i).packets + 1) % 2 ^ 64
                ts := ts } }))) := by
  obtain ⟨r, ls, e, hb, hl⟩ := W.lookup h.ls q hq
  refine ⟨ls, hl, ?_⟩
  cases r with
  | none =>
    left
    refine ⟨by simp [MUnit.lookup, e], ?_⟩
    intro i k v hi
    exact hb i k (by simp [hi])
  | some i =>
    right
    obtain ⟨k, hk, hm, hbest⟩ := hb
    rw [Option.map_eq_some_iff] at hk
    obtain ⟨⟨k1, v1⟩, hkv, rfl⟩ := hk
    refine ⟨i, k1, v1, hkv, hm, ?_, ?_⟩
    · intro i' k' v' hi' hm'
      exact hbest i' k' (by simp [hi']) hm'
    · unfold MUnit.lookup
      simp only [e, Option.bind_eq_bind, Option.bind_some, if_pos (h.lt hkv), (h.ent _ _ hkv).1,
        handleInternal_set _ _ (h.lt24 hkv)]
      rfl

theorem handleList (h : MRep W mu E) :
    ∃ l, mu.handleList = some l ∧ Live (mu.tab E) l := by
  obtain ⟨S, hr, hcard, hm⟩ := h.hm
  obtain ⟨l, e, hlt, hmem⟩ := hr.iterate
  have hnd : l.Nodup := hlt.imp (fun h => ne_of_lt h)
  refine ⟨l.map fun i => handleSet (mu.entries i).version i, ?_,
    h.live hnd (fun i => (hmem i).trans (hm i))⟩
  simp only [MUnit.handleList, e, Option.bind_eq_bind, Option.bind_some]
  have hall : ∀ i ∈ l, ∃ kv, E i = some kv := fun i hi =>
    Option.isSome_iff_exists.1 ((hm i).1 ((hmem i).1 hi))
  clear e hlt hmem hnd
  induction l with
  | nil => rfl
  | cons i l ih =>
    obtain ⟨kv, hkv⟩ := hall i (by simp)
    rw [List.mapM_cons, ih (fun j hj => hall j (by simp [hj])), if_pos (h.lt hkv),
      (h.ent _ _ hkv).2]
    rfl

theorem resetState (h : MRep W mu E) : MRep W mu.resetState (fun _ => none) where
  size := h.size
  hm := by
    obtain ⟨S, hr, hcard, hm⟩ := h.hm
    exact ⟨∅, by simpa [MUnit.resetState, HandleMgr.clear, Bitset.clear] using HandleMgr.Rep.empty,
      rfl, by simp⟩
  ls := W.clear h.ls
  ent := by simp
  ver := by simp [MUnit.resetState]

theorem validHandle (h : MRep W mu E) (hd : Nat) :
    mu.validHandle hd = some (E (handleInternal hd)).isSome := by
  obtain ⟨S, hr, hcard, hm⟩ := h.hm
  rw [MUnit.validHandle, hr.validHandle]
  congr 1
  rw [Bool.eq_iff_iff, decide_eq_true_iff, hm]

/-- The handles reported by a sweep. -/
theorem mem_sweep (h : MRep W mu E) {t : Nat} {l : List Nat} (hl : mu.sweepEntries t = some l)
    (hd : Nat) : hd ∈ l ↔ (mu.tab E hd).isSome = true ∧
      (mu.metas (handleInternal hd)).timeoutMs > 0 ∧
      t - (mu.metas (handleInternal hd)).ts ≥ (mu.metas (handleInternal hd)).timeoutMs := by
  obtain ⟨S, hmr, hcard, hms⟩ := h.hm
  obtain ⟨is, eis, _, hmem'⟩ := hmr.iterate
  simp only [MUnit.sweepEntries, Option.bind_eq_bind, eis, Option.bind_some,
    Option.bind_eq_some_iff, Option.pure_def, Option.some.injEq] at hl
  obtain ⟨r, hr1, rfl⟩ := hl
  rw [List.mem_flatten]
  constructor
  · rintro ⟨x, hx, hhx⟩
    obtain ⟨i, hi1, hi2⟩ := mem_of_mapM hr1 hx
    obtain ⟨kv, hkv⟩ := Option.isSome_iff_exists.1 ((hms i).1 ((hmem' i).1 hi1))
    rw [if_pos (h.lt hkv)] at hi2
    split at hi2
    · simp only [Option.some.injEq] at hi2
      subst hi2
      split at hhx
      · rename_i hto
        simp only [List.mem_singleton] at hhx
        rw [(h.ent _ _ hkv).2] at hhx
        subst hhx
        rw [h.tab_set (h.lt24 hkv), handleInternal_set _ _ (h.lt24 hkv)]
        exact ⟨by simp [hkv], hto⟩
      · simp at hhx
    · simp at hi2
  · rintro ⟨hs, hto⟩
    obtain ⟨kv, hkv⟩ := Option.isSome_iff_exists.1 hs
    obtain ⟨hE, heq⟩ := h.tab_some hkv
    obtain ⟨x, hx, he⟩ := mapM_of_mem hr1 ((hmem' _).2 ((hms (handleInternal hd)).2 (by simp [hE])))
    refine ⟨x, hx, ?_⟩
    rw [if_pos (h.lt hE)] at he
    split at he
    · simp only [Option.some.injEq] at he
      subst he
      rw [(h.ent _ _ hE).2, ← heq]
      simp
    · simp at he

end MRep
end Bm
