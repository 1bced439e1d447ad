import Verif.Model.ActionProfile
import Mathlib.Algebra.BigOperators.Group.Finset.Basic
import Mathlib.Algebra.Order.BigOperators.Group.Finset
import Mathlib.Algebra.BigOperators.Ring.Finset

/-! Action profiles: indices, reference counts, groups as sorted lists, counting references. -/

namespace Bm
open Spec

/-! ## Index words -/

/-- The index word of a reference. -/
def encRef : Ref → Nat
  | .mbr m => m
  | .grp g => 2 ^ 24 + g

/-- The handle of a reference. -/
def refId : Ref → Nat
  | .mbr m => m
  | .grp g => g

theorem IIdx.get_eq (w : Nat) : IIdx.get w = w % 2 ^ 24 := by
  have : (0x00ffffff : Nat) = 2 ^ 24 - 1 := by norm_num
  rw [IIdx.get, this, Nat.and_two_pow_sub_one_eq_mod]

theorem IIdx.makeGrp_eq (g : Nat) (h : g < 2 ^ 24) : IIdx.makeGrp g = some (2 ^ 24 + g) := by
  have h1 : (0x01 <<< 24 : Nat) = 2 ^ 24 * 1 := by decide
  rw [IIdx.makeGrp, if_pos (by omega), h1, ← Nat.two_pow_add_eq_or_of_lt h,
    Nat.mul_one]

theorem IIdx.make_eq (r : Ref) (h : refId r < 2 ^ 24) : IIdx.make r = some (encRef r) := by
  cases r with
  | mbr m => simp only [refId] at h; simp [IIdx.make, IIdx.makeMbr, encRef]; omega
  | grp g => exact IIdx.makeGrp_eq g h

theorem IIdx.make_none (r : Ref) (h : ¬ refId r < 2 ^ 24) : IIdx.make r = none := by
  cases r <;> simp only [refId] at h <;> simp [IIdx.make, IIdx.makeMbr, IIdx.makeGrp] <;> omega

theorem IIdx.isMbr_enc (r : Ref) (h : refId r < 2 ^ 24) :
    IIdx.isMbr (encRef r) = match r with | .mbr _ => true | .grp _ => false := by
  cases r with
  | mbr m =>
    simp only [refId] at h
    simp [IIdx.isMbr, encRef, Nat.shiftRight_eq_div_pow]; omega
  | grp g =>
    simp only [refId] at h
    simp only [IIdx.isMbr, encRef, Nat.shiftRight_eq_div_pow]
    have : (2 ^ 24 + g) / 2 ^ 24 = 1 := by omega
    rw [this]; rfl

theorem IIdx.isGrp_enc (r : Ref) (h : refId r < 2 ^ 24) :
    IIdx.isGrp (encRef r) = match r with | .mbr _ => false | .grp _ => true := by
  cases r with
  | mbr m =>
    simp only [refId] at h
    simp only [IIdx.isGrp, encRef, Nat.shiftRight_eq_div_pow]
    have : m / 2 ^ 24 = 0 := by omega
    rw [this]; rfl
  | grp g =>
    simp only [refId] at h
    simp only [IIdx.isGrp, encRef, Nat.shiftRight_eq_div_pow]
    have : (2 ^ 24 + g) / 2 ^ 24 = 1 := by omega
    rw [this]; rfl

theorem IIdx.get_enc (r : Ref) (h : refId r < 2 ^ 24) : IIdx.get (encRef r) = refId r := by
  rw [IIdx.get_eq]
  cases r <;> simp only [refId, encRef] at * <;> omega

theorem IIdx.toRef_enc (r : Ref) (h : refId r < 2 ^ 24) : IIdx.toRef (encRef r) = r := by
  rw [IIdx.toRef, IIdx.isMbr_enc r h, IIdx.get_enc r h]
  cases r <;> simp [refId]

/-! ## Reference counts -/

namespace RefCounts

/-- The count stored for a reference. -/
def at' (rc : RefCounts) : Ref → Option Nat
  | .mbr m => rc.mbr[m]?
  | .grp g => rc.grp[g]?

theorem get_enc (rc : RefCounts) (r : Ref) (h : refId r < 2 ^ 24) :
    rc.get (encRef r) = rc.at' r := by
  rw [get, IIdx.isMbr_enc r h, IIdx.get_enc r h]
  cases r <;> rfl

theorem setIn_ok (v : List Nat) (i x : Nat) (h : i ≤ v.length) :
    ∃ v', setIn v i x = some v' ∧ v'.length = max v.length (i + 1) ∧
      ∀ j, v'[j]? = if j = i then some x else v[j]? := by
  rw [setIn, if_pos h]
  by_cases he : i = v.length
  · subst he
    refine ⟨_, rfl, by simp, ?_⟩
    intro j
    simp only [if_true]
    rw [List.getElem?_append]
    split
    · rw [if_neg (by omega)]
    · by_cases hj : j = v.length
      · simp [hj]
      · rw [if_neg hj, List.getElem?_eq_none (by simp; omega),
          List.getElem?_eq_none (by omega)]
  · refine ⟨_, rfl, by simp [he]; omega, ?_⟩
    intro j
    rw [if_neg he, List.getElem?_set]
    by_cases hj : i = j
    · subst hj; simp; omega
    · rw [if_neg hj, if_neg (by omega)]

theorem changeIn_ok (v : List Nat) (i d c : Nat) (h : v[i]? = some c) :
    ∃ v', changeIn v i d = some v' ∧ v'.length = v.length ∧
      ∀ j, v'[j]? = if j = i then some ((c + d) % 2 ^ 32) else v[j]? := by
  simp only [changeIn, h, Option.bind_eq_bind, Option.bind_some, Option.pure_def]
  refine ⟨_, rfl, by simp, ?_⟩
  intro j
  rw [List.getElem?_set]
  have hi : i < v.length := by
    by_contra hc
    rw [List.getElem?_eq_none (by omega)] at h; cases h
  by_cases hj : i = j
  · subst hj; simp [hi]
  · rw [if_neg hj, if_neg (by omega)]

/-- Same lengths. -/
def SameLen (a b : RefCounts) : Prop := a.mbr.length = b.mbr.length ∧ a.grp.length = b.grp.length

theorem change_ok (rc : RefCounts) (r : Ref) (h : refId r < 2 ^ 24) (c d : Nat)
    (hc : rc.at' r = some c) :
    ∃ rc', (if IIdx.isMbr (encRef r) then
        (changeIn rc.mbr (IIdx.get (encRef r)) d).map fun v => { rc with mbr := v }
      else (changeIn rc.grp (IIdx.get (encRef r)) d).map fun v => { rc with grp := v }) = some rc' ∧
      SameLen rc' rc ∧
      ∀ r', rc'.at' r' = if r' = r then some ((c + d) % 2 ^ 32) else rc.at' r' := by
  rw [IIdx.isMbr_enc r h, IIdx.get_enc r h]
  cases r with
  | mbr m =>
    obtain ⟨v', e, hl, hv⟩ := changeIn_ok rc.mbr m d c hc
    refine ⟨{ rc with mbr := v' }, by simp [refId, e], ⟨hl, rfl⟩, ?_⟩
    intro r'
    cases r' with
    | mbr m' => simp [at', hv]
    | grp g' => simp [at']
  | grp g =>
    obtain ⟨v', e, hl, hv⟩ := changeIn_ok rc.grp g d c hc
    refine ⟨{ rc with grp := v' }, by simp [refId, e], ⟨rfl, hl⟩, ?_⟩
    intro r'
    cases r' with
    | mbr m' => simp [at']
    | grp g' => simp [at', hv]

theorem increase_ok (rc : RefCounts) (r : Ref) (h : refId r < 2 ^ 24) (c : Nat)
    (hc : rc.at' r = some c) :
    ∃ rc', rc.increase (encRef r) = some rc' ∧ SameLen rc' rc ∧
      ∀ r', rc'.at' r' = if r' = r then some ((c + 1) % 2 ^ 32) else rc.at' r' :=
  change_ok rc r h c 1 hc

theorem decrease_ok (rc : RefCounts) (r : Ref) (h : refId r < 2 ^ 24) (c : Nat)
    (hc : rc.at' r = some c) :
    ∃ rc', rc.decrease (encRef r) = some rc' ∧ SameLen rc' rc ∧
      ∀ r', rc'.at' r' = if r' = r then some ((c + (2 ^ 32 - 1)) % 2 ^ 32) else rc.at' r' :=
  change_ok rc r h c (2 ^ 32 - 1) hc

theorem set_ok (rc : RefCounts) (r : Ref) (h : refId r < 2 ^ 24) (x : Nat)
    (hl : refId r ≤ (match r with | .mbr _ => rc.mbr.length | .grp _ => rc.grp.length)) :
    ∃ rc', rc.set (encRef r) x = some rc' ∧
      rc'.mbr.length = (match r with | .mbr m => max rc.mbr.length (m + 1) | .grp _ => rc.mbr.length) ∧
      rc'.grp.length = (match r with | .grp m => max rc.grp.length (m + 1) | .mbr _ => rc.grp.length) ∧
      ∀ r', rc'.at' r' = if r' = r then some x else rc.at' r' := by
  rw [set, IIdx.isMbr_enc r h, IIdx.get_enc r h]
  cases r with
  | mbr m =>
    obtain ⟨v', e, hl', hv⟩ := setIn_ok rc.mbr m x hl
    refine ⟨{ rc with mbr := v' }, by simp [refId, e], hl', rfl, ?_⟩
    intro r'
    cases r' with
    | mbr m' => simp [at', hv]
    | grp g' => simp [at']
  | grp g =>
    obtain ⟨v', e, hl', hv⟩ := setIn_ok rc.grp g x hl
    refine ⟨{ rc with grp := v' }, by simp [refId, e], rfl, hl', ?_⟩
    intro r'
    cases r' with
    | mbr m' => simp [at']
    | grp g' => simp [at', hv]

end RefCounts

/-! ## Groups -/

namespace Ras

theorem add_spec (l : List Nat) (x : Nat) (h : l.Pairwise (· < ·)) :
    (add l x).1 = decide (x ∉ l) ∧ (add l x).2.Pairwise (· < ·) ∧
      ∀ y, y ∈ (add l x).2 ↔ y = x ∨ y ∈ l := by
  induction l with
  | nil => simp [add]
  | cons a l ih =>
    rw [List.pairwise_cons] at h
    obtain ⟨h1, h2, h3⟩ := ih h.2
    unfold add
    by_cases hlt : x < a
    · rw [if_pos hlt]
      refine ⟨?_, ?_, by simp⟩
      · symm; simp only [decide_eq_true_eq, List.mem_cons, not_or]
        exact ⟨by omega, fun hm => by have := h.1 x hm; omega⟩
      · rw [List.pairwise_cons]
        refine ⟨?_, List.pairwise_cons.2 h⟩
        intro y hy
        rcases List.mem_cons.1 hy with rfl | hy
        · exact hlt
        · have := h.1 y hy; omega
    · rw [if_neg hlt]
      by_cases he : x = a
      · subst he
        rw [if_pos rfl]
        exact ⟨by simp, List.pairwise_cons.2 h, by simp⟩
      · rw [if_neg he]
        refine ⟨by simp [h1, he], ?_, ?_⟩
        · rw [List.pairwise_cons]
          refine ⟨?_, h2⟩
          intro y hy
          rcases (h3 y).1 hy with rfl | hy
          · omega
          · exact h.1 y hy
        · intro y
          simp only [List.mem_cons, h3]
          tauto

theorem remove_spec (l : List Nat) (x : Nat) (h : l.Pairwise (· < ·)) :
    (remove l x).1 = decide (x ∈ l) ∧ (remove l x).2.Pairwise (· < ·) ∧
      ∀ y, y ∈ (remove l x).2 ↔ y ≠ x ∧ y ∈ l := by
  induction l with
  | nil => simp [remove]
  | cons a l ih =>
    rw [List.pairwise_cons] at h
    obtain ⟨h1, h2, h3⟩ := ih h.2
    unfold remove
    by_cases he : x = a
    · subst he
      rw [if_pos rfl]
      refine ⟨by simp, h.2, ?_⟩
      intro y
      simp only [List.mem_cons]
      constructor
      · intro hy; exact ⟨by have := h.1 y hy; omega, .inr hy⟩
      · rintro ⟨a, b | b⟩
        · exact absurd b a
        · exact b
    · rw [if_neg he]
      refine ⟨by simp [h1, he], ?_, ?_⟩
      · rw [List.pairwise_cons]
        exact ⟨fun y hy => h.1 y ((h3 y).1 hy).2, h2⟩
      · intro y
        simp only [List.mem_cons, h3]
        constructor
        · rintro (rfl | ⟨a, b⟩)
          · exact ⟨by omega, .inl rfl⟩
          · exact ⟨a, .inr b⟩
        · rintro ⟨a, b | b⟩
          · exact .inl b
          · exact .inr ⟨a, b⟩

/-- The `n`-th element of a sorted list has exactly `n` elements below it. -/
theorem nth_spec (l : List Nat) (h : l.Pairwise (· < ·)) (n : Nat) (hn : n < l.length) :
    ∃ m, l[n]? = some m ∧ m ∈ l ∧ (l.toFinset.filter (· < m)).card = n := by
  refine ⟨l[n], List.getElem?_eq_getElem hn, List.getElem_mem hn, ?_⟩
  have hnd : l.Nodup := h.imp (fun hab => by omega)
  have : l.toFinset.filter (· < l[n]) = (l.take n).toFinset := by
    ext y
    simp only [Finset.mem_filter, List.mem_toFinset]
    constructor
    · rintro ⟨hy, hlt⟩
      obtain ⟨j, hj, rfl⟩ := List.getElem_of_mem hy
      have hjn : j < n := by
        by_contra hge
        rcases Nat.lt_or_ge n j with hh | hh
        · have := List.pairwise_iff_getElem.1 h n j hn hj hh; omega
        · have : j = n := by omega
          subst this; omega
      rw [List.mem_take_iff_getElem]
      exact ⟨j, by omega, rfl⟩
    · intro hy
      obtain ⟨j, hj, rfl⟩ := List.mem_take_iff_getElem.1 hy
      exact ⟨List.getElem_mem _, List.pairwise_iff_getElem.1 h j n (by omega) hn (by omega)⟩
  rw [this, List.toFinset_card_of_nodup (hnd.sublist (List.take_sublist _ _)), List.length_take]
  omega

end Ras

/-! ## Counting references in the specification's state -/

/-- Sums that differ in one term. -/
theorem sum_change {α : Type} [DecidableEq α] (S : Finset α) (f f' : α → Nat) (a : α) (ha : a ∈ S)
    (h : ∀ b ∈ S, b ≠ a → f' b = f b) : (∑ b ∈ S, f' b) + f a = (∑ b ∈ S, f b) + f' a := by
  rw [← Finset.add_sum_erase S f ha, ← Finset.add_sum_erase S f' ha]
  have : ∑ x ∈ S.erase a, f' x = ∑ x ∈ S.erase a, f x :=
    Finset.sum_congr rfl (fun b hb => h b (Finset.mem_of_mem_erase hb) (Finset.ne_of_mem_erase hb))
  omega

section
variable {K : Type}

/-- Bound on handles. -/
def hBound : Nat := 2 ^ 32

open Classical in
/-- Does this entry point to `r`? -/
noncomputable def pts (r : Ref) (e : Option (K × Ref)) : Nat :=
  if e.map Prod.snd = some r then 1 else 0

/-- Number of entries pointing to `r`. -/
noncomputable def tcnt (T : Nat → Option (K × Ref)) (r : Ref) : Nat :=
  ∑ h ∈ Finset.range hBound, pts r (T h)

theorem tcnt_upd (T T' : Nat → Option (K × Ref)) (r : Ref) (h : Nat) (hh : h < 2 ^ 32)
    (e : ∀ h', h' ≠ h → T' h' = T h') :
    tcnt T' r + pts r (T h) = tcnt T r + pts r (T' h) := by
  unfold tcnt
  exact sum_change _ (fun h => pts r (T h)) (fun h => pts r (T' h)) h (Finset.mem_range.2 hh)
    (fun b _ hb => by simp only [e b hb])

theorem tcnt_empty (r : Ref) : tcnt (fun _ => none : Nat → Option (K × Ref)) r = 0 := by
  unfold tcnt
  exact Finset.sum_eq_zero (fun _ _ => by simp [pts])

theorem tcnt_pos (T : Nat → Option (K × Ref)) (r : Ref)
    (hlt : ∀ h kv, T h = some kv → h < 2 ^ 32) :
    0 < tcnt T r ↔ ∃ h k, T h = some (k, r) := by
  unfold tcnt
  rw [Nat.pos_iff_ne_zero, Ne, Finset.sum_eq_zero_iff]
  push Not
  constructor
  · rintro ⟨h, _, hp⟩
    have : (T h).map Prod.snd = some r := by
      by_contra hc; exact hp (by simp [pts, hc])
    obtain ⟨⟨k, r'⟩, h1, h2⟩ := Option.map_eq_some_iff.1 this
    simp only at h2
    subst h2
    exact ⟨h, k, h1⟩
  · rintro ⟨h, k, hk⟩
    exact ⟨h, Finset.mem_range.2 (hlt h _ hk), by simp [pts, hk]⟩

theorem tcnt_le (T : Nat → Option (K × Ref)) (r : Ref) (l : List Nat) (hl : Live T l) :
    tcnt T r ≤ l.length := by
  classical
  have h1 : tcnt T r ≤ ∑ h ∈ l.toFinset, 1 := by
    unfold tcnt
    have : ∑ h ∈ Finset.range hBound, pts r (T h) =
        ∑ h ∈ (Finset.range hBound).filter (· ∈ l), pts r (T h) := by
      rw [Finset.sum_filter]
      refine Finset.sum_congr rfl (fun h _ => ?_)
      by_cases hm : h ∈ l
      · rw [if_pos hm]
      · rw [if_neg hm]
        have : T h = none := by
          have := (hl.2 h).not.1 hm
          simpa using this
        simp [pts, this]
    rw [this]
    refine le_trans (Finset.sum_le_sum (g := fun _ => 1) ?_) ?_
    · intro h _; simp only [pts]; split <;> omega
    · refine Finset.sum_le_sum_of_subset ?_
      intro h hh
      simp only [Finset.mem_filter] at hh
      exact List.mem_toFinset.2 hh.2
  refine le_trans h1 ?_
  rw [← Finset.card_eq_sum_ones]
  exact List.toFinset_card_le l

end

/-! ## Replacing index words by references -/

/-- A table with index words seen as a table with references. -/
def mapT {K : Type} (T : Nat → Option (K × Nat)) : Nat → Option (K × Ref) :=
  fun h => (T h).map fun kv => (kv.1, IIdx.toRef kv.2)

section
variable {K : Type} {sp : MatchSpec K} {n : Nat} {kl : Bool} {T T' : Nat → Option (K × Nat)}

theorem mapT_none (h : Nat) : mapT T h = none ↔ T h = none := by simp [mapT]

theorem mapT_isSome (h : Nat) : (mapT T h).isSome = (T h).isSome := by simp [mapT]

theorem mapT_some {h : Nat} {k : K} {r : Ref} :
    mapT T h = some (k, r) ↔ ∃ w, T h = some (k, w) ∧ IIdx.toRef w = r := by
  simp only [mapT, Option.map_eq_some_iff, Prod.mk.injEq, Prod.exists]
  constructor
  · rintro ⟨a, b, h1, rfl, h2⟩; exact ⟨b, h1, h2⟩
  · rintro ⟨w, h1, h2⟩; exact ⟨k, w, h1, rfl, h2⟩

theorem live_mapT (l : List Nat) : Live (mapT T) l ↔ Live T l := by
  simp [Live, mapT_isSome]

theorem hasSame_mapT (k : K) : HasSame sp (mapT T) k ↔ HasSame sp T k := by
  constructor
  · rintro ⟨h, k', v', e, hs⟩
    obtain ⟨w, e', _⟩ := mapT_some.1 e
    exact ⟨h, k', w, e', hs⟩
  · rintro ⟨h, k', w, e, hs⟩
    exact ⟨h, k', IIdx.toRef w, mapT_some.2 ⟨w, e, rfl⟩, hs⟩

theorem mapT_set (T : Nat → Option (K × Nat)) (h : Nat) (x : Option (K × Nat)) :
    mapT (fun h' => if h' = h then x else T h') =
      fun h' => if h' = h then x.map (fun kv => (kv.1, IIdx.toRef kv.2)) else mapT T h' := by
  funext h'
  by_cases hh : h' = h <;> simp [mapT, hh]

theorem TStep.add_mapT {key : Option K} {w now : Nat} {o : TOut K Nat}
    (h : TStep sp n kl T (.add key w now) T' o) :
    TStep sp n kl (mapT T) (.add key (IIdx.toRef w) now) (mapT T') (ISys.outRef o) := by
  cases kl with
  | true =>
    simp only [TStep] at h ⊢
    obtain ⟨rfl, rfl⟩ := h
    exact ⟨rfl, rfl⟩
  | false =>
    cases key with
    | none =>
      simp only [TStep] at h ⊢
      obtain ⟨rfl, rfl⟩ := h
      exact ⟨rfl, rfl⟩
    | some k =>
      simp only [TStep, hasSame_mapT, live_mapT] at h ⊢
      rcases h with ⟨h1, rfl, rfl⟩ | ⟨h1, h2, rfl, rfl⟩ | ⟨h1, h2, hd, rfl, h3, h4, h5, rfl⟩
      · exact .inl ⟨h1, rfl, rfl⟩
      · exact .inr (.inl ⟨h1, h2, rfl, rfl⟩)
      · refine .inr (.inr ⟨h1, h2, hd, rfl, h3, (mapT_none _).2 h4, ?_, ?_⟩)
        · intro h' hs; rw [mapT_isSome] at hs; exact h5 h' hs
        · rw [mapT_set]; rfl

theorem TStep.delete_mapT {hd : Nat} {o : TOut K Nat} (h : TStep sp n kl T (.delete hd) T' o) :
    TStep sp n kl (mapT T) (.delete hd) (mapT T') (ISys.outRef o) := by
  simp only [TStep, mapT_isSome, mapT_none] at h ⊢
  rcases h with ⟨h1, rfl, rfl⟩ | ⟨h1, rfl, rfl⟩
  · exact .inl ⟨h1, rfl, by rw [mapT_set]; rfl⟩
  · exact .inr ⟨h1, rfl, rfl⟩

theorem TStep.modify_mapT {hd w : Nat} {o : TOut K Nat} (h : TStep sp n kl T (.modify hd w) T' o) :
    TStep sp n kl (mapT T) (.modify hd (IIdx.toRef w)) (mapT T') (ISys.outRef o) := by
  simp only [TStep, mapT_none] at h ⊢
  rcases h with ⟨k, v, h1, rfl, rfl⟩ | ⟨h1, rfl, rfl⟩
  · exact .inl ⟨k, IIdx.toRef v, mapT_some.2 ⟨v, h1, rfl⟩, rfl, by rw [mapT_set]; rfl⟩
  · exact .inr ⟨h1, rfl, rfl⟩

theorem TStep.get_mapT {hd : Nat} {o : TOut K Nat} (h : TStep sp n kl T (.get hd) T' o) :
    TStep sp n kl (mapT T) (.get hd) (mapT T') (ISys.outRef o) := by
  simp only [TStep, mapT_none] at h ⊢
  obtain ⟨rfl, ⟨k, v, h1, rfl⟩ | ⟨h1, rfl⟩⟩ := h
  · exact ⟨rfl, .inl ⟨k, IIdx.toRef v, mapT_some.2 ⟨v, h1, rfl⟩, rfl⟩⟩
  · exact ⟨rfl, .inr ⟨h1, rfl⟩⟩

theorem TStep.lookup_mapT {q : List UInt8} {nb ts : Nat} {o : TOut K Nat}
    (h : TStep sp n kl T (.lookup q nb ts) T' o) :
    TStep sp n kl (mapT T) (.lookup q nb ts) (mapT T') (ISys.outRef o) := by
  simp only [TStep] at h ⊢
  obtain ⟨rfl, ⟨rfl, h1⟩ | ⟨hd, k, v, rfl, h2, h3, h4⟩⟩ := h
  · refine ⟨rfl, .inl ⟨rfl, ?_⟩⟩
    intro h k r e
    obtain ⟨w, e', _⟩ := mapT_some.1 e
    exact h1 h k w e'
  · refine ⟨rfl, .inr ⟨hd, k, IIdx.toRef v, rfl, mapT_some.2 ⟨v, h2, rfl⟩, h3, ?_⟩⟩
    intro h' k' r' e
    obtain ⟨w, e', _⟩ := mapT_some.1 e
    exact h4 h' k' w e'

end
end Bm
