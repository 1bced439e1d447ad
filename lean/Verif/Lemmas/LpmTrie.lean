import Verif.Model.LpmTrie
import Verif.Spec.Lpm
import Verif.Lemmas.Bits
import Mathlib.Tactic.IntervalCases

/-! Invariants and refinement lemmas for the LPM trie model. -/

namespace Bm
open Spec

/-- Strict total order given by a boolean comparison. -/
structure StrictOrd {κ : Type} (lt : κ → κ → Bool) : Prop where
  irrefl : ∀ a, lt a a = false
  trans : ∀ a b c, lt a b = true → lt b c = true → lt a c = true
  total : ∀ a b, lt a b = false → a ≠ b → lt b a = true

section Sv
variable {κ β : Type} {lt : κ → κ → Bool}

/-- Sorted association list. -/
def SvSorted (lt : κ → κ → Bool) (l : List (κ × β)) : Prop :=
  l.Pairwise (fun a b => lt a.1 b.1 = true)

theorem StrictOrd.asymm (o : StrictOrd lt) {a b : κ} (h : lt a b = true) : lt b a = false := by
  cases hb : lt b a
  · rfl
  · have := o.trans a b a h hb
    rw [o.irrefl] at this; cases this

variable [DecidableEq κ]

theorem svFind_none_of_lt (o : StrictOrd lt) (k : κ) (l : List (κ × β))
    (h : ∀ x ∈ l, lt k x.1 = true) : svFind lt k l = none := by
  cases l with
  | nil => rfl
  | cons x r =>
    obtain ⟨c, v⟩ := x
    have hx := h (c, v) (by simp)
    have h1 := o.asymm hx
    have h2 : c ≠ k := by rintro rfl; simp [o.irrefl] at hx
    simp [svFind, h1, h2]

theorem svFind_insert (o : StrictOrd lt) (k k' : κ) (v : β) (l : List (κ × β))
    (hs : SvSorted lt l) :
    svFind lt k' (svInsert lt k v l) = if k' = k then some v else svFind lt k' l := by
  induction l with
  | nil =>
    simp only [svInsert, svFind]
    by_cases h : k' = k
    · subst h; simp [o.irrefl]
    · have : ¬ k = k' := fun e => h e.symm
      simp [h, this]
  | cons x r ih =>
    obtain ⟨c, w⟩ := x
    have hs' := hs
    rw [SvSorted, List.pairwise_cons] at hs
    simp only [svInsert]
    by_cases h1 : lt c k = true
    · simp only [h1, if_true, svFind]
      rw [ih hs.2]
      by_cases hk : k' = k
      · subst hk; simp [h1]
      · simp [hk]
    · simp only [Bool.not_eq_true] at h1
      by_cases h2 : c = k
      · subst h2
        simp only [o.irrefl, Bool.false_eq_true, if_false, if_true, svFind]
        by_cases hk : k' = c
        · subst hk; simp [o.irrefl]
        · have : ¬ c = k' := fun e => hk e.symm
          simp [hk, this]
      · simp only [h1, h2, Bool.false_eq_true, if_false, svFind]
        have hkc := o.total c k h1 h2
        by_cases hk : k' = k
        · subst hk; simp [o.irrefl]
        · have hk2 : ¬ k = k' := fun e => hk e.symm
          simp only [hk, if_false, hk2]
          by_cases h3 : lt k k' = true
          · simp [h3]
          · have h4 : lt c k' = false := by
              cases hc : lt c k'
              · rfl
              · exact absurd (o.trans _ _ _ hkc hc) h3
            have h5 : c ≠ k' := by rintro rfl; exact h3 hkc
            simp [h3, h4, h5]

theorem svInsert_mem {k : κ} {v : β} {l : List (κ × β)} {x : κ × β}
    (h : x ∈ svInsert lt k v l) : x = (k, v) ∨ x ∈ l := by
  induction l with
  | nil => simpa [svInsert] using h
  | cons y r ih =>
    obtain ⟨c, w⟩ := y
    simp only [svInsert] at h
    split at h
    · rcases List.mem_cons.1 h with h | h
      · right; simp [h]
      · rcases ih h with h | h
        · exact Or.inl h
        · right; simp [h]
    · split at h
      · rcases List.mem_cons.1 h with h | h
        · exact Or.inl h
        · right; simp [h]
      · rcases List.mem_cons.1 h with h | h
        · exact Or.inl h
        · exact Or.inr h

theorem svInsert_ne_nil (k : κ) (v : β) (l : List (κ × β)) : svInsert lt k v l ≠ [] := by
  cases l with
  | nil => simp [svInsert]
  | cons y r =>
    obtain ⟨c, w⟩ := y
    simp only [svInsert]
    split
    · simp
    · split <;> simp

theorem svInsert_sorted (o : StrictOrd lt) (k : κ) (v : β) (l : List (κ × β))
    (hs : SvSorted lt l) : SvSorted lt (svInsert lt k v l) := by
  induction l with
  | nil => simp [svInsert, SvSorted]
  | cons x r ih =>
    obtain ⟨c, w⟩ := x
    rw [SvSorted, List.pairwise_cons] at hs
    simp only [svInsert]
    by_cases h1 : lt c k = true
    · simp only [h1, if_true]
      rw [SvSorted, List.pairwise_cons]
      refine ⟨?_, ih hs.2⟩
      intro y hy
      rcases svInsert_mem hy with rfl | hy
      · exact h1
      · exact hs.1 y hy
    · simp only [Bool.not_eq_true] at h1
      by_cases h2 : c = k
      · subst h2
        simp only [o.irrefl, Bool.false_eq_true, if_false, if_true]
        rw [SvSorted, List.pairwise_cons]
        exact ⟨hs.1, hs.2⟩
      · simp only [h1, h2, if_false]
        have hkc := o.total c k h1 h2
        rw [if_neg (by simp), SvSorted, List.pairwise_cons, List.pairwise_cons]
        refine ⟨?_, hs.1, hs.2⟩
        intro y hy
        rcases List.mem_cons.1 hy with rfl | hy
        · exact hkc
        · exact o.trans _ _ _ hkc (hs.1 y hy)

theorem svErase_mem {k : κ} {l : List (κ × β)} {x : κ × β}
    (h : x ∈ svErase lt k l) : x ∈ l := by
  induction l with
  | nil => simp [svErase] at h
  | cons y r ih =>
    obtain ⟨c, w⟩ := y
    simp only [svErase] at h
    split at h
    · rcases List.mem_cons.1 h with h | h
      · simp [h]
      · simp [ih h]
    · split at h
      · simp [h]
      · exact h

theorem svErase_sorted (k : κ) (l : List (κ × β))
    (hs : SvSorted lt l) : SvSorted lt (svErase lt k l) := by
  induction l with
  | nil => simp [svErase, SvSorted]
  | cons x r ih =>
    obtain ⟨c, w⟩ := x
    rw [SvSorted, List.pairwise_cons] at hs
    simp only [svErase]
    split
    · rw [SvSorted, List.pairwise_cons]
      exact ⟨fun y hy => hs.1 y (svErase_mem hy), ih hs.2⟩
    · split
      · exact hs.2
      · rw [SvSorted, List.pairwise_cons]; exact hs

theorem svFind_erase (o : StrictOrd lt) (k k' : κ) (l : List (κ × β))
    (hs : SvSorted lt l) :
    svFind lt k' (svErase lt k l) = if k' = k then none else svFind lt k' l := by
  induction l with
  | nil => simp [svErase, svFind]
  | cons x r ih =>
    obtain ⟨c, w⟩ := x
    rw [SvSorted, List.pairwise_cons] at hs
    simp only [svErase]
    by_cases h1 : lt c k = true
    · simp only [h1, if_true, svFind]
      rw [ih hs.2]
      by_cases hk : k' = k
      · subst hk; simp [h1]
      · simp [hk]
    · simp only [Bool.not_eq_true] at h1
      by_cases h2 : c = k
      · subst h2
        simp only [o.irrefl, Bool.false_eq_true, if_false, if_true, svFind]
        by_cases hk : k' = c
        · subst hk
          simpa using svFind_none_of_lt o _ r hs.1
        · have hk2 : ¬ c = k' := fun e => hk e.symm
          simp only [hk, hk2, if_false]
          by_cases h3 : lt c k' = true
          · simp [h3]
          · have h4 := o.total c k' (by simpa using h3) hk2
            simp only [h3]
            simpa using svFind_none_of_lt o _ r (fun y hy => o.trans _ _ _ h4 (hs.1 y hy))
      · simp only [h1, h2, if_false]
        by_cases hk : k' = k
        · subst hk; simp [svFind, h1, h2]
        · simp [hk]

theorem svFind_mem {k : κ} {v : β} {l : List (κ × β)} (h : svFind lt k l = some v) :
    (k, v) ∈ l := by
  induction l with
  | nil => simp [svFind] at h
  | cons y r ih =>
    obtain ⟨c, w⟩ := y
    simp only [svFind] at h
    split at h
    · simp [ih h]
    · split at h
      · rename_i hc; simp at h; simp [hc, h]
      · cases h

end Sv

theorem byteLt_ord : StrictOrd byteLt where
  irrefl a := by simp [byteLt]
  trans a b c h1 h2 := by
    simp only [byteLt, decide_eq_true_eq, UInt8.lt_iff_toNat_lt] at *; omega
  total a b h1 h2 := by
    simp only [byteLt, decide_eq_true_eq, decide_eq_false_iff_not, UInt8.lt_iff_toNat_lt] at *
    have : a.toNat ≠ b.toNat := fun e => h2 (UInt8.toNat_inj.1 e)
    omega

theorem prefixLt_ord : StrictOrd prefixLt where
  irrefl a := by simp [prefixLt]
  trans a b c h1 h2 := by
    simp only [prefixLt, UInt8.lt_iff_toNat_lt] at *
    split at h1 <;> split at h2 <;> split <;> simp only [decide_eq_true_eq] at * <;> omega
  total a b h1 h2 := by
    simp only [prefixLt, UInt8.lt_iff_toNat_lt] at *
    by_cases h : a.1 = b.1
    · have h3 : a.2.toNat ≠ b.2.toNat := fun e => h2 (Prod.ext h (UInt8.toNat_inj.1 e))
      rw [if_pos h] at h1
      rw [if_pos h.symm]
      simp only [decide_eq_true_eq, decide_eq_false_iff_not] at *; omega
    · rw [if_neg h] at h1
      rw [if_neg (fun e => h e.symm)]
      simp only [decide_eq_true_eq, decide_eq_false_iff_not] at *; omega

namespace TNode
variable {α : Type}

/-- Well-formed node with `d` key bytes remaining: sorted vectors, no branches below the key
width, no stored remainder at full depth except the empty one, and no empty child. -/
def WF : Nat → TNode α → Prop
  | 0, n => n.branches = [] ∧ SvSorted prefixLt n.prefixes ∧ (∀ x ∈ n.prefixes, x.1 = (0, 0))
  | d + 1, n => SvSorted byteLt n.branches ∧ SvSorted prefixLt n.prefixes ∧
      ∀ x ∈ n.branches, WF d x.2 ∧ x.2.isEmpty = false

theorem WF.empty (d : Nat) : WF d (empty : TNode α) := by
  cases d <;> simp [WF, TNode.empty, branches, prefixes, SvSorted]

theorem WF.sorted {d} {n : TNode α} (h : WF d n) : SvSorted prefixLt n.prefixes := by
  cases d
  · exact h.2.1
  · exact h.2.1

theorem WF.bsorted {d} {n : TNode α} (h : WF d n) : SvSorted byteLt n.branches := by
  cases d
  · rw [h.1]; simp [SvSorted]
  · exact h.1

theorem WF.next {d} {n c : TNode α} {b} (h : WF (d + 1) n) (hn : n.getNext b = some c) :
    WF d c ∧ c.isEmpty = false := h.2.2 (b, c) (svFind_mem hn)

/-- Meaning of a node: the values stored below it, by bit string. -/
def sem (bits : List Bool) (n : TNode α) : Option α :=
  if 8 ≤ bits.length then
    match n.getNext (UInt8.ofNat (bitsNat (bits.take 8))) with
    | none => none
    | some c => sem (bits.drop 8) c
  else n.getPrefix bits.length (UInt8.ofNat (bitsNat bits))
termination_by bits.length
decreasing_by simp; omega

theorem sem_short (bits : List Bool) (n : TNode α) (h : bits.length < 8) :
    sem bits n = n.getPrefix bits.length (UInt8.ofNat (bitsNat bits)) := by
  rw [sem, if_neg (by omega)]

theorem sem_byte (b : UInt8) (bits : List Bool) (n : TNode α) :
    sem (byteBits b ++ bits) n = (n.getNext b).bind (sem bits) := by
  rw [sem, if_pos (by simp)]
  have h1 : (byteBits b ++ bits).take 8 = byteBits b := by
    rw [List.take_append_of_le_length (by simp), List.take_of_length_le (by simp)]
  have h2 : (byteBits b ++ bits).drop 8 = bits := by
    rw [List.drop_append_of_le_length (by simp)]; simp
  rw [h1, h2]
  simp only [bitsNat_byteBits, UInt8.ofNat_toNat]
  cases n.getNext b <;> rfl

/-- A long bit string starts with a byte. -/
theorem bits_split (bits : List Bool) (h : 8 ≤ bits.length) :
    ∃ b rest, bits = byteBits b ++ rest := by
  refine ⟨UInt8.ofNat (bitsNat (bits.take 8)), bits.drop 8, ?_⟩
  rw [byteBits_ofNat_bitsNat _ (by simp; omega)]
  simp

theorem sem_empty (bits : List Bool) : sem bits (empty : TNode α) = none := by
  rw [sem]
  split
  · simp [getNext, empty, branches, svFind]
  · simp [getPrefix, empty, prefixes, svFind]

theorem prefixBits_cons (b : UInt8) (p : List UInt8) (len : Nat) (h : 8 ≤ len) :
    prefixBits (b :: p) len = byteBits b ++ prefixBits p (len - 8) := by
  unfold prefixBits
  rw [bytesBits_cons, List.take_append, byteBits_length, List.take_of_length_le (by simpa using h)]

/-- The bit string of a short prefix: its length and the number it denotes. -/
theorem prefixBits_short (p : List UInt8) (len : Nat) (h : len < 8) (hp : len ≤ 8 * p.length) :
    (prefixBits p len).length = len ∧
      UInt8.ofNat (bitsNat (prefixBits p len)) = lastKey p len := by
  cases p with
  | nil =>
    have : len = 0 := by simpa using hp
    subst this
    simp [prefixBits, lastKey, bitsNat]
  | cons b p =>
    constructor
    · simp [prefixBits]; simp at hp; omega
    · unfold prefixBits lastKey
      rw [bytesBits_cons, List.take_append_of_le_length (by simp; omega), byteBits,
        take_natBits _ _ _ (by omega), bitsNat_natBits]
      simp only
      rw [Nat.shiftRight_eq_div_pow]
      congr 1
      apply Nat.mod_eq_of_lt
      have := b.toNat_lt
      rw [Nat.div_lt_iff_lt_mul (Nat.two_pow_pos _), ← Nat.pow_add]
      have e : len + (8 - len) = 8 := by omega
      rw [e]; exact this

/-- Short bit strings are determined by length and number. -/
theorem ofNat_bitsNat_inj {a b : List Bool} (ha : a.length < 8) (hl : a.length = b.length)
    (h : UInt8.ofNat (bitsNat a) = UInt8.ofNat (bitsNat b)) : a = b := by
  apply bitsNat_inj hl
  have h1 := bitsNat_lt a
  have h2 := bitsNat_lt b
  rw [← hl] at h2
  have h3 : 2 ^ a.length ≤ 2 ^ 8 := Nat.pow_le_pow_right (by omega) (by omega)
  have := congrArg UInt8.toNat h
  have hs : UInt8.size = 2 ^ 8 := rfl
  rwa [UInt8.toNat_ofNat_of_lt' (by omega), UInt8.toNat_ofNat_of_lt' (by omega)] at this

theorem retrieve_sem (p : List UInt8) (len : Nat) (n : TNode α) (hp : len ≤ 8 * p.length) :
    n.retrieve p len = some (sem (prefixBits p len) n) := by
  induction p generalizing len n with
  | nil =>
    have : len = 0 := by simpa using hp
    subst this
    rw [retrieve, if_neg (by omega), sem_short _ _ (by simp [prefixBits])]
    simp [prefixBits, lastKey, bitsNat]
  | cons b p ih =>
    by_cases h8 : 8 ≤ len
    · rw [retrieve.eq_def, if_pos h8, prefixBits_cons _ _ _ h8, sem_byte]
      simp only
      cases hn : n.getNext b with
      | none => rfl
      | some c => simpa using ih (len - 8) c (by simp at hp; omega)
    · obtain ⟨h1, h2⟩ := prefixBits_short (b :: p) len (by omega) hp
      rw [retrieve.eq_def, if_neg h8, sem_short _ _ (by omega), h1, h2]

theorem getPrefix_mk (br : List (UInt8 × TNode α)) (pr) (len k) :
    (mk br pr).getPrefix len k = svFind prefixLt (len, k) pr := rfl

theorem getNext_mk (br : List (UInt8 × TNode α)) (pr) (b) :
    (mk br pr).getNext b = svFind byteLt b br := rfl

/-- Setting the child of byte `b` in a node. -/
theorem sem_setChild {n : TNode α} (hs : SvSorted byteLt n.branches) (b : UInt8) (c' : TNode α)
    (bits : List Bool) :
    sem bits (mk (svInsert byteLt b c' n.branches) n.prefixes) =
      if h : byteBits b <+: bits then sem (bits.drop 8) c' else sem bits n := by
  by_cases h8 : 8 ≤ bits.length
  · obtain ⟨a, rest, rfl⟩ := bits_split bits h8
    rw [sem_byte, sem_byte, getNext_mk, svFind_insert byteLt_ord _ _ _ _ hs]
    by_cases hab : a = b
    · subst hab
      have h2 : (byteBits a ++ rest).drop 8 = rest := by
        rw [List.drop_append_of_le_length (by simp)]; simp
      simp [h2]
    · have : ¬ byteBits b <+: byteBits a ++ rest := by
        rintro ⟨t, ht⟩
        have := List.append_inj ht (by simp)
        exact hab (byteBits_inj this.1.symm)
      simp [hab, this, getNext]
  · have : ¬ byteBits b <+: bits := by
      rintro ⟨t, rfl⟩; simp at h8
    simp only [this, dite_false]
    rw [sem_short _ _ (by omega), sem_short _ _ (by omega)]
    rfl

theorem isEmpty_eq_false {n : TNode α} : n.isEmpty = false ↔ n.prefixes ≠ [] ∨ n.branches ≠ [] := by
  simp only [isEmpty, Bool.and_eq_false_iff, List.isEmpty_eq_false_iff]

/-- `insert_prefix` succeeds, keeps the invariant, and changes exactly one bit string. -/
theorem insert_spec (p : List UInt8) (len : Nat) (v : α) (n : TNode α) (hp : len ≤ 8 * p.length)
    (hw : WF p.length n) :
    ∃ n', n.insert p len v = some n' ∧ WF p.length n' ∧ n'.isEmpty = false ∧
      ∀ bits, sem bits n' = if bits = prefixBits p len then some v else sem bits n := by
  induction p generalizing len n with
  | nil =>
    have : len = 0 := by simpa using hp
    subst this
    refine ⟨mk n.branches (svInsert prefixLt (0, 0) v n.prefixes), ?_, ?_, ?_, ?_⟩
    · rw [insert.eq_def, if_neg (by omega)]; rfl
    · refine ⟨hw.1, svInsert_sorted prefixLt_ord _ _ _ hw.2.1, ?_⟩
      intro x hx
      rcases svInsert_mem hx with rfl | hx
      · rfl
      · exact hw.2.2 x hx
    · rw [isEmpty_eq_false]; left; exact svInsert_ne_nil _ _ _
    · intro bits
      by_cases h8 : 8 ≤ bits.length
      · obtain ⟨a, rest, rfl⟩ := bits_split bits h8
        have : byteBits a ++ rest ≠ prefixBits [] 0 := by
          intro e
          have := congrArg List.length e
          simp [prefixBits] at this
        rw [if_neg this, sem_byte, sem_byte]
        rfl
      · rw [sem_short _ _ (by omega), sem_short _ _ (by omega), getPrefix_mk,
          svFind_insert prefixLt_ord _ _ _ _ hw.2.1]
        by_cases e : bits = []
        · subst e; simp [prefixBits, bitsNat]
        · have h1 : bits.length ≠ 0 := by simpa using e
          simp [prefixBits, e, getPrefix]
  | cons b p ih =>
    by_cases h8 : 8 ≤ len
    · have hlen : len - 8 ≤ 8 * p.length := by simp at hp; omega
      have key : ∀ c : TNode α, WF p.length c →
          (∀ bits, sem bits c = (n.getNext b).bind (sem bits)) →
          ∃ c', c.insert p (len - 8) v = some c' ∧
            WF (p.length + 1) (mk (svInsert byteLt b c' n.branches) n.prefixes) ∧
            (∀ bits, sem bits (mk (svInsert byteLt b c' n.branches) n.prefixes) =
              if bits = prefixBits (b :: p) len then some v else sem bits n) := by
        intro c hc hsem
        obtain ⟨c', e, w', ne, s'⟩ := ih (len - 8) c hlen hc
        refine ⟨c', e, ⟨svInsert_sorted byteLt_ord _ _ _ hw.1, hw.2.1, ?_⟩, ?_⟩
        · intro x hx
          rcases svInsert_mem hx with rfl | hx
          · exact ⟨w', ne⟩
          · exact hw.2.2 x hx
        · intro bits
          rw [sem_setChild hw.bsorted, prefixBits_cons _ _ _ h8]
          split
          · rename_i hpre
            obtain ⟨t, rfl⟩ := hpre
            have h2 : (byteBits b ++ t).drop 8 = t := by
              rw [List.drop_append_of_le_length (by simp)]; simp
            rw [h2, s', hsem, sem_byte]
            simp
          · rename_i hpre
            rw [if_neg]
            rintro rfl
            exact hpre ⟨_, rfl⟩
      have fin : ∀ c' : TNode α, (mk (svInsert byteLt b c' n.branches) n.prefixes).isEmpty = false := by
        intro c'
        rw [isEmpty_eq_false]; right; exact svInsert_ne_nil _ _ _
      rw [insert.eq_def, if_pos h8]
      simp only
      cases hn : n.getNext b with
      | some c =>
        obtain ⟨c', e, w', s'⟩ := key c (WF.next hw hn).1 (by simp [hn])
        exact ⟨_, by simp [e], w', fin c', s'⟩
      | none =>
        obtain ⟨c', e, w', s'⟩ := key empty (WF.empty _) (by simp [hn, sem_empty])
        exact ⟨_, by simp [e], w', fin c', s'⟩
    · obtain ⟨h1, h2⟩ := prefixBits_short (b :: p) len (by omega) hp
      rw [insert.eq_def, if_neg h8]
      refine ⟨_, rfl, ⟨hw.1, svInsert_sorted prefixLt_ord _ _ _ hw.2.1, hw.2.2⟩, ?_, ?_⟩
      · rw [isEmpty_eq_false]; left; exact svInsert_ne_nil _ _ _
      · intro bits
        by_cases hb8 : 8 ≤ bits.length
        · obtain ⟨a, rest, rfl⟩ := bits_split bits hb8
          have : byteBits a ++ rest ≠ prefixBits (b :: p) len := by
            intro e
            have := congrArg List.length e
            rw [h1] at this; simp at this; omega
          rw [if_neg this, sem_byte, sem_byte]
          rfl
        · rw [sem_short _ _ (by omega), sem_short _ _ (by omega), getPrefix_mk,
            svFind_insert prefixLt_ord _ _ _ _ hw.2.1]
          by_cases e : bits = prefixBits (b :: p) len
          · rw [if_pos e, if_pos (by rw [e, h1, h2])]
          · rw [if_neg e, if_neg]
            · rfl
            · intro e2
              simp only [Prod.mk.injEq] at e2
              apply e
              exact ofNat_bitsNat_inj (by omega) (by omega) (by rw [e2.2, h2])

/-- A well-formed node is empty exactly when it denotes the empty map. -/
theorem sem_of_isEmpty {n : TNode α} (h : n.isEmpty = true) (bits : List Bool) :
    sem bits n = none := by
  obtain ⟨br, pr⟩ := n
  simp only [isEmpty, prefixes, branches, Bool.and_eq_true, List.isEmpty_iff] at h
  obtain ⟨rfl, rfl⟩ := h
  exact sem_empty bits

/-- What `delete_prefix` must return. -/
def DeleteOk (p : List UInt8) (len : Nat) (n : TNode α) (r : Option (TNode α)) : Prop :=
  match r with
  | none => sem (prefixBits p len) n = none
  | some n' => (sem (prefixBits p len) n).isSome = true ∧ WF p.length n' ∧
      ∀ bits, sem bits n' = if bits = prefixBits p len then none else sem bits n

theorem delete_short (p : List UInt8) (len : Nat) (n : TNode α) (hp : len ≤ 8 * p.length)
    (hw : WF p.length n) (h8 : len < 8) :
    ∃ r, n.delete p len = some r ∧ DeleteOk p len n r := by
  unfold DeleteOk
  obtain ⟨h1, h2⟩ := prefixBits_short p len h8 hp
  rw [delete.eq_def, if_neg (by omega)]
  have hs : sem (prefixBits p len) n = n.getPrefix len (lastKey p len) := by
    rw [sem_short _ _ (by omega), h1, h2]
  cases hg : n.getPrefix len (lastKey p len) with
  | none => exact ⟨none, rfl, by simpa [hs] using hg⟩
  | some v =>
    refine ⟨_, rfl, by rw [hs, hg]; rfl, ?_, ?_⟩
    · cases p with
      | nil =>
        refine ⟨hw.1, svErase_sorted _ _ hw.2.1, ?_⟩
        intro x hx
        exact hw.2.2 x (svErase_mem hx)
      | cons b p => exact ⟨hw.1, svErase_sorted _ _ hw.2.1, hw.2.2⟩
    · intro bits
      by_cases hb8 : 8 ≤ bits.length
      · obtain ⟨a, rest, rfl⟩ := bits_split bits hb8
        have : byteBits a ++ rest ≠ prefixBits p len := by
          intro e
          have := congrArg List.length e
          rw [h1] at this; simp at this; omega
        rw [if_neg this, sem_byte, sem_byte]
        rfl
      · rw [sem_short _ _ (by omega), sem_short _ _ (by omega), getPrefix_mk,
          svFind_erase prefixLt_ord _ _ _ hw.sorted]
        by_cases e : bits = prefixBits p len
        · rw [if_pos e, if_pos (by rw [e, h1, h2])]
        · rw [if_neg e, if_neg]
          · rfl
          · intro e2
            simp only [Prod.mk.injEq] at e2
            apply e
            exact ofNat_bitsNat_inj (by omega) (by omega) (by rw [e2.2, h2])

theorem delete_spec (p : List UInt8) (len : Nat) (n : TNode α) (hp : len ≤ 8 * p.length)
    (hw : WF p.length n) :
    ∃ r, n.delete p len = some r ∧ DeleteOk p len n r := by
  induction p generalizing len n with
  | nil => exact delete_short [] len n hp hw (by simp at hp; omega)
  | cons b p ih =>
    by_cases h8 : 8 ≤ len
    · have hlen : len - 8 ≤ 8 * p.length := by simp at hp; omega
      rw [delete.eq_def, if_pos h8]
      simp only [DeleteOk]
      rw [prefixBits_cons _ _ _ h8]
      cases hn : n.getNext b with
      | none => exact ⟨none, rfl, by simp [sem_byte, hn]⟩
      | some c =>
        obtain ⟨wc, _⟩ := WF.next hw hn
        obtain ⟨r, e, hr⟩ := ih (len - 8) c hlen wc
        cases r with
        | none => exact ⟨none, by simp [e], by simpa [sem_byte, hn, DeleteOk] using hr⟩
        | some c' =>
          obtain ⟨hsome, w', s'⟩ := hr
          have hfind : ∀ t, sem (byteBits b ++ t) n = sem t c := by
            intro t; simp [sem_byte, hn]
          by_cases hem : c'.isEmpty = true
          · refine ⟨some (mk (svErase byteLt b n.branches) n.prefixes), by simp [e, hem],
              by rw [hfind]; exact hsome, ⟨svErase_sorted _ _ hw.1, hw.2.1, ?_⟩, ?_⟩
            · intro x hx
              exact hw.2.2 x (svErase_mem hx)
            · intro bits
              by_cases hb8 : 8 ≤ bits.length
              · obtain ⟨a, rest, rfl⟩ := bits_split bits hb8
                rw [sem_byte, getNext_mk, svFind_erase byteLt_ord _ _ _ hw.bsorted]
                by_cases hab : a = b
                · subst hab
                  rw [hfind]
                  have := s' rest
                  rw [sem_of_isEmpty hem] at this
                  simp only [if_true, Option.bind_none, List.append_cancel_left_eq]
                  exact this
                · have : byteBits a ++ rest ≠ byteBits b ++ prefixBits p (len - 8) := by
                    intro e
                    exact hab (byteBits_inj (List.append_inj e (by simp)).1)
                  rw [if_neg this, if_neg hab, sem_byte]; rfl
              · have : bits ≠ byteBits b ++ prefixBits p (len - 8) := by
                  rintro rfl; simp at hb8
                rw [if_neg this, sem_short _ _ (by omega), sem_short _ _ (by omega)]
                rfl
          · refine ⟨some (mk (svInsert byteLt b c' n.branches) n.prefixes), by simp [e, hem],
              by rw [hfind]; exact hsome, ⟨svInsert_sorted byteLt_ord _ _ _ hw.1, hw.2.1, ?_⟩, ?_⟩
            · intro x hx
              rcases svInsert_mem hx with rfl | hx
              · exact ⟨w', by simpa using hem⟩
              · exact hw.2.2 x hx
            · intro bits
              rw [sem_setChild hw.bsorted]
              split
              · rename_i hpre
                obtain ⟨t, rfl⟩ := hpre
                have h2 : (byteBits b ++ t).drop 8 = t := by
                  rw [List.drop_append_of_le_length (by simp)]; simp
                rw [h2, s', hfind]
                simp
              · rename_i hpre
                rw [if_neg]
                rintro rfl
                exact hpre ⟨_, rfl⟩
    · exact delete_short (b :: p) len n hp hw (by omega)

/-- Short prefixes of a byte: the key compared by the trie at length `len`. -/
theorem sem_take_byte (b : UInt8) (rest : List Bool) (len : Nat) (h : len < 8) (n : TNode α) :
    sem ((byteBits b ++ rest).take len) n = n.getPrefix len (UInt8.ofNat (b.toNat >>> (8 - len))) := by
  rw [List.take_append_of_le_length (by simp; omega)]
  rw [sem_short _ _ (by simp; omega)]
  rw [byteBits, take_natBits _ _ _ (by omega), bitsNat_natBits, natBits_length,
    Nat.shiftRight_eq_div_pow]
  congr 2
  apply Nat.mod_eq_of_lt
  have := b.toNat_lt
  rw [Nat.div_lt_iff_lt_mul (Nat.two_pow_pos _), ← Nat.pow_add]
  have e : len + (8 - len) = 8 := by omega
  rw [e]; exact this

theorem shift_one (b : UInt8) (m : Nat) (h : m < 8) :
    UInt8.ofNat (b.toNat >>> (8 - (m + 1))) >>> 1 = UInt8.ofNat (b.toNat >>> (8 - m)) := by
  apply UInt8.toNat_inj.1
  have hb := b.toNat_lt
  have h1 : b.toNat >>> (8 - (m + 1)) < UInt8.size :=
    Nat.lt_of_le_of_lt (Nat.shiftRight_le _ _) hb
  have h2 : b.toNat >>> (8 - m) < UInt8.size := Nat.lt_of_le_of_lt (Nat.shiftRight_le _ _) hb
  rw [UInt8.toNat_shiftRight, UInt8.toNat_ofNat_of_lt' h1, UInt8.toNat_ofNat_of_lt' h2]
  have e : 8 - m = 8 - (m + 1) + 1 := by omega
  rw [e, Nat.shiftRight_add]
  rfl

theorem scan_spec (n : TNode α) (b : UInt8) (m : Nat) (hm : m ≤ 8) :
    match scan n m (UInt8.ofNat (b.toNat >>> (8 - m))) with
    | none => ∀ len < m, n.getPrefix len (UInt8.ofNat (b.toNat >>> (8 - len))) = none
    | some v => ∃ len < m, n.getPrefix len (UInt8.ofNat (b.toNat >>> (8 - len))) = some v ∧
        ∀ len', len < len' → len' < m →
          n.getPrefix len' (UInt8.ofNat (b.toNat >>> (8 - len'))) = none := by
  induction m with
  | zero => simp [scan]
  | succ m ih =>
    simp only [scan]
    rw [shift_one b m (by omega)]
    cases hg : n.getPrefix m (UInt8.ofNat (b.toNat >>> (8 - m))) with
    | some v =>
      exact ⟨m, by omega, hg, fun len' h1 h2 => by omega⟩
    | none =>
      have := ih (by omega)
      simp only
      split at this
      · intro len hl
        by_cases e : len = m
        · subst e; exact hg
        · exact this len (by omega)
      · obtain ⟨len, h1, h2, h3⟩ := this
        refine ⟨len, by omega, h2, ?_⟩
        intro len' h4 h5
        by_cases e : len' = m
        · subst e; exact hg
        · exact h3 len' h4 (by omega)

theorem prefix_take {k pre : List Bool} (h : pre <+: k) : pre = k.take pre.length :=
  List.prefix_iff_eq_take.1 h

/-- A node with a value at full depth: the final `get_prefix(0, 0)` finds it. -/
theorem full_depth {n : TNode α} (hw : WF 0 n) (hne : n.isEmpty = false) :
    (n.getPrefix 0 0).isSome = true := by
  obtain ⟨h1, h2, h3⟩ := hw
  rw [isEmpty_eq_false] at hne
  rcases hne with hne | hne
  · cases hp : n.prefixes with
    | nil => exact absurd hp hne
    | cons x r =>
      have := h3 x (by simp [hp])
      obtain ⟨k, v⟩ := x
      simp only at this
      subst this
      simp [getPrefix, hp, svFind, prefixLt]
  · exact absurd h1 hne

theorem lookup_spec (key : List UInt8) (n : TNode α) (found : Option α)
    (hw : WF key.length n) (hf : found = none ∨ n.isEmpty = false) :
    ∃ r, n.lookup key found = r.or found ∧ IsLpm (fun b => sem b n) (bytesBits key) r := by
  induction key generalizing n found with
  | nil =>
    have hs : sem [] n = n.getPrefix 0 0 := by rw [sem_short _ _ (by simp)]; simp [bitsNat]
    refine ⟨n.getPrefix 0 0, ?_, ?_⟩
    · simp only [lookup]
      rcases hf with rfl | hne
      · simp
      · have := full_depth hw hne
        cases hg : n.getPrefix 0 0 with
        | none => simp [hg] at this
        | some v => rfl
    · cases hg : n.getPrefix 0 0 with
      | none =>
        intro pre hp
        have : pre = [] := by simpa using hp
        subst this
        simpa [hs] using hg
      | some v =>
        refine ⟨[], by simp, by simpa [hs] using hg, ?_⟩
        intro pre' hp hl
        have : pre' = [] := by simpa using hp
        simp [this] at hl
  | cons b bs ih =>
    have hscan := scan_spec n b 8 (by omega)
    have hb8 : UInt8.ofNat (b.toNat >>> (8 - 8)) = b := by simp
    rw [hb8] at hscan
    -- the result for the short lengths
    have hshort : ∀ len < 8, sem ((byteBits b ++ bytesBits bs).take len) n =
        n.getPrefix len (UInt8.ofNat (b.toNat >>> (8 - len))) :=
      fun len h => sem_take_byte b _ len h n
    simp only [lookup]
    -- long prefixes start with the byte
    have hlong : ∀ pre, pre <+: bytesBits (b :: bs) → 8 ≤ pre.length →
        ∃ t, pre = byteBits b ++ t ∧ t <+: bytesBits bs := by
      intro pre hpre hl
      rw [bytesBits_cons] at hpre
      obtain ⟨s, hs⟩ := hpre
      refine ⟨pre.drop 8, ?_, ?_⟩
      · have h1 : pre.take 8 = byteBits b := by
          have := congrArg (List.take 8) hs
          rwa [List.take_append_of_le_length hl, List.take_append_of_le_length (by simp),
            List.take_of_length_le (l := byteBits b) (by simp)] at this
        rw [← h1]; simp
      · refine ⟨s, ?_⟩
        have := congrArg (List.drop 8) hs
        rw [List.drop_append_of_le_length hl, List.drop_append_of_le_length (by simp),
          List.drop_of_length_le (l := byteBits b) (by simp)] at this
        simpa using this
    have hshort' : ∀ pre, pre <+: bytesBits (b :: bs) → pre.length < 8 →
        sem pre n = n.getPrefix pre.length (UInt8.ofNat (b.toNat >>> (8 - pre.length))) := by
      intro pre hpre hl
      have := hshort pre.length hl
      rw [← bytesBits_cons, ← prefix_take hpre] at this
      exact this
    have hlongSem : ∀ t, sem (byteBits b ++ t) n = (n.getNext b).bind (sem t) :=
      fun t => sem_byte b t n
    have hlenb : ∀ len, len < 8 → ((byteBits b ++ bytesBits bs).take len).length = len := by
      intro len h; simp; omega
    cases hn : n.getNext b with
    | none =>
      refine ⟨scan n 8 b, rfl, ?_⟩
      have hL : ∀ pre, pre <+: bytesBits (b :: bs) → 8 ≤ pre.length → sem pre n = none := by
        intro pre hp hl
        obtain ⟨t, rfl, _⟩ := hlong pre hp hl
        rw [hlongSem, hn]; rfl
      split at hscan
      · rename_i heq
        rw [heq]
        intro pre hp
        by_cases hl : pre.length < 8
        · simp only; rw [hshort' pre hp hl]; exact hscan _ hl
        · exact hL pre hp (by omega)
      · rename_i v heq
        rw [heq]
        obtain ⟨len, h1, h2, h3⟩ := hscan
        refine ⟨(byteBits b ++ bytesBits bs).take len, List.take_prefix _ _, ?_, ?_⟩
        · simp only; rw [hshort len h1]; exact h2
        · intro pre' hp hl
          rw [hlenb len h1] at hl
          by_cases hl8 : pre'.length < 8
          · simp only; rw [hshort' pre' hp hl8]; exact h3 _ hl hl8
          · exact hL pre' hp (by omega)
    | some c =>
      obtain ⟨wc, nec⟩ := WF.next hw hn
      obtain ⟨r, e, hr⟩ := ih c ((scan n 8 b).or found) wc (Or.inr nec)
      refine ⟨r.or (scan n 8 b), ?_, ?_⟩
      · simp only; rw [e, Option.or_assoc]
      · have hlS : ∀ t, sem (byteBits b ++ t) n = sem t c := by
          intro t; rw [hlongSem, hn]; rfl
        cases r with
        | none =>
          simp only [Option.none_or]
          have hL : ∀ pre, pre <+: bytesBits (b :: bs) → 8 ≤ pre.length → sem pre n = none := by
            intro pre hp hl
            obtain ⟨t, rfl, ht⟩ := hlong pre hp hl
            rw [hlS]; exact hr t ht
          split at hscan
          · rename_i heq
            rw [heq]
            intro pre hp
            by_cases hl : pre.length < 8
            · simp only; rw [hshort' pre hp hl]; exact hscan _ hl
            · exact hL pre hp (by omega)
          · rename_i v heq
            rw [heq]
            obtain ⟨len, h1, h2, h3⟩ := hscan
            refine ⟨(byteBits b ++ bytesBits bs).take len, List.take_prefix _ _, ?_, ?_⟩
            · simp only; rw [hshort len h1]; exact h2
            · intro pre' hp hl
              rw [hlenb len h1] at hl
              by_cases hl8 : pre'.length < 8
              · simp only; rw [hshort' pre' hp hl8]; exact h3 _ hl hl8
              · exact hL pre' hp (by omega)
        | some v =>
          obtain ⟨pre, hp, hv, hmax⟩ := hr
          refine ⟨byteBits b ++ pre, ?_, by simp only; rw [hlS]; exact hv, ?_⟩
          · rw [bytesBits_cons]; exact (List.prefix_append_right_inj _).2 hp
          · intro pre' hp' hl
            simp only [List.length_append, byteBits_length] at hl
            obtain ⟨t, rfl, ht⟩ := hlong pre' hp' (by omega)
            simp only; rw [hlS]
            exact hmax t ht (by simp at hl; omega)

end TNode
end Bm
