import Verif.Model.LookupStructures
import Verif.Spec.Lookup
import Mathlib.Data.List.Nodup
import Mathlib.Data.List.Basic
import Mathlib.Data.List.Perm.Subperm
import Mathlib.Tactic.Linarith

/-! Invariant of the intrusive linked list with cache (`EntryList`). -/

namespace Bm
open Spec

namespace EList
variable {K : Type}

/-- Doubly linked segment: starting with `cur` (whose predecessor is `prev`) through the
indices `L`, ending with last element `p` and successor `c`. -/
def Seg (n : Nat → ENode K) : Option Nat → Option Nat → List Nat → Option Nat → Option Nat → Prop
  | prev, cur, [], p, c => prev = p ∧ cur = c
  | prev, cur, i :: L, p, c => cur = some i ∧ (n i).prev = prev ∧ Seg n (some i) (n i).next L p c

theorem Seg.append {n : Nat → ENode K} {p c A B p' c'} :
    Seg n p c (A ++ B) p' c' ↔ ∃ q d, Seg n p c A q d ∧ Seg n q d B p' c' := by
  induction A generalizing p c with
  | nil =>
    constructor
    · intro h; exact ⟨p, c, ⟨rfl, rfl⟩, h⟩
    · rintro ⟨q, d, ⟨rfl, rfl⟩, h⟩; exact h
  | cons i A ih =>
    simp only [List.cons_append, Seg, ih]
    constructor
    · rintro ⟨h1, h2, q, d, h3, h4⟩; exact ⟨q, d, ⟨h1, h2, h3⟩, h4⟩
    · rintro ⟨q, d, ⟨h1, h2, h3⟩, h4⟩; exact ⟨h1, h2, q, d, h3, h4⟩

theorem Seg.congr {n n' : Nat → ENode K} {p c L p' c'} (h : Seg n p c L p' c')
    (he : ∀ j ∈ L, n' j = n j) : Seg n' p c L p' c' := by
  induction L generalizing p c with
  | nil => exact h
  | cons i L ih =>
    obtain ⟨h1, h2, h3⟩ := h
    have := he i (by simp)
    refine ⟨h1, by rw [this]; exact h2, ?_⟩
    rw [this]
    exact ih h3 (fun j hj => he j (by simp [hj]))

/-- Changing the `next` of the last element. -/
theorem Seg.setNext {n n' : Nat → ENode K} {p c A q p' x y} (h : Seg n p c (A ++ [q]) p' x)
    (he : ∀ j ∈ A, n' j = n j) (hq : n' q = { n q with next := y }) :
    Seg n' p c (A ++ [q]) (some q) y := by
  rw [Seg.append] at h ⊢
  obtain ⟨r, d, h1, h2⟩ := h
  refine ⟨r, d, h1.congr he, ?_⟩
  obtain ⟨a, b, _⟩ := h2
  exact ⟨a, by rw [hq]; exact b, rfl, by rw [hq]⟩

/-- The last element of a nonempty segment. -/
theorem Seg.last {n : Nat → ENode K} {p c A q p' x} (h : Seg n p c (A ++ [q]) p' x) :
    p' = some q ∧ (n q).next = x := by
  rw [Seg.append] at h
  obtain ⟨r, d, _, h2⟩ := h
  obtain ⟨_, _, c1, c2⟩ := h2
  exact ⟨c1.symm, c2⟩

/-- Changing the `prev` of the first element (if any). -/
theorem Seg.setPrev {n n' : Nat → ENode K} {p c B p' d} (h : Seg n p c B p' d) (q : Option Nat)
    (he : ∀ b B', B = b :: B' → n' b = { n b with prev := q } ∧ ∀ j ∈ B', n' j = n j) :
    ∃ p'', Seg n' q c B p'' d := by
  cases B with
  | nil => exact ⟨q, rfl, h.2⟩
  | cons b B' =>
    obtain ⟨h1, h2, h3⟩ := h
    obtain ⟨e1, e2⟩ := he b B' rfl
    refine ⟨p', h1, by rw [e1], ?_⟩
    rw [e1]
    exact h3.congr e2

theorem Seg.cur_eq {n : Nat → ENode K} {p c L p'} (h : Seg n p c L p' none) : c = L.head? := by
  cases L with
  | nil => exact h.2
  | cons i L => exact h.1

/-- Invariant of the linked list: it lists exactly the installed slots in increasing order. -/
structure Linked (prio : K → Int) (l : EList K) (E : Nat → Option K) (L : List Nat) : Prop where
  sorted : L.Pairwise (· < ·)
  mem : ∀ i, i ∈ L ↔ (E i).isSome = true
  lt : ∀ i ∈ L, i < l.size
  seg : ∃ p, Seg l.nodes none l.head L p none
  key : ∀ i k, E i = some k → (l.nodes i).key = some k ∧ (l.nodes i).priority = prio k
  count : l.count = L.length

theorem length_le_of_sorted_lt {L : List Nat} {n : Nat} (hs : L.Pairwise (· < ·))
    (hlt : ∀ i ∈ L, i < n) : L.length ≤ n := by
  have hnd : L.Nodup := hs.imp (fun h => Nat.ne_of_lt h)
  have hsub : L ⊆ List.range n := fun i hi => by simpa using hlt i hi
  have := (hnd.subperm hsub).length_le
  simpa using this

section Loops
variable {prio : K → Int} {l : EList K} {E : Nat → Option K}

theorem lookupLoop_spec {cmp : Bytes → K → Option Bool} {kd : Bytes} {m : K → Prop}
    [DecidablePred m]
    (hcmp : ∀ i k, E i = some k → cmp kd k = some (decide (m k)))
    (hkey : ∀ i k, E i = some k → (l.nodes i).key = some k ∧ (l.nodes i).priority = prio k)
    (f : Nat) (L : List Nat) (p cur p' : Option Nat) (mp : Int) (mh : Option Nat)
    (hs : L.Pairwise (· < ·)) (hmem : ∀ i ∈ L, (E i).isSome = true)
    (hseg : Seg l.nodes p cur L p' none) (hf : L.length ≤ f) :
    ∃ r, l.lookupLoop cmp kd f cur mp mh = some r ∧
      match r with
      | none => mh = none ∧ ∀ i ∈ L, ∀ k, E i = some k → ¬ m k
      | some h =>
        (mh = some h ∧ ∀ i ∈ L, ∀ k, E i = some k → m k → mp ≤ prio k) ∨
        (h ∈ L ∧ ∃ k, E h = some k ∧ m k ∧ (mh.isSome = true → prio k < mp) ∧
          ∀ i ∈ L, ∀ k', E i = some k' → m k' → prio k < prio k' ∨ (prio k = prio k' ∧ h ≤ i)) := by
  induction L generalizing f p cur mp mh with
  | nil =>
    have hc : cur = none := hseg.2
    subst hc
    refine ⟨mh, by cases f <;> rfl, ?_⟩
    cases mh with
    | none => simp
    | some h => left; simp
  | cons i L ih =>
    obtain ⟨rfl, _, hseg'⟩ := hseg
    cases f with
    | zero => simp at hf
    | succ f =>
      have hfl : L.length ≤ f := by simpa using hf
      rw [List.pairwise_cons] at hs
      have hmem' : ∀ j ∈ L, (E j).isSome = true := fun j hj => hmem j (by simp [hj])
      obtain ⟨k, hk⟩ := Option.isSome_iff_exists.1 (hmem i (by simp))
      obtain ⟨hk1, hk2⟩ := hkey i k hk
      simp only [lookupLoop]
      by_cases hskip : (l.nodes i).priority ≥ mp ∧ mh.isSome = true
      · rw [if_pos hskip]
        obtain ⟨r, e, hr⟩ := ih f _ _ mp mh hs.2 hmem' hseg' hfl
        refine ⟨r, e, ?_⟩
        rw [hk2] at hskip
        cases r with
        | none => rw [hr.1] at hskip; simp at hskip
        | some h =>
          simp only at hr ⊢
          rcases hr with ⟨a, b⟩ | ⟨a, k1, b, c, d, e⟩
          · left
            refine ⟨a, ?_⟩
            intro j hj k' hk' hm'
            rcases List.mem_cons.1 hj with rfl | hj
            · rw [hk] at hk'; cases hk'; exact hskip.1
            · exact b j hj k' hk' hm'
          · right
            refine ⟨by simp [a], k1, b, c, d, ?_⟩
            intro j hj k' hk' hm'
            rcases List.mem_cons.1 hj with rfl | hj
            · rw [hk] at hk'; cases hk'
              have := d hskip.2
              left; have := hskip.1; omega
            · exact e j hj k' hk' hm'
      · rw [if_neg hskip, hk1]
        simp only [Option.bind_eq_bind, Option.bind_some, hcmp i k hk]
        by_cases hm : m k
        · simp only [hm, decide_true, if_true]
          obtain ⟨r, e, hr⟩ := ih f _ _ (l.nodes i).priority (some i) hs.2 hmem' hseg' hfl
          refine ⟨r, e, ?_⟩
          rw [hk2] at hr hskip
          have hlt : mh.isSome = true → prio k < mp := by
            intro h
            by_contra hn
            exact hskip ⟨by omega, h⟩
          cases r with
          | none => simp at hr
          | some h =>
            right
            simp only at hr
            rcases hr with ⟨a, b⟩ | ⟨a, k1, b, c, d, e⟩
            · cases a
              refine ⟨by simp, k, hk, hm, hlt, ?_⟩
              intro j hj k' hk' hm'
              rcases List.mem_cons.1 hj with rfl | hj
              · rw [hk] at hk'; cases hk'; right; exact ⟨rfl, le_refl _⟩
              · have h1 := b j hj k' hk' hm'
                have h2 := hs.1 j hj
                omega
            · have hd := d rfl
              refine ⟨by simp [a], k1, b, c, fun h => by have := hlt h; omega, ?_⟩
              intro j hj k' hk' hm'
              rcases List.mem_cons.1 hj with rfl | hj
              · rw [hk] at hk'; cases hk'; left; exact hd
              · exact e j hj k' hk' hm'
        · simp only [hm, decide_false]
          obtain ⟨r, e, hr⟩ := ih f _ _ mp mh hs.2 hmem' hseg' hfl
          refine ⟨r, e, ?_⟩
          cases r with
          | none =>
            refine ⟨hr.1, ?_⟩
            intro j hj k' hk'
            rcases List.mem_cons.1 hj with rfl | hj
            · rw [hk] at hk'; cases hk'; exact hm
            · exact hr.2 j hj k' hk'
          | some h =>
            simp only at hr ⊢
            rcases hr with ⟨a, b⟩ | ⟨a, k1, b, c, d, e⟩
            · left
              refine ⟨a, ?_⟩
              intro j hj k' hk' hm'
              rcases List.mem_cons.1 hj with rfl | hj
              · rw [hk] at hk'; cases hk'; exact absurd hm' hm
              · exact b j hj k' hk' hm'
            · right
              refine ⟨by simp [a], k1, b, c, d, ?_⟩
              intro j hj k' hk' hm'
              rcases List.mem_cons.1 hj with rfl | hj
              · rw [hk] at hk'; cases hk'; exact absurd hm' hm
              · exact e j hj k' hk' hm'

theorem Linked.lookupLoop {L : List Nat} (h : Linked prio l E L)
    {cmp : Bytes → K → Option Bool} {kd : Bytes} {m : K → Prop} [DecidablePred m]
    (hcmp : ∀ i k, E i = some k → cmp kd k = some (decide (m k))) :
    ∃ r, l.lookupLoop cmp kd (l.size + 1) l.head intMax none = some r ∧ IsBest prio m E r := by
  obtain ⟨p, hseg⟩ := h.seg
  have hlen := length_le_of_sorted_lt h.sorted h.lt
  obtain ⟨r, e, hr⟩ := lookupLoop_spec (prio := prio) hcmp h.key (l.size + 1) L none l.head p
    intMax none h.sorted (fun i hi => (h.mem i).1 hi) hseg (by omega)
  refine ⟨r, e, ?_⟩
  cases r with
  | none =>
    intro i k hk
    exact hr.2 i ((h.mem i).2 (by simp [hk])) k hk
  | some j =>
    simp only [reduceCtorEq, false_and, false_or] at hr
    obtain ⟨_, k, a, b, _, c⟩ := hr
    refine ⟨k, a, b, ?_⟩
    intro i k' hk' hm
    exact c i ((h.mem i).2 (by simp [hk'])) k' hk' hm

theorem findLoop_spec {eqk : K → K → Bool} (key : K)
    (hkey : ∀ i k, E i = some k → (l.nodes i).key = some k ∧ (l.nodes i).priority = prio k)
    (f : Nat) (L : List Nat) (p cur p' : Option Nat)
    (hmem : ∀ i ∈ L, (E i).isSome = true)
    (hseg : Seg l.nodes p cur L p' none) (hf : L.length ≤ f) :
    ∃ r, l.findLoop prio eqk key f cur = some r ∧
      match r with
      | none => ∀ i ∈ L, ∀ k, E i = some k → ¬ (prio k = prio key ∧ eqk k key = true)
      | some h => h ∈ L ∧ ∃ k, E h = some k ∧ prio k = prio key ∧ eqk k key = true := by
  induction L generalizing f p cur with
  | nil =>
    have hc : cur = none := hseg.2
    subst hc
    exact ⟨none, by cases f <;> rfl, by simp⟩
  | cons i L ih =>
    obtain ⟨rfl, _, hseg'⟩ := hseg
    cases f with
    | zero => simp at hf
    | succ f =>
      have hfl : L.length ≤ f := by simpa using hf
      have hmem' : ∀ j ∈ L, (E j).isSome = true := fun j hj => hmem j (by simp [hj])
      obtain ⟨k, hk⟩ := Option.isSome_iff_exists.1 (hmem i (by simp))
      obtain ⟨hk1, hk2⟩ := hkey i k hk
      obtain ⟨r, e, hr⟩ := ih f _ _ hmem' hseg' hfl
      have cont : ¬ (prio k = prio key ∧ eqk k key = true) →
          (match (motive := Option Nat → Prop) r with
          | none => ∀ j ∈ i :: L, ∀ k, E j = some k → ¬ (prio k = prio key ∧ eqk k key = true)
          | some h => h ∈ i :: L ∧ ∃ k, E h = some k ∧ prio k = prio key ∧ eqk k key = true) := by
        intro hne
        cases r with
        | none =>
          intro j hj k' hk'
          rcases List.mem_cons.1 hj with rfl | hj
          · rw [hk] at hk'; cases hk'; exact hne
          · exact hr j hj k' hk'
        | some h => exact ⟨by simp [hr.1], hr.2⟩
      simp only [findLoop]
      by_cases h1 : (l.nodes i).priority = prio key
      · rw [if_pos h1, hk1]
        simp only [Option.bind_eq_bind, Option.bind_some]
        by_cases h2 : eqk k key = true
        · rw [if_pos h2]
          exact ⟨some i, rfl, by simp, k, hk, by rw [← hk2]; exact h1, h2⟩
        · rw [if_neg h2]
          exact ⟨r, e, cont (fun h => h2 h.2)⟩
      · rw [if_neg h1]
        exact ⟨r, e, cont (fun h => h1 (by rw [hk2]; exact h.1))⟩

theorem Linked.findEntry {L : List Nat} (h : Linked prio l E L) (eqk : K → K → Bool) (key : K) :
    ∃ r, l.findEntry prio eqk key = some r ∧
      match r with
      | none => ∀ i k, E i = some k → ¬ (prio k = prio key ∧ eqk k key = true)
      | some j => ∃ k, E j = some k ∧ prio k = prio key ∧ eqk k key = true := by
  obtain ⟨p, hseg⟩ := h.seg
  have hlen := length_le_of_sorted_lt h.sorted h.lt
  obtain ⟨r, e, hr⟩ := findLoop_spec (prio := prio) (eqk := eqk) key h.key (l.size + 1) L none
    l.head p (fun i hi => (h.mem i).1 hi) hseg (by omega)
  refine ⟨r, e, ?_⟩
  cases r with
  | none =>
    intro i k hk
    exact hr i ((h.mem i).2 (by simp [hk])) k hk
  | some j => exact hr.2

end Loops

theorem setNode_nodes (l : EList K) (i j : Nat) (n : ENode K) :
    (l.setNode i n).nodes j = if j = i then n else l.nodes j := rfl

/-- Nodes after the `prev` update. -/
theorem setPrevOf_nodes (l : EList K) (nxt q : Option Nat) (j : Nat) :
    (l.setPrevOf nxt q).nodes j =
      if nxt = some j then { l.nodes j with prev := q } else l.nodes j := by
  cases nxt with
  | none => simp [setPrevOf]
  | some i =>
    simp only [setPrevOf, setNode_nodes]
    by_cases h : j = i
    · subst h; simp
    · have : ¬ i = j := fun e => h e.symm
      simp [h, this]

theorem setPrevOf_fields (l : EList K) (nxt q : Option Nat) :
    (l.setPrevOf nxt q).head = l.head ∧ (l.setPrevOf nxt q).size = l.size ∧
    (l.setPrevOf nxt q).count = l.count ∧ (l.setPrevOf nxt q).enableCache = l.enableCache ∧
    (l.setPrevOf nxt q).useCache = l.useCache ∧ (l.setPrevOf nxt q).cache = l.cache := by
  cases nxt <;> simp [setPrevOf, setNode]

/-- Splitting a sorted list at an element. -/
theorem sorted_split {L : List Nat} {i : Nat} (hi : i ∈ L) (hs : L.Pairwise (· < ·)) :
    ∃ A B, L = A ++ i :: B ∧ (∀ a ∈ A, a < i) ∧ (∀ b ∈ B, i < b) ∧
      A.Pairwise (· < ·) ∧ B.Pairwise (· < ·) := by
  obtain ⟨A, B, rfl⟩ := List.append_of_mem hi
  rw [List.pairwise_append, List.pairwise_cons] at hs
  exact ⟨A, B, rfl, fun a ha => hs.2.2 a ha i (by simp), hs.2.1.1, hs.1, hs.2.1.2⟩

/-- `add` keeps the invariant when the slot is the least free one. -/
theorem Linked.add {prio : K → Int} {l : EList K} {E : Nat → Option K} {L : List Nat}
    (h : Linked prio l E L) (key : K) (s : Nat) (hs : s < l.size) (hfree : E s = none)
    (hleast : ∀ j < s, (E j).isSome = true) :
    ∃ l' L', l.add prio key s = some (EList.refreshCache l') ∧
      Linked prio l' (fun i => if i = s then some key else E i) L' ∧
      l'.size = l.size ∧ l'.enableCache = l.enableCache ∧ l'.useCache = l.useCache ∧
      l'.cache = l.cache := by
  obtain ⟨pl, hseg⟩ := h.seg
  have hsL : s ∉ L := by rw [h.mem]; simp [hfree]
  by_cases h0 : s = 0
  · subst h0
    -- insertion at the head
    let la := l.setNode 0 { priority := prio key, key := some key, prev := none, next := l.head }
    let lb : EList K := { la with head := some 0 }
    let lc := lb.setPrevOf l.head (some 0)
    refine ⟨{ lc with count := lc.count + 1 }, 0 :: L, ?_, ?_, ?_⟩
    · simp only [EList.add, hs, if_true, Option.map_some]; rfl
    · have hf := setPrevOf_fields lb l.head (some 0)
      have hn : ∀ j, lc.nodes j = if l.head = some j then { lb.nodes j with prev := some 0 }
          else lb.nodes j := setPrevOf_nodes lb l.head (some 0)
      have hhead : l.head = L.head? := hseg.cur_eq
      have hpos : ∀ i ∈ L, 0 < i := fun i hi => Nat.pos_of_ne_zero (by rintro rfl; exact hsL hi)
      have hlb0 : lb.nodes 0 =
          { priority := prio key, key := some key, prev := none, next := l.head } := by
        simp [lb, la, setNode]
      have hlbj : ∀ j, j ≠ 0 → lb.nodes j = l.nodes j := by
        intro j hj; simp [lb, la, setNode, hj]
      have hh0 : l.head ≠ some 0 := by
        rw [hhead]; intro e
        exact hsL (List.mem_of_mem_head? e)
      have hlc0 : lc.nodes 0 = lb.nodes 0 := by rw [hn]; simp [hh0]
      constructor
      · rw [List.pairwise_cons]; exact ⟨hpos, h.sorted⟩
      · intro i
        simp only [List.mem_cons, h.mem]
        by_cases hi : i = 0 <;> simp [hi]
      · intro i hi
        have : lc.size = l.size := by rw [hf.2.1]; rfl
        rcases List.mem_cons.1 hi with rfl | hi
        · simpa [this] using hs
        · simpa [this] using h.lt i hi
      · obtain ⟨q, hq⟩ := hseg.setPrev (n' := lc.nodes) (some 0) (by
          intro b B' hB
          have hb : l.head = some b := by rw [hhead, hB]; rfl
          have hbm : b ∈ L := by rw [hB]; simp
          refine ⟨?_, ?_⟩
          · rw [hn, if_pos hb, hlbj b (by have := hpos b hbm; omega)]
          · intro j hj
            have hjm : j ∈ L := by rw [hB]; simp [hj]
            have hne : l.head ≠ some j := by
              rw [hb]; intro e; cases e
              have := h.sorted; rw [hB, List.pairwise_cons] at this
              exact absurd (this.1 b hj) (by omega)
            rw [hn, if_neg hne, hlbj j (by have := hpos j hjm; omega)])
        refine ⟨q, ?_, ?_, ?_⟩
        · show lc.head = some 0
          rw [hf.1]
        · show (lc.nodes 0).prev = none
          rw [hlc0, hlb0]
        · show Seg lc.nodes (some 0) (lc.nodes 0).next L q none
          rw [hlc0, hlb0]; exact hq
      · intro i k hk
        show (lc.nodes i).key = some k ∧ (lc.nodes i).priority = prio k
        by_cases hi : i = 0
        · subst hi
          simp only [if_true, Option.some.injEq] at hk
          subst hk
          rw [hlc0, hlb0]; exact ⟨rfl, rfl⟩
        · simp only [hi, if_false] at hk
          have := h.key i k hk
          rw [hn]
          split <;> simp only [hlbj i hi] <;> exact this
      · show lc.count + 1 = _
        rw [hf.2.2.1]
        show l.count + 1 = _
        rw [h.count]; rfl
    · have hf := setPrevOf_fields lb l.head (some 0)
      exact ⟨hf.2.1, hf.2.2.2.1, hf.2.2.2.2.1, hf.2.2.2.2.2⟩
  · -- insertion after slot s - 1
    have hpm : s - 1 ∈ L := (h.mem _).2 (hleast (s - 1) (by omega))
    obtain ⟨A, B, hL, hA, hB, hAs, hBs⟩ := sorted_split hpm h.sorted
    have hBgt : ∀ b ∈ B, s < b := by
      intro b hb
      have h1 := hB b hb
      have h2 : b ≠ s := by rintro rfl; exact hsL (by rw [hL]; simp [hb])
      omega
    have hsegL : Seg l.nodes none l.head ((A ++ [s - 1]) ++ B) pl none := by
      rw [hL] at hseg; simpa using hseg
    rw [Seg.append] at hsegL
    obtain ⟨q, d, hS1, hS2⟩ := hsegL
    obtain ⟨hq, hd⟩ := hS1.last
    let nxt := (l.nodes (s - 1)).next
    let la := l.setNode s { priority := prio key, key := some key, prev := some (s - 1), next := nxt }
    let lb := la.setNode (s - 1) { la.nodes (s - 1) with next := some s }
    let lc := lb.setPrevOf nxt (some s)
    have hheadne : l.head ≠ some s := by
      rw [hseg.cur_eq]; intro e
      exact hsL (List.mem_of_mem_head? e)
    have hf := setPrevOf_fields lb nxt (some s)
    have hn : ∀ j, lc.nodes j = if nxt = some j then { lb.nodes j with prev := some s }
        else lb.nodes j := setPrevOf_nodes lb nxt (some s)
    have hnxt : nxt = B.head? := by
      show (l.nodes (s - 1)).next = _
      rw [hd]; exact hS2.cur_eq
    have hnxt_ne : ∀ j, j ≤ s → nxt ≠ some j := by
      intro j hj e
      rw [hnxt] at e
      have := hBgt j (List.mem_of_mem_head? e)
      omega
    have hlbs : lb.nodes s =
        { priority := prio key, key := some key, prev := some (s - 1), next := nxt } := by
      simp only [lb, la, setNode_nodes]
      rw [if_neg (by omega), if_pos trivial]
    have hlbp : lb.nodes (s - 1) = { l.nodes (s - 1) with next := some s } := by
      simp only [lb, la, setNode_nodes, if_true]
      rw [if_neg (by omega)]
    have hlbj : ∀ j, j ≠ s → j ≠ s - 1 → lb.nodes j = l.nodes j := by
      intro j h1 h2; simp only [lb, la, setNode_nodes, h1, h2, if_false]
    have hlcs : lc.nodes s = lb.nodes s := by rw [hn, if_neg (hnxt_ne s (le_refl _))]
    have hlcp : lc.nodes (s - 1) = lb.nodes (s - 1) := by
      rw [hn, if_neg (hnxt_ne (s - 1) (by omega))]
    refine ⟨{ lc with count := lc.count + 1 }, A ++ [s - 1] ++ s :: B, ?_, ?_, ?_⟩
    · simp only [EList.add, hs, if_true, h0, if_false, hheadne, Option.map_some]; rfl
    · constructor
      · rw [List.pairwise_append, List.pairwise_append]
        refine ⟨⟨hAs, by simp, ?_⟩, List.pairwise_cons.2 ⟨hBgt, hBs⟩, ?_⟩
        · intro a ha b hb
          simp at hb; subst hb; exact hA a ha
        · intro a ha b hb
          simp only [List.mem_append, List.mem_singleton] at ha
          have ha' : a < s := by
            rcases ha with ha | ha
            · have := hA a ha; omega
            · omega
          rcases List.mem_cons.1 hb with rfl | hb
          · exact ha'
          · have := hBgt b hb; omega
      · intro i
        have := h.mem i
        rw [hL] at this
        simp only [List.mem_append, List.mem_cons, List.mem_singleton, List.not_mem_nil,
          or_false] at this ⊢
        by_cases hi : i = s
        · simp [hi]
        · simp only [hi, if_false, ← this]; tauto
      · intro i hi
        have hsz : lc.size = l.size := by rw [hf.2.1]; rfl
        show i < lc.size
        rw [hsz]
        by_cases his : i = s
        · subst his; exact hs
        · apply h.lt
          rw [hL]
          simp only [List.mem_append, List.mem_cons, List.mem_singleton, List.not_mem_nil,
            or_false] at hi ⊢
          tauto
      · have hS1' : Seg lc.nodes none l.head (A ++ [s - 1]) (some (s - 1)) (some s) := by
          apply hS1.setNext
          · intro j hj
            have hjl := hA j hj
            rw [hn, if_neg (hnxt_ne j (by omega)), hlbj j (by omega) (by omega)]
          · rw [hlcp, hlbp]
        obtain ⟨p2, hS2'⟩ := hS2.setPrev (n' := lc.nodes) (some s) (by
          intro b B' hBe
          have hb : nxt = some b := by rw [hnxt, hBe]; rfl
          have hbm : b ∈ B := by rw [hBe]; simp
          have := hBgt b hbm
          refine ⟨?_, ?_⟩
          · rw [hn, if_pos hb, hlbj b (by omega) (by omega)]
          · intro j hj
            have hjm : j ∈ B := by rw [hBe]; simp [hj]
            have hjs := hBgt j hjm
            have hne : nxt ≠ some j := by
              rw [hb]; intro e; cases e
              rw [hBe, List.pairwise_cons] at hBs
              exact absurd (hBs.1 b hj) (by omega)
            rw [hn, if_neg hne, hlbj j (by omega) (by omega)])
        refine ⟨p2, ?_⟩
        show Seg lc.nodes none lc.head (A ++ [s - 1] ++ s :: B) p2 none
        rw [hf.1, Seg.append]
        refine ⟨some (s - 1), some s, hS1', rfl, ?_, ?_⟩
        · rw [hlcs, hlbs]
        · rw [hlcs, hlbs]
          show Seg lc.nodes (some s) nxt B p2 none
          have : nxt = d := hd
          rw [this]; exact hS2'
      · intro i k hk
        show (lc.nodes i).key = some k ∧ (lc.nodes i).priority = prio k
        by_cases hi : i = s
        · subst hi
          simp only [if_true, Option.some.injEq] at hk
          subst hk
          rw [hlcs, hlbs]; exact ⟨rfl, rfl⟩
        · simp only [hi, if_false] at hk
          have := h.key i k hk
          by_cases hi2 : i = s - 1
          · subst hi2; rw [hlcp, hlbp]; exact this
          · rw [hn]
            split <;> simp only [hlbj i hi hi2] <;> exact this
      · show lc.count + 1 = _
        rw [hf.2.2.1]
        show l.count + 1 = _
        rw [h.count, hL]; simp; omega
    · exact ⟨hf.2.1, hf.2.2.2.1, hf.2.2.2.2.1, hf.2.2.2.2.2⟩

/-- Unlinking slot `s`, as done by `delete_entry` once the entry was found. -/
def unlink (l : EList K) (i : Nat) : EList K :=
  let e := l.nodes i
  let l1 : EList K := match e.prev with
    | some p => l.setNode p { l.nodes p with next := e.next }
    | none => { l with head := e.next }
  let l2 := l1.setPrevOf e.next e.prev
  { l2 with count := l2.count - 1 }

theorem Linked.unlink {prio : K → Int} {l : EList K} {E : Nat → Option K} {L : List Nat}
    (h : Linked prio l E L) (s : Nat) (hin : (E s).isSome = true) :
    ∃ L', Linked prio (l.unlink s) (fun i => if i = s then none else E i) L' ∧
      (l.unlink s).size = l.size ∧ (l.unlink s).enableCache = l.enableCache ∧
      (l.unlink s).useCache = l.useCache ∧ (l.unlink s).cache = l.cache := by
  obtain ⟨pl, hseg⟩ := h.seg
  have hsm : s ∈ L := (h.mem s).2 hin
  obtain ⟨A, B, hL, hA, hB, hAs, hBs⟩ := sorted_split hsm h.sorted
  rw [hL, Seg.append] at hseg
  obtain ⟨q, d, hS1, hd, hprev, hS2⟩ := hseg
  have hnxt : (l.nodes s).next = B.head? := hS2.cur_eq
  -- the node of the successor list after both updates
  generalize hl1 : (match (l.nodes s).prev with
    | some p => l.setNode p { l.nodes p with next := (l.nodes s).next }
    | none => { l with head := (l.nodes s).next } : EList K) = l1
  have hu : l.unlink s = { l1.setPrevOf (l.nodes s).next (l.nodes s).prev with
      count := (l1.setPrevOf (l.nodes s).next (l.nodes s).prev).count - 1 } := by
    simp only [EList.unlink, hl1]
  have hf := setPrevOf_fields l1 (l.nodes s).next (l.nodes s).prev
  have hn : ∀ j, (l.unlink s).nodes j = if (l.nodes s).next = some j then
      { l1.nodes j with prev := (l.nodes s).prev } else l1.nodes j := by
    intro j
    rw [hu]
    exact setPrevOf_nodes l1 (l.nodes s).next (l.nodes s).prev j
  have hl1f : l1.size = l.size ∧ l1.enableCache = l.enableCache ∧ l1.useCache = l.useCache ∧
      l1.cache = l.cache ∧ l1.count = l.count := by
    rw [← hl1]; split <;> exact ⟨rfl, rfl, rfl, rfl, rfl⟩
  have hnxt_ne : ∀ j, j ≤ s → (l.nodes s).next ≠ some j := by
    intro j hj e
    rw [hnxt] at e
    have := hB j (List.mem_of_mem_head? e)
    omega
  -- key data is untouched
  have hkd : ∀ j, ((l.unlink s).nodes j).key = (l.nodes j).key ∧
      ((l.unlink s).nodes j).priority = (l.nodes j).priority := by
    intro j
    have h1 : (l1.nodes j).key = (l.nodes j).key ∧ (l1.nodes j).priority = (l.nodes j).priority := by
      rw [← hl1]
      split
      · simp only [setNode_nodes]; split
        · rename_i hh; rw [hh]; exact ⟨rfl, rfl⟩
        · exact ⟨rfl, rfl⟩
      · exact ⟨rfl, rfl⟩
    rw [hn]; split <;> exact h1
  have hl1j : ∀ j, (l.nodes s).prev ≠ some j → l1.nodes j = l.nodes j := by
    intro j hj
    rw [← hl1]
    split
    · rename_i p hp
      have : j ≠ p := by rintro rfl; exact hj hp
      simp [setNode_nodes, this]
    · rfl
  -- the tail
  have hq_lt : ∀ j, (l.nodes s).prev = some j → j < s := by
    intro j hj
    rw [hprev] at hj
    rcases List.eq_nil_or_concat' A with rfl | ⟨A', a, rfl⟩
    · rw [← hS1.1] at hj; cases hj
    · have := hS1.last.1
      rw [this] at hj; cases hj
      exact hA j (by simp)
  obtain ⟨p2, hS2'⟩ := hS2.setPrev (n' := (l.unlink s).nodes) (l.nodes s).prev (by
    intro b B' hBe
    have hb : (l.nodes s).next = some b := by rw [hnxt, hBe]; rfl
    have hbm : b ∈ B := by rw [hBe]; simp
    have hbs := hB b hbm
    refine ⟨?_, ?_⟩
    · rw [hn, if_pos hb, hl1j b (fun e => by have := hq_lt b e; omega)]
    · intro j hj
      have hjm : j ∈ B := by rw [hBe]; simp [hj]
      have hjs := hB j hjm
      have hne : (l.nodes s).next ≠ some j := by
        rw [hb]; intro e; cases e
        rw [hBe, List.pairwise_cons] at hBs
        exact absurd (hBs.1 b hj) (by omega)
      rw [hn, if_neg hne, hl1j j (fun e => by have := hq_lt j e; omega)])
  have hseg' : Seg (l.unlink s).nodes none (l.unlink s).head (A ++ B) p2 none := by
    rw [Seg.append]
    refine ⟨(l.nodes s).prev, (l.nodes s).next, ?_, hS2'⟩
    rcases List.eq_nil_or_concat' A with rfl | ⟨A', a, rfl⟩
    · refine ⟨by rw [hprev, ← hS1.1], ?_⟩
      have hp : (l.nodes s).prev = none := by rw [hprev, ← hS1.1]
      rw [hu]
      show (l1.setPrevOf _ _).head = _
      rw [hf.1, ← hl1, hp]
    · have hp : (l.nodes s).prev = some a := by rw [hprev]; exact hS1.last.1
      have ha := hA a (by simp)
      have hhead : (l.unlink s).head = l.head := by
        rw [hu]
        show (l1.setPrevOf _ _).head = _
        rw [hf.1, ← hl1, hp]; rfl
      rw [hhead, hp]
      apply hS1.setNext
      · intro j hj
        have hjs := hA j (by simp [hj])
        have hja : j < a := by
          rw [List.pairwise_append] at hAs
          exact hAs.2.2 j hj a (by simp)
        rw [hn, if_neg (hnxt_ne j (by omega)), hl1j j (by rw [hp]; intro e; cases e; omega)]
      · rw [hn, if_neg (hnxt_ne a (by omega)), ← hl1, hp]
        simp [setNode_nodes]
  refine ⟨A ++ B, ⟨?_, ?_, ?_, ⟨p2, hseg'⟩, ?_, ?_⟩, ?_⟩
  · rw [List.pairwise_append]
    exact ⟨hAs, hBs, fun a ha b hb => by have := hA a ha; have := hB b hb; omega⟩
  · intro i
    have := h.mem i
    rw [hL] at this
    simp only [List.mem_append, List.mem_cons] at this ⊢
    by_cases hi : i = s
    · subst hi
      simp only [if_true, Option.isSome_none, Bool.false_eq_true, iff_false, not_or]
      exact ⟨fun hh => by have := hA i hh; omega, fun hh => by have := hB i hh; omega⟩
    · simp only [hi, if_false, false_or] at this ⊢; exact this
  · intro i hi
    have hsz : (l.unlink s).size = l.size := by rw [hu]; show (l1.setPrevOf _ _).size = _; rw [hf.2.1, hl1f.1]
    rw [hsz]
    apply h.lt
    rw [hL]
    simp only [List.mem_append, List.mem_cons] at hi ⊢
    tauto
  · intro i k hk
    by_cases hi : i = s
    · simp [hi] at hk
    · simp only [hi, if_false] at hk
      rw [(hkd i).1, (hkd i).2]
      exact h.key i k hk
  · rw [hu]
    show (l1.setPrevOf _ _).count - 1 = _
    rw [hf.2.2.1, hl1f.2.2.2.2, h.count, hL]
    simp
  · rw [hu]
    refine ⟨?_, ?_, ?_, ?_⟩
    · show (l1.setPrevOf _ _).size = _; rw [hf.2.1, hl1f.1]
    · show (l1.setPrevOf _ _).enableCache = _; rw [hf.2.2.2.1, hl1f.2.1]
    · show (l1.setPrevOf _ _).useCache = _; rw [hf.2.2.2.2.1, hl1f.2.2.1]
    · show (l1.setPrevOf _ _).cache = _; rw [hf.2.2.2.2.2, hl1f.2.2.2.1]

end EList
end Bm
