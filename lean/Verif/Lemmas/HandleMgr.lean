import Verif.Model.HandleMgr
import Mathlib.Data.Finset.Card
import Mathlib.Tactic.IntervalCases

/-! Helper lemmas for the bitset / handle manager model. -/

namespace Bm

/-- The lowest set bit of a nonzero vector. -/
theorem exists_lowest {w : Nat} (v : BitVec w) (h : v ≠ 0#w) :
    ∃ k, k < w ∧ v.getLsbD k = true ∧ ∀ j < k, v.getLsbD j = false := by
  have hex : ∃ k, v.getLsbD k = true := by
    by_contra hn
    apply h
    apply BitVec.eq_of_getLsbD_eq
    intro i _
    simp only [not_exists, Bool.not_eq_true] at hn
    simp [hn i]
  refine ⟨Nat.find hex, ?_, Nat.find_spec hex, ?_⟩
  · have := Nat.find_spec hex
    exact BitVec.lt_of_getLsbD this
  · intro j hj
    have := Nat.find_min hex hj
    simpa using this

theorem and_neg_eq_twoPow {w : Nat} (v : BitVec w) (k : Nat) (hk : v.getLsbD k = true)
    (hl : ∀ j < k, v.getLsbD j = false) : v &&& -v = BitVec.twoPow w k := by
  apply BitVec.eq_of_getLsbD_eq
  intro i hi
  rw [BitVec.getLsbD_and, BitVec.getLsbD_neg, BitVec.getLsbD_twoPow]
  rcases Nat.lt_trichotomy i k with h | h | h
  · have := hl i h
    simp [this]; omega
  · subst h
    simp only [hk, hi]
    have : ¬ ∃ j < i, v.getLsbD j = true := by
      rintro ⟨j, hj, hjt⟩; simp [hl j hj] at hjt
    simp [this]
  · have h1 : ∃ j < i, v.getLsbD j = true := ⟨k, h, hk⟩
    have h2 : ¬ k = i := by omega
    simp [h1, h2, hi]

theorem deBruijn_ok : ∀ k : Fin 32,
    deBruijnTable.getD (((BitVec.twoPow 32 k.val * 0x077CB531#32) >>> 27).toNat) 0 = k.val := by
  decide

theorem findLowestBit32_spec (v : BitVec 32) (h : v ≠ 0#32) :
    v.getLsbD (findLowestBit32 v) = true ∧ ∀ j < findLowestBit32 v, v.getLsbD j = false := by
  obtain ⟨k, hk, ht, hl⟩ := exists_lowest v h
  have : findLowestBit32 v = k := by
    unfold findLowestBit32
    rw [and_neg_eq_twoPow v k ht hl]
    exact deBruijn_ok ⟨k, hk⟩
  rw [this]; exact ⟨ht, hl⟩

theorem findLowestBit64_spec (v : BitVec 64) (h : v ≠ 0#64) :
    v.getLsbD (findLowestBit64 v) = true ∧ ∀ j < findLowestBit64 v, v.getLsbD j = false := by
  unfold findLowestBit64
  simp only []
  have hlow : ∀ j, ((v &&& 0xFFFFFFFF#64).setWidth 32 : BitVec 32).getLsbD j
      = (decide (j < 32) && v.getLsbD j) := by
    intro j
    rw [BitVec.getLsbD_setWidth, BitVec.getLsbD_and]
    by_cases hj : j < 32
    · have : (0xFFFFFFFF#64).getLsbD j = true := by
        interval_cases j <;> rfl
      simp [hj, this]
    · simp [hj]
  have hhigh : ∀ j, ((v >>> 32).setWidth 32 : BitVec 32).getLsbD j
      = (decide (j < 32) && v.getLsbD (32 + j)) := by
    intro j
    rw [BitVec.getLsbD_setWidth, BitVec.getLsbD_ushiftRight]
  split
  · rename_i hz
    have hzl : ∀ j < 32, v.getLsbD j = false := by
      intro j hj
      have := hlow j
      rw [hz] at this
      simpa [hj] using this.symm
    have hne : ((v >>> 32).setWidth 32 : BitVec 32) ≠ 0#32 := by
      intro hz2
      apply h
      apply BitVec.eq_of_getLsbD_eq
      intro i hi
      simp only [BitVec.getLsbD_zero]
      by_cases h32 : i < 32
      · exact hzl i h32
      · have := hhigh (i - 32)
        rw [hz2] at this
        have e : 32 + (i - 32) = i := by omega
        have e2 : i - 32 < 32 := by omega
        rw [e] at this
        simpa [e2] using this.symm
    obtain ⟨a, b⟩ := findLowestBit32_spec _ hne
    rw [hhigh] at a
    simp only [Bool.and_eq_true, decide_eq_true_eq] at a
    refine ⟨a.2, ?_⟩
    intro j hj
    by_cases h32 : j < 32
    · exact hzl j h32
    · have := b (j - 32) (by omega)
      rw [hhigh] at this
      have e : 32 + (j - 32) = j := by omega
      rw [e] at this
      have e2 : j - 32 < 32 := by omega
      simpa [e2] using this
  · rename_i hz
    obtain ⟨a, b⟩ := findLowestBit32_spec _ hz
    rw [hlow] at a
    simp only [Bool.and_eq_true, decide_eq_true_eq] at a
    refine ⟨a.2, ?_⟩
    intro j hj
    have := b j hj
    rw [hlow] at this
    have e2 : j < 32 := by omega
    simpa [e2] using this

namespace Bitset

/-- Bit `i` of the word vector (out of range words read as zero). -/
def bitAt (ws : List (BitVec 64)) (i : Nat) : Bool := (ws.getD (i / 64) 0#64).getLsbD (i % 64)

theorem getLsbD_one_shl (k i : Nat) : (1#64 <<< k).getLsbD i = decide (i = k ∧ i < 64) := by
  rw [BitVec.getLsbD_shiftLeft]
  by_cases h1 : i < 64 <;> by_cases h2 : i < k <;> simp [h1, h2]
  · omega
  · omega

theorem mask_and_ne_zero (w : BitVec 64) (k : Nat) (hk : k < 64) :
    decide (w &&& (1#64 <<< k) ≠ 0#64) = w.getLsbD k := by
  cases hb : w.getLsbD k
  · simp only [ne_eq, decide_not, Bool.not_eq_false', decide_eq_true_eq]
    apply BitVec.eq_of_getLsbD_eq
    intro i _
    rw [BitVec.getLsbD_and, getLsbD_one_shl]
    by_cases h : i = k
    · subst h; simp [hb]
    · simp [h]
  · simp only [ne_eq, decide_not, Bool.not_eq_true', decide_eq_false_iff_not]
    intro h
    have := congrArg (fun x => x.getLsbD k) h
    simp only [BitVec.getLsbD_and, hb, getLsbD_one_shl, hk] at this
    simp at this

theorem mask_shift (w : BitVec 64) (k : Nat) (hk : k < 64) :
    (w &&& (1#64 <<< k)) >>> k = if w.getLsbD k then 1#64 else 0#64 := by
  apply BitVec.eq_of_getLsbD_eq
  intro i hi
  rw [BitVec.getLsbD_ushiftRight, BitVec.getLsbD_and, getLsbD_one_shl]
  by_cases h : i = 0
  · subst h
    cases hb : w.getLsbD k <;> simp [hb, hk]
  · have h1 : ¬ k + i = k := by omega
    cases hb : w.getLsbD k <;> simp [h1, h]

theorem bitAt_set (ws : List (BitVec 64)) (idx i : Nat) (w : BitVec 64) (h : idx / 64 < ws.length) :
    bitAt (ws.set (idx / 64) w) i =
      if i / 64 = idx / 64 then w.getLsbD (i % 64) else bitAt ws i := by
  unfold bitAt
  simp only [List.getD_eq_getElem?_getD, List.getElem?_set]
  by_cases e : idx / 64 = i / 64
  · simp [← e, h]
  · have : ¬ i / 64 = idx / 64 := fun h => e h.symm
    simp [e, this]

/-- The bitset represents the finite set `S`. -/
structure Rep (b : Bitset) (S : Finset Nat) : Prop where
  len : b.words.length = (b.numBits + 63) / 64
  bit : ∀ i, bitAt b.words i = decide (i ∈ S)
  lt : ∀ i ∈ S, i < b.numBits
  card : b.numSet = S.card

theorem Rep.empty : Rep {} ∅ := by
  constructor <;> simp [bitAt]

theorem Rep.getWord {b S} (h : Rep b S) {idx : Nat} (hi : idx < b.numBits) :
    ∃ w, b.words[idx / 64]? = some w ∧ idx / 64 < b.words.length ∧
      ∀ k < 64, w.getLsbD k = decide (idx / 64 * 64 + k ∈ S) := by
  have hl : idx / 64 < b.words.length := by rw [h.len]; omega
  refine ⟨b.words[idx / 64], by simp [hl], hl, ?_⟩
  intro k hk
  have := h.bit (idx / 64 * 64 + k)
  unfold bitAt at this
  have e1 : (idx / 64 * 64 + k) / 64 = idx / 64 := by omega
  have e2 : (idx / 64 * 64 + k) % 64 = k := by omega
  rw [e1, e2] at this
  simpa [List.getD_eq_getElem?_getD, hl] using this

theorem Rep.test {b S} (h : Rep b S) {idx : Nat} (hi : idx < b.numBits) :
    b.test idx = some (decide (idx ∈ S)) := by
  obtain ⟨w, hw, _, hb⟩ := h.getWord hi
  have := hb (idx % 64) (by omega)
  have e : idx / 64 * 64 + idx % 64 = idx := by omega
  rw [e] at this
  unfold Bitset.test
  simp only [hi, hw, if_true]
  simp only [Option.bind_eq_bind, Option.bind_some, Option.pure_def]
  rw [mask_and_ne_zero w _ (by omega), this]

theorem Rep.set {b S} (h : Rep b S) {idx : Nat} (hi : idx < b.numBits) :
    ∃ b', b.set idx = some (decide (idx ∉ S), b') ∧ b'.numBits = b.numBits ∧
      Rep b' (insert idx S) := by
  obtain ⟨w, hw, hl, hb⟩ := h.getWord hi
  have hbi := hb (idx % 64) (by omega)
  have e : idx / 64 * 64 + idx % 64 = idx := by omega
  rw [e] at hbi
  have hm : idx % 64 < 64 := by omega
  unfold Bitset.set
  simp only [hi, hw, if_true, Option.bind_eq_bind, Option.bind_some, Option.pure_def,
    Option.some.injEq, Prod.mk.injEq]
  refine ⟨_, ⟨?_, rfl⟩, rfl, ?_⟩
  · have := mask_and_ne_zero w _ hm
    rw [hbi] at this
    by_cases hs : idx ∈ S
    · simp_all
    · simp_all
  · constructor
    · simpa using h.len
    · intro i
      rw [bitAt_set _ _ _ _ hl]
      split
      · rename_i hq
        rw [BitVec.getLsbD_or, getLsbD_one_shl, hb _ (by omega)]
        have e3 : idx / 64 * 64 + i % 64 = i := by omega
        rw [e3]
        have : (i % 64 = idx % 64 ∧ i % 64 < 64) ↔ i = idx := by omega
        simp only [Finset.mem_insert, this]
        by_cases hh : i = idx <;> simp [hh]
      · rename_i hq
        rw [h.bit]
        have : i ≠ idx := by rintro rfl; exact hq rfl
        simp [this]
    · intro i hi'
      rcases Finset.mem_insert.1 hi' with rfl | h'
      · exact hi
      · exact h.lt i h'
    · simp only [mask_shift w _ hm, hbi]
      by_cases hs : idx ∈ S
      · simp [hs, h.card]
      · simp [hs, h.card, Finset.card_insert_of_notMem]

theorem Rep.reset {b S} (h : Rep b S) {idx : Nat} (hi : idx < b.numBits) :
    ∃ b', b.reset idx = some (decide (idx ∈ S), b') ∧ b'.numBits = b.numBits ∧
      Rep b' (S.erase idx) := by
  obtain ⟨w, hw, hl, hb⟩ := h.getWord hi
  have hbi := hb (idx % 64) (by omega)
  have e : idx / 64 * 64 + idx % 64 = idx := by omega
  rw [e] at hbi
  have hm : idx % 64 < 64 := by omega
  unfold Bitset.reset
  simp only [hi, hw, if_true, Option.bind_eq_bind, Option.bind_some, Option.pure_def,
    Option.some.injEq, Prod.mk.injEq]
  refine ⟨_, ⟨?_, rfl⟩, rfl, ?_⟩
  · rw [mask_and_ne_zero w _ hm, hbi]
  · constructor
    · simpa using h.len
    · intro i
      rw [bitAt_set _ _ _ _ hl]
      split
      · rename_i hq
        rw [BitVec.getLsbD_and, BitVec.getLsbD_not, getLsbD_one_shl, hb _ (by omega)]
        have e3 : idx / 64 * 64 + i % 64 = i := by omega
        rw [e3]
        have h1 : (i % 64 = idx % 64 ∧ i % 64 < 64) ↔ i = idx := by omega
        have h2 : i % 64 < 64 := by omega
        rw [show decide (i % 64 = idx % 64 ∧ i % 64 < 64) = decide (i = idx) from decide_eq_decide.2 h1]
        simp only [Finset.mem_erase, h2]
        by_cases hh : i = idx <;> simp [hh]
      · rename_i hq
        rw [h.bit]
        have : i ≠ idx := by rintro rfl; exact hq rfl
        simp [this]
    · intro i hi'
      exact h.lt i (Finset.mem_of_mem_erase hi')
    · simp only [mask_shift w _ hm, hbi]
      by_cases hs : idx ∈ S
      · simp [hs, h.card, Finset.card_erase_of_mem]
      · simp [hs, h.card]

theorem Rep.grow0 {b S} (h : Rep b S) :
    Rep { (if b.numBits % 64 = 0 then { b with words := b.words ++ [0#64] } else b) with
          numBits := (if b.numBits % 64 = 0 then
              ({ b with words := b.words ++ [0#64] } : Bitset) else b).numBits + 1 } S := by
  constructor
  · split <;> simp [h.len] <;> omega
  · intro i
    split
    · simp only
      rw [← h.bit i]
      unfold bitAt
      simp only [List.getD_eq_getElem?_getD, List.getElem?_append]
      split
      · rfl
      · rename_i hl
        rw [List.getElem?_eq_none (by omega : b.words.length ≤ i / 64)]
        by_cases e : i / 64 - b.words.length = 0
        · simp [e]
        · rw [List.getElem?_eq_none (by simp; omega)]
    · exact h.bit i
  · intro i hi
    have := h.lt i hi
    split <;> simp <;> omega
  · split <;> exact h.card

theorem Rep.pushBack {b S} (h : Rep b S) :
    ∃ b', b.pushBack true = some b' ∧ b'.numBits = b.numBits + 1 ∧
      Rep b' (insert b.numBits S) := by
  unfold Bitset.pushBack
  have h2 := h.grow0
  have hn : (if b.numBits % 64 = 0 then
      ({ b with words := b.words ++ [0#64] } : Bitset) else b).numBits = b.numBits := by
    split <;> rfl
  obtain ⟨b', hb', hnb, hr⟩ := h2.set (idx := b.numBits) (by simp [hn])
  refine ⟨b', ?_, ?_, hr⟩
  · simp only [hn, if_true]
    simp only [hn] at hb'
    simp [hb']
  · rw [hnb]; simp [hn]

theorem findFromWords_spec (ws : List (BitVec 64)) (i : Nat) :
    match findFromWords ws i with
    | none => ∀ j, bitAt ws j = false
    | some p => i * 64 ≤ p ∧ bitAt ws (p - i * 64) = true ∧ ∀ j < p - i * 64, bitAt ws j = false := by
  induction ws generalizing i with
  | nil => simp [findFromWords, bitAt]
  | cons w ws ih =>
    have hhead : ∀ j < 64, bitAt (w :: ws) j = w.getLsbD j := by
      intro j hj
      have e1 : j / 64 = 0 := by omega
      have e2 : j % 64 = j := by omega
      simp [bitAt, e1, e2]
    have htail : ∀ j, bitAt (w :: ws) (64 + j) = bitAt ws j := by
      intro j
      have e1 : (64 + j) / 64 = j / 64 + 1 := by omega
      have e2 : (64 + j) % 64 = j % 64 := by omega
      simp [bitAt, e1, e2]
    unfold findFromWords
    split_ifs with hw
    · have := ih (i + 1)
      have hz : ∀ j < 64, bitAt (w :: ws) j = false := by
        intro j hj; rw [hhead j hj, hw]; simp
      split at this
      · rename_i heq
        intro j
        by_cases hj : j < 64
        · exact hz j hj
        · have e : j = 64 + (j - 64) := by omega
          rw [e, htail]; exact this _
      · rename_i p heq
        obtain ⟨h1, h2, h3⟩ := this
        refine ⟨by omega, ?_, ?_⟩
        · have e : p - i * 64 = 64 + (p - (i + 1) * 64) := by omega
          rw [e, htail]; exact h2
        · intro j hj
          by_cases hj' : j < 64
          · exact hz j hj'
          · have e : j = 64 + (j - 64) := by omega
            rw [e, htail]; exact h3 _ (by omega)
    · obtain ⟨h1, h2⟩ := findLowestBit64_spec w hw
      have hlt := BitVec.lt_of_getLsbD h1
      refine ⟨by omega, ?_, ?_⟩
      · have e : i * 64 + findLowestBit64 w - i * 64 = findLowestBit64 w := by omega
        rw [e, hhead _ hlt]; exact h1
      · intro j hj
        rw [hhead j (by omega)]; exact h2 j (by omega)

theorem bitAt_drop (ws : List (BitVec 64)) (n j : Nat) :
    bitAt (ws.drop n) j = bitAt ws (n * 64 + j) := by
  have e1 : (n * 64 + j) / 64 = n + j / 64 := by omega
  have e2 : (n * 64 + j) % 64 = j % 64 := by omega
  simp [bitAt, e1, e2, List.getD_eq_getElem?_getD, List.getElem?_drop]

theorem Rep.findFromBlock {b S} (h : Rep b S) (n : Nat) :
    match b.findFromBlock n with
    | none => ∀ j, n * 64 ≤ j → j ∉ S
    | some p => n * 64 ≤ p ∧ p ∈ S ∧ ∀ j, n * 64 ≤ j → j < p → j ∉ S := by
  have := findFromWords_spec (b.words.drop n) n
  unfold Bitset.findFromBlock
  split at this
  · rename_i heq
    intro j hj
    have := this (j - n * 64)
    rw [bitAt_drop, show n * 64 + (j - n * 64) = j by omega, h.bit] at this
    simpa using this
  · rename_i p heq
    obtain ⟨h1, h2, h3⟩ := this
    rw [bitAt_drop, show n * 64 + (p - n * 64) = p by omega, h.bit] at h2
    refine ⟨h1, by simpa using h2, ?_⟩
    intro j hj hjp
    have := h3 (j - n * 64) (by omega)
    rw [bitAt_drop, show n * 64 + (j - n * 64) = j by omega, h.bit] at this
    simpa using this

theorem findUnsetFromWords_eq (ws : List (BitVec 64)) (i : Nat) :
    findUnsetFromWords ws i = findFromWords (ws.map (~~~ ·)) i := by
  induction ws generalizing i with
  | nil => rfl
  | cons w ws ih =>
    simp only [findUnsetFromWords, findFromWords, List.map_cons]
    have : (w = ones) ↔ (~~~w = 0#64) := by
      unfold ones
      constructor
      · intro h; simp [h]
      · intro h
        have := congrArg (~~~ ·) h
        simpa using this
    simp only [this, ih]

theorem Rep.findUnsetFromBlock {b S} (h : Rep b S) (n : Nat) :
    match b.findUnsetFromBlock n with
    | none => ∀ j, n * 64 ≤ j → j < b.words.length * 64 → j ∈ S
    | some p => n * 64 ≤ p ∧ p ∉ S ∧ ∀ j, n * 64 ≤ j → j < p → j ∈ S := by
  have hbit : ∀ j, bitAt ((b.words.drop n).map (~~~ ·)) j =
      (decide (n * 64 + j < b.words.length * 64) && decide (n * 64 + j ∉ S)) := by
    intro j
    have hb := h.bit (n * 64 + j)
    rw [← bitAt_drop] at hb
    by_cases hl : n * 64 + j < b.words.length * 64
    · have hl2 : j / 64 < (b.words.drop n).length := by simp; omega
      simp only [bitAt, List.getD_eq_getElem?_getD, List.getElem?_map] at *
      rw [List.getElem?_eq_getElem hl2] at *
      have hm : j % 64 < 64 := by omega
      simp only [Option.map_some, Option.getD_some, BitVec.getLsbD_not, hm] at *
      rw [hb]
      simp [hl]
    · have hl2 : (b.words.drop n).length ≤ j / 64 := by simp; omega
      simp only [bitAt, List.getD_eq_getElem?_getD, List.getElem?_map]
      rw [List.getElem?_eq_none hl2]
      simp [hl]
  unfold Bitset.findUnsetFromBlock
  rw [findUnsetFromWords_eq]
  have := findFromWords_spec ((b.words.drop n).map (~~~ ·)) n
  split at this
  · rename_i heq
    intro j hj hl
    have := this (j - n * 64)
    rw [hbit, show n * 64 + (j - n * 64) = j by omega] at this
    simpa [hl] using this
  · rename_i p heq
    obtain ⟨h1, h2, h3⟩ := this
    rw [hbit, show n * 64 + (p - n * 64) = p by omega] at h2
    simp only [Bool.and_eq_true, decide_eq_true_eq] at h2
    refine ⟨h1, h2.2, ?_⟩
    intro j hj hjp
    have := h3 (j - n * 64) (by omega)
    rw [hbit, show n * 64 + (j - n * 64) = j by omega] at this
    have hl : j < b.words.length * 64 := by omega
    simpa [hl] using this

theorem Rep.findFirst {b S} (h : Rep b S) :
    match b.findFirst with
    | none => S = ∅
    | some p => p ∈ S ∧ ∀ j < p, j ∉ S := by
  have := h.findFromBlock 0
  unfold Bitset.findFirst
  split at this
  · rename_i heq
    ext j
    simpa using this j (by omega)
  · rename_i p heq
    exact ⟨this.2.1, fun j hj => this.2.2 j (by omega) hj⟩

theorem ones_shl (k i : Nat) : (ones <<< k).getLsbD i = (decide (i < 64) && decide (k ≤ i)) := by
  rw [BitVec.getLsbD_shiftLeft]
  unfold ones
  rw [BitVec.getLsbD_not]
  by_cases h1 : i < 64 <;> by_cases h2 : i < k
  · have h3 : ¬ k ≤ i := by omega
    simp [h1, h2, h3]
  · have h3 : k ≤ i := by omega
    have h4 : i - k < 64 := by omega
    simp [h1, h2, h3, h4]
  · simp [h1]
  · simp [h1]

theorem Rep.findNext {b S} (h : Rep b S) (idx : Nat) :
    ∃ r, b.findNext idx = some r ∧
    match r with
    | none => ∀ j, idx < j → j ∉ S
    | some p => idx < p ∧ p ∈ S ∧ ∀ j, idx < j → j < p → j ∉ S := by
  unfold Bitset.findNext
  by_cases hge : idx + 1 ≥ b.numBits
  · refine ⟨none, by simp [hge], ?_⟩
    intro j hj hjs
    have := h.lt j hjs
    omega
  · have hi : idx + 1 < b.numBits := by omega
    obtain ⟨w, hw, hl, hb⟩ := h.getWord hi
    simp only [hge, if_false, hw, Option.bind_eq_bind, Option.bind_some, Option.pure_def]
    split_ifs with hz
    · refine ⟨_, rfl, ?_⟩
      have hblk := h.findFromBlock ((idx + 1) / 64 + 1)
      have hzero : ∀ j, idx < j → j < ((idx + 1) / 64 + 1) * 64 → j ∉ S := by
        intro j hj hj2
        have e := congrArg (fun v => v.getLsbD (j % 64)) hz
        simp only [BitVec.getLsbD_and, ones_shl, BitVec.getLsbD_zero] at e
        rw [hb _ (by omega)] at e
        rw [show (idx + 1) / 64 * 64 + j % 64 = j by omega] at e
        have h1 : j % 64 < 64 := by omega
        have h2 : (idx + 1) % 64 ≤ j % 64 := by omega
        simpa [h1, h2] using e
      split at hblk
      · rename_i heq
        intro j hj
        by_cases hj2 : j < ((idx + 1) / 64 + 1) * 64
        · exact hzero j hj hj2
        · exact hblk j (by omega)
      · rename_i p heq
        obtain ⟨h1, h2, h3⟩ := hblk
        refine ⟨by omega, h2, ?_⟩
        intro j hj hjp
        by_cases hj2 : j < ((idx + 1) / 64 + 1) * 64
        · exact hzero j hj hj2
        · exact h3 j (by omega) hjp
    · refine ⟨_, rfl, ?_⟩
      obtain ⟨h1, h2⟩ := findLowestBit64_spec _ hz
      have hlt := BitVec.lt_of_getLsbD h1
      generalize findLowestBit64 (w &&& ones <<< ((idx + 1) % 64)) = p at *
      simp only [BitVec.getLsbD_and, ones_shl, Bool.and_eq_true, decide_eq_true_eq] at h1
      rw [hb _ hlt] at h1
      refine ⟨by omega, by simpa using h1.1, ?_⟩
      intro j hj hjp
      have e := h2 (j % 64) (by omega)
      simp only [BitVec.getLsbD_and, ones_shl] at e
      rw [hb _ (by omega)] at e
      rw [show (idx + 1) / 64 * 64 + j % 64 = j by omega] at e
      have h1 : j % 64 < 64 := by omega
      have h2 : (idx + 1) % 64 ≤ j % 64 := by omega
      simpa [h1, h2] using e

/-- `find_unset_next`: the next position after `idx` not in `S`, where positions at or above
`numBits` count as free (then either `none` or a position ≥ `numBits` is returned, and the
latter only equal to `numBits`). -/
theorem Rep.findUnsetNext {b S} (h : Rep b S) (idx : Nat) (hidx : idx < b.numBits) :
    ∃ r, b.findUnsetNext idx = some r ∧
      idx < r.getD b.numBits ∧ r.getD b.numBits ∉ S ∧
      r.getD b.numBits ≤ b.numBits ∧
      (∀ j, idx < j → j < r.getD b.numBits → j ∈ S) := by
  have hnot : ∀ j, b.numBits ≤ j → j ∉ S := fun j hj hs => by
    have := h.lt j hs; omega
  unfold Bitset.findUnsetNext
  by_cases hge : idx + 1 ≥ b.numBits
  · refine ⟨none, by simp [hge], by simpa using hidx, hnot _ (le_refl _), by simp, ?_⟩
    intro j hj hjs
    simp at hjs
    omega
  · have hi : idx + 1 < b.numBits := by omega
    obtain ⟨w, hw, hl, hb⟩ := h.getWord hi
    simp only [hge, if_false, hw, Option.bind_eq_bind, Option.bind_some, Option.pure_def]
    split_ifs with hz
    · refine ⟨_, rfl, ?_⟩
      have hblk := h.findUnsetFromBlock ((idx + 1) / 64 + 1)
      have hone : ∀ j, idx < j → j < ((idx + 1) / 64 + 1) * 64 → j ∈ S := by
        intro j hj hj2
        have e := congrArg (fun v => v.getLsbD (j % 64)) hz
        have ho : ones.getLsbD (j % 64) = true := by
          have : j % 64 < 64 := by omega
          unfold ones; rw [BitVec.getLsbD_not]; simp [this]
        simp only [BitVec.getLsbD_or, BitVec.getLsbD_not, ones_shl, ho] at e
        rw [hb _ (by omega)] at e
        rw [show (idx + 1) / 64 * 64 + j % 64 = j by omega] at e
        have h1 : j % 64 < 64 := by omega
        have h2 : (idx + 1) % 64 ≤ j % 64 := by omega
        simpa [h1, h2] using e
      split at hblk
      · rename_i heq
        rw [heq]
        simp only [Option.getD_none]
        refine ⟨hidx, hnot _ (le_refl _), le_refl _, ?_⟩
        intro j hj hjn
        by_cases hj2 : j < ((idx + 1) / 64 + 1) * 64
        · exact hone j hj hj2
        · exact hblk j (by omega) (by rw [h.len]; omega)
      · rename_i p heq
        rw [heq]
        simp only [Option.getD_some]
        obtain ⟨h1, h2, h3⟩ := hblk
        refine ⟨by omega, h2, ?_, ?_⟩
        · by_contra hgt
          have : b.numBits ∈ S := by
            by_cases hj2 : b.numBits < ((idx + 1) / 64 + 1) * 64
            · exact hone _ hidx hj2
            · exact h3 _ (by omega) (by omega)
          exact hnot _ (le_refl _) this
        · intro j hj hjp
          by_cases hj2 : j < ((idx + 1) / 64 + 1) * 64
          · exact hone j hj hj2
          · exact h3 j (by omega) hjp
    · refine ⟨_, rfl, ?_⟩
      simp only [Option.getD_some]
      have hz' : ~~~(w ||| ~~~(ones <<< ((idx + 1) % 64))) ≠ 0#64 := by
        intro e
        apply hz
        have := congrArg (~~~ ·) e
        simpa [ones] using this
      obtain ⟨h1, h2⟩ := findLowestBit64_spec _ hz'
      have hlt := BitVec.lt_of_getLsbD h1
      generalize findLowestBit64 (~~~(w ||| ~~~(ones <<< ((idx + 1) % 64)))) = p at *
      simp only [BitVec.getLsbD_or, BitVec.getLsbD_not, ones_shl, Bool.and_eq_true,
        decide_eq_true_eq] at h1
      rw [hb _ hlt] at h1
      have h1' : ((idx + 1) / 64 * 64 + p ∉ S) ∧ (idx + 1) % 64 ≤ p := by
        simpa [hlt] using h1
      have hall : ∀ j, idx < j → j < (idx + 1) / 64 * 64 + p → j ∈ S := by
        intro j hj hjp
        have e := h2 (j % 64) (by omega)
        simp only [BitVec.getLsbD_or, BitVec.getLsbD_not, ones_shl] at e
        rw [hb _ (by omega)] at e
        rw [show (idx + 1) / 64 * 64 + j % 64 = j by omega] at e
        have h1 : j % 64 < 64 := by omega
        have h2 : (idx + 1) % 64 ≤ j % 64 := by omega
        simpa [h1, h2] using e
      refine ⟨by omega, h1'.1, ?_, hall⟩
      by_contra hgt
      exact hnot _ (le_refl _) (hall _ hidx (by omega))

end Bitset

namespace HandleMgr

/-- The handle manager represents the set `S` of slots in use, with the cursor at the least
free slot. -/
structure Rep (m : HandleMgr) (S : Finset Nat) : Prop where
  bits : m.handles.Rep S
  free : m.firstUnset ∉ S
  least : ∀ j < m.firstUnset, j ∈ S

theorem Rep.empty : Rep {} ∅ := ⟨Bitset.Rep.empty, by simp, by simp⟩

theorem Rep.le {m S} (h : Rep m S) : m.firstUnset ≤ m.handles.numBits := by
  by_contra hgt
  have := h.bits.lt _ (h.least m.handles.numBits (by omega))
  omega

theorem Rep.getHandle {m S} (h : Rep m S) :
    ∃ m', m.getHandle = some (m.firstUnset, m') ∧ Rep m' (insert m.firstUnset S) := by
  unfold HandleMgr.getHandle
  have hle := h.le
  by_cases hlt : m.firstUnset < m.handles.numBits
  · obtain ⟨b', hb', hn, hr⟩ := h.bits.set hlt
    obtain ⟨r, hr1, hr2, hr3, _, hr5⟩ := hr.findUnsetNext m.firstUnset (by omega)
    simp only [hlt, if_true, hb', Option.bind_eq_bind, Option.bind_some, hr1, Option.pure_def]
    refine ⟨_, rfl, hr, ?_, ?_⟩
    · simpa [← hn] using hr3
    · intro j hj
      simp only [← hn] at hj
      rcases Nat.lt_trichotomy j m.firstUnset with h1 | h1 | h1
      · exact Finset.mem_insert_of_mem (h.least j h1)
      · simp [h1]
      · exact hr5 j h1 hj
  · have heq : m.firstUnset = m.handles.numBits := by omega
    obtain ⟨b', hb', hn, hr⟩ := h.bits.pushBack
    simp only [hlt, heq, if_false, hb', Option.bind_eq_bind, Option.bind_some, Option.pure_def]
    refine ⟨⟨b', m.handles.numBits + 1⟩, by simp, hr, ?_, ?_⟩
    · simp only [Finset.mem_insert]
      rintro (h1 | h1)
      · omega
      · have := h.bits.lt _ h1; omega
    · intro j hj
      simp only at hj
      rcases Nat.lt_or_ge j m.handles.numBits with h1 | h1
      · exact Finset.mem_insert_of_mem (h.least j (by omega))
      · have : j = m.handles.numBits := by omega
        simp [this]

theorem Rep.releaseHandle {m S} (h : Rep m S) (pos : Nat) :
    ∃ m', m.releaseHandle pos = some (decide (pos ∈ S), m') ∧ Rep m' (S.erase pos) := by
  unfold HandleMgr.releaseHandle
  by_cases hge : pos ≥ m.handles.numBits
  · have hns : pos ∉ S := fun hs => by have := h.bits.lt _ hs; omega
    simp only [hge, if_true, Option.pure_def]
    refine ⟨m, by simp [hns], ?_⟩
    rw [Finset.erase_eq_of_notMem hns]; exact h
  · obtain ⟨b', hb', _, hr⟩ := h.bits.reset (idx := pos) (by omega)
    simp only [hge, if_false, hb', Option.bind_eq_bind, Option.bind_some, Option.pure_def]
    by_cases hs : pos ∈ S
    · simp only [hs, decide_true, if_true]
      refine ⟨_, rfl, hr, ?_, ?_⟩
      · simp only
        split
        · simp
        · simp [h.free]
      · intro j hj
        simp only at hj
        split at hj
        · exact Finset.mem_erase.2 ⟨by omega, h.least j (by omega)⟩
        · refine Finset.mem_erase.2 ⟨?_, h.least j hj⟩
          omega
    · simp only [hs, decide_false]
      refine ⟨_, rfl, hr, ?_, ?_⟩
      · simp [h.free]
      · intro j hj
        refine Finset.mem_erase.2 ⟨?_, h.least j hj⟩
        rintro rfl
        exact hs (h.least _ hj)

theorem Rep.validHandle {m S} (h : Rep m S) (pos : Nat) :
    m.validHandle pos = some (decide (pos ∈ S)) := by
  unfold HandleMgr.validHandle
  split
  · have hns : pos ∉ S := fun hs => by have := h.bits.lt _ hs; omega
    simp [hns]
  · exact h.bits.test (by omega)

theorem Rep.iterFrom {m S} (h : Rep m S) (fuel : Nat) (i : Nat) (hi : i ∈ S)
    (hf : m.handles.numBits < fuel + i + 1) :
    ∃ l, m.iterFrom fuel (some i) = some l ∧ l.Pairwise (· < ·) ∧
      (∀ x, x ∈ l ↔ x ∈ S ∧ i ≤ x) := by
  induction fuel generalizing i with
  | zero => have := h.bits.lt i hi; omega
  | succ fuel ih =>
    unfold HandleMgr.iterFrom
    obtain ⟨r, hr, hspec⟩ := h.bits.findNext i
    cases r with
    | none =>
      refine ⟨[i], ?_, by simp, ?_⟩
      · cases fuel <;> simp [hr, HandleMgr.iterFrom]
      · intro x
        simp only [List.mem_singleton]
        constructor
        · rintro rfl; exact ⟨hi, le_refl _⟩
        · rintro ⟨hx, hix⟩
          by_contra hne
          exact hspec x (by omega) hx
    | some p =>
      obtain ⟨h1, h2, h3⟩ := hspec
      obtain ⟨l, hl, hp, hm⟩ := ih p h2 (by omega)
      refine ⟨i :: l, by simp [hr, hl], ?_, ?_⟩
      · rw [List.pairwise_cons]
        refine ⟨?_, hp⟩
        intro x hx
        have := ((hm x).1 hx).2
        omega
      · intro x
        simp only [List.mem_cons, hm]
        constructor
        · rintro (rfl | ⟨a, b⟩)
          · exact ⟨hi, le_refl _⟩
          · exact ⟨a, by omega⟩
        · rintro ⟨a, b⟩
          by_cases hxi : x = i
          · exact Or.inl hxi
          · right
            refine ⟨a, ?_⟩
            by_contra hlt
            exact h3 x (by omega) (by omega) a

theorem Rep.iterate {m S} (h : Rep m S) :
    ∃ l, m.iterate = some l ∧ l.Pairwise (· < ·) ∧ (∀ x, x ∈ l ↔ x ∈ S) := by
  unfold HandleMgr.iterate
  have := h.bits.findFirst
  split at this
  · rename_i heq
    rw [heq]
    refine ⟨[], by simp [HandleMgr.iterFrom], by simp, by simp [this]⟩
  · rename_i p heq
    rw [heq]
    obtain ⟨l, h1, h2, h3⟩ := h.iterFrom (m.handles.numBits + 1) p this.1 (by omega)
    refine ⟨l, h1, h2, ?_⟩
    intro x
    rw [h3]
    constructor
    · exact fun a => a.1
    · intro hx
      refine ⟨hx, ?_⟩
      by_contra hlt
      exact this.2 x (by omega) hx

theorem Bitset_resize_words (ws : List (BitVec 64)) (n : Nat) (hn : ws.length ≤ n) (i : Nat) :
    Bitset.bitAt (Bitset.resizeWords ws n) i = Bitset.bitAt ws i := by
  unfold Bitset.bitAt Bitset.resizeWords
  rw [List.take_of_length_le hn]
  simp only [List.getD_eq_getElem?_getD, List.getElem?_append]
  split
  · rfl
  · rename_i h
    rw [List.getElem?_eq_none (by omega : ws.length ≤ i / 64)]
    rw [List.getElem?_replicate]
    split <;> simp

theorem _root_.Bm.Bitset.Rep.resize {b : Bitset} {S} (h : b.Rep S) (n : Nat) (hn : b.numBits ≤ n) :
    (b.resize n).Rep S := by
  have hl : b.words.length ≤ (n + 64 - 1) / 64 := by rw [h.len]; omega
  constructor
  · simp only [Bitset.resize, Bitset.resizeWords, List.length_append, List.length_take,
      List.length_replicate]
    omega
  · intro i
    simp only [Bitset.resize]
    rw [Bitset_resize_words _ _ hl, h.bit]
  · intro i hi
    have := h.lt i hi
    simp only [Bitset.resize]; omega
  · exact h.card

/-- `set_handle` is correct except when the slot is the cursor and lies just past the end. -/
theorem Rep.setHandle {m S} (h : Rep m S) (pos : Nat)
    (hne : ¬ (pos = m.firstUnset ∧ pos = m.handles.numBits)) :
    ∃ m', m.setHandle pos = some (decide (pos ∉ S), m') ∧ Rep m' (insert pos S) := by
  unfold HandleMgr.setHandle
  have hle := h.le
  have hs : ∀ h0 : Bitset, h0.Rep S → pos < h0.numBits →
      (m.firstUnset = pos → h0.numBits = m.handles.numBits) →
      ∃ m', (show Option (Bool × HandleMgr) from do
        let (ok, h) ← h0.set pos
        if !ok then return (false, { m with handles := h })
        if m.firstUnset = pos then
          let fu ← h.findUnsetNext pos
          return (true, { handles := h, firstUnset := fu.getD m.handles.numBits })
        else
          return (true, { m with handles := h })) =
        some (decide (pos ∉ S), m') ∧ Rep m' (insert pos S) := by
    intro h0 hr0 hlt hcur
    obtain ⟨b', hb', hn, hr⟩ := hr0.set hlt
    simp only [hb', Option.bind_eq_bind, Option.bind_some, Option.pure_def]
    by_cases hin : pos ∈ S
    · refine ⟨{ m with handles := b' }, by simp [hin], hr, ?_, ?_⟩
      · rw [Finset.insert_eq_of_mem hin]; exact h.free
      · rw [Finset.insert_eq_of_mem hin]; exact h.least
    · by_cases hfu : m.firstUnset = pos
      · obtain ⟨r, hr1, hr2, hr3, _, hr5⟩ := hr.findUnsetNext pos (by omega)
        have hN := hcur hfu
        rw [hn, hN] at hr2 hr3 hr5
        refine ⟨⟨b', r.getD m.handles.numBits⟩, by simp [hin, hfu, hr1], hr, hr3, ?_⟩
        intro j hj
        rcases Nat.lt_trichotomy j pos with h1 | h1 | h1
        · exact Finset.mem_insert_of_mem (h.least j (by omega))
        · simp [h1]
        · exact hr5 j h1 hj
      · refine ⟨{ m with handles := b' }, by simp [hin, hfu], hr, ?_, ?_⟩
        · simp only [Finset.mem_insert, not_or]
          exact ⟨hfu, h.free⟩
        · intro j hj
          exact Finset.mem_insert_of_mem (h.least j hj)
  by_cases hge : pos ≥ m.handles.numBits
  · simp only [hge, if_true]
    apply hs
    · exact h.bits.resize _ (by omega)
    · simp [Bitset.resize]
    · intro hfu; exfalso; apply hne; omega
  · simp only [hge, if_false]
    apply hs _ h.bits (by omega)
    intro _; rfl

end HandleMgr
end Bm
