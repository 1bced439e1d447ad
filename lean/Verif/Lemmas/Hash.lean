import Verif.Model.Hash
import Verif.Spec.Hash

/-!
# Hash functions: words and bits
-/

namespace Bm.Hash

open Spec

theorem parity_congr {f g : Nat → Bool} (n : Nat) (h : ∀ i, i < n → f i = g i) :
    parity f n = parity g n := by
  induction n with
  | zero => rfl
  | succ n ih => rw [parity, parity, ih (fun i hi => h i (by omega)), h n (by omega)]

theorem parity_false (n : Nat) : parity (fun _ => false) n = false := by
  induction n with
  | zero => rfl
  | succ n ih => rw [parity, ih]; rfl

theorem parity_xor (f g : Nat → Bool) (n : Nat) :
    parity (fun i => f i ^^ g i) n = (parity f n ^^ parity g n) := by
  induction n with
  | zero => rfl
  | succ n ih =>
    simp only [parity, ih]
    cases parity f n <;> cases parity g n <;> cases f n <;> cases g n <;> rfl

theorem parity_single (k n : Nat) (b : Bool) (h : k < n) :
    parity (fun i => decide (i = k) && b) n = b := by
  induction n with
  | zero => omega
  | succ n ih =>
    rw [parity]
    by_cases hk : k = n
    · subst hk
      rw [parity_congr k (g := fun _ => false), parity_false]
      · simp
      · intro i hi
        have : i ≠ k := by omega
        simp [this]
    · rw [ih (by omega)]
      have : n ≠ k := by omega
      simp [this]

theorem parity_add (f : Nat → Bool) (a b : Nat) :
    parity f (a + b) = (parity f a ^^ parity (fun i => f (a + i)) b) := by
  induction b with
  | zero => simp [parity]
  | succ b ih => rw [← Nat.add_assoc, parity, ih, parity, Bool.xor_assoc]

/-! ## Bits of words in memory -/

theorem bitAt_cons_lt (b : UInt8) (bs : Bytes) (i : Nat) (h : i < 8) :
    bitAt (b :: bs) i = b.toNat.testBit (7 - i) := by
  unfold bitAt
  have h1 : i / 8 = 0 := by omega
  have h2 : i % 8 = i := by omega
  rw [h1, h2]
  rfl

theorem bitAt_cons_ge (b : UInt8) (bs : Bytes) (i : Nat) : bitAt (b :: bs) (8 + i) = bitAt bs i := by
  unfold bitAt
  have h1 : (8 + i) / 8 = i / 8 + 1 := by omega
  have h2 : (8 + i) % 8 = i % 8 := by omega
  rw [h1, h2]
  rfl

theorem bitAt_nil (i : Nat) : bitAt [] i = false := by simp [bitAt]

theorem bitAt_drop (bs : Bytes) (n i : Nat) : bitAt (bs.drop n) i = bitAt bs (8 * n + i) := by
  unfold bitAt
  have h1 : (8 * n + i) / 8 = n + i / 8 := by omega
  have h2 : (8 * n + i) % 8 = i % 8 := by omega
  rw [h1, h2, List.getD_eq_getElem?_getD, List.getD_eq_getElem?_getD, List.getElem?_drop]

theorem bitAt_take (bs : Bytes) (n i : Nat) (h : i < 8 * n) : bitAt (bs.take n) i = bitAt bs i := by
  unfold bitAt
  rw [List.getD_eq_getElem?_getD, List.getD_eq_getElem?_getD, List.getElem?_take_of_lt (by omega)]

theorem bitAt_ge (bs : Bytes) (i : Nat) (h : 8 * bs.length ≤ i) : bitAt bs i = false := by
  unfold bitAt
  rw [List.getD_eq_getElem?_getD, List.getElem?_eq_none (by omega)]
  simp

theorem bitAt_append_left (xs ys : Bytes) (i : Nat) (h : i < 8 * xs.length) :
    bitAt (xs ++ ys) i = bitAt xs i := by
  unfold bitAt
  rw [List.getD_eq_getElem?_getD, List.getD_eq_getElem?_getD, List.getElem?_append_left (by omega)]

theorem bitAt_append_right (xs ys : Bytes) (i : Nat) :
    bitAt (xs ++ ys) (8 * xs.length + i) = bitAt ys i := by
  have := bitAt_drop (xs ++ ys) xs.length i
  rw [List.drop_left] at this
  exact this.symm

/-- The loop of `emitAsInteger`: the number made of the bytes. -/
theorem emit_bits (n : Nat) (bs : Bytes) (h : bs.length ≤ n) :
    ∃ v, emit n bs = some v ∧ ∀ t, t < 8 * n → v.getMsbD t = bitAt bs t := by
  -- bits of the folded value, counted from the right
  have key : ∀ (bs : Bytes) (r : BitVec (8 * n)) (i : Nat), i < 8 * n →
      (bs.foldl (fun (r : BitVec (8 * n)) (b : UInt8) => (r <<< 8) ||| BitVec.ofNat (8 * n) b.toNat)
        r).getLsbD i =
        if i < 8 * bs.length then bitAt bs (8 * bs.length - 1 - i)
        else r.getLsbD (i - 8 * bs.length) := by
    intro bs
    induction bs with
    | nil => intro r i hi; simp
    | cons b bs ih =>
      intro r i hi
      rw [List.foldl_cons, ih _ _ hi, List.length_cons]
      by_cases h1 : i < 8 * bs.length
      · rw [if_pos h1, if_pos (by omega)]
        have e : 8 * (bs.length + 1) - 1 - i = 8 + (8 * bs.length - 1 - i) := by omega
        rw [e, bitAt_cons_ge]
      · rw [if_neg h1, BitVec.getLsbD_or, BitVec.getLsbD_shiftLeft, BitVec.getLsbD_ofNat]
        by_cases h2 : i < 8 * (bs.length + 1)
        · rw [if_pos h2, bitAt_cons_lt _ _ _ (by omega)]
          have a1 : i - 8 * bs.length < 8 := by omega
          have a2 : i - 8 * bs.length < 8 * n := by omega
          have e : 7 - (8 * (bs.length + 1) - 1 - i) = i - 8 * bs.length := by omega
          rw [e]
          simp [a1, a2]
        · rw [if_neg h2]
          have a1 : ¬ i - 8 * bs.length < 8 := by omega
          have a2 : i - 8 * bs.length < 8 * n := by omega
          have a3 : b.toNat.testBit (i - 8 * bs.length) = false := by
            apply Nat.testBit_lt_two_pow
            have := b.toNat_lt
            have h2 : 2 ^ 8 ≤ 2 ^ (i - 8 * bs.length) := Nat.pow_le_pow_right (by omega) (by omega)
            omega
          have e : i - 8 * bs.length - 8 = i - 8 * (bs.length + 1) := by omega
          simp [a1, a2, a3, e]
  refine ⟨_, if_pos h, ?_⟩
  intro t ht
  rw [BitVec.getMsbD_eq_getLsbD, BitVec.getLsbD_shiftLeft]
  have a1 : 8 * n - 1 - t < 8 * n := by omega
  by_cases h1 : 8 * n - 1 - t < (n - bs.length) * 8
  · simp only [ht, a1, h1, decide_true, Bool.true_and, Bool.not_true, Bool.false_and]
    rw [bitAt_ge _ _ (by omega)]
  · simp only [ht, a1, h1, decide_true, decide_false, Bool.not_false, Bool.true_and]
    rw [key _ _ _ (by omega), if_pos (by omega)]
    congr 1
    omega

theorem ntohl_bits (b0 b1 b2 b3 : UInt8) (bs : Bytes) (t : Nat) (h : t < 32) :
    (ntohl b0 b1 b2 b3).getMsbD t = bitAt (b0 :: b1 :: b2 :: b3 :: bs) t := by
  have e : ∀ (b : UInt8) (i : Nat), i < 8 → b.toBitVec.getMsbD i = b.toNat.testBit (7 - i) := by
    intro b i hi
    rw [BitVec.getMsbD_eq_getLsbD]
    have : 8 - 1 - i = 7 - i := by omega
    simp [hi, this, BitVec.getLsbD]
  unfold ntohl
  simp only [BitVec.getMsbD_append]
  rcases Nat.lt_or_ge t 8 with h1 | h1
  · have a1 : t < 16 := by omega
    have a2 : t < 24 := by omega
    rw [bitAt_cons_lt _ _ _ h1]
    have b1' : ¬ 8 ≤ t := by omega
    have b2' : ¬ 16 ≤ t := by omega
    have b3' : ¬ 24 ≤ t := by omega
    simp [h1, a1, a2, b1', b2', b3', e b0 t h1]
  obtain ⟨t, rfl⟩ := Nat.exists_eq_add_of_le h1
  rw [bitAt_cons_ge]
  rcases Nat.lt_or_ge t 8 with h2 | h2
  · rw [bitAt_cons_lt _ _ _ h2]
    have a1 : ¬ 8 + t < 8 := by omega
    have a2 : 8 + t < 16 := by omega
    have a3 : 8 + t < 24 := by omega
    have a4 : 8 + t - 8 = t := by omega
    have b2' : ¬ 16 ≤ 8 + t := by omega
    have b3' : ¬ 24 ≤ 8 + t := by omega
    simp [a1, a2, a3, a4, b2', b3', e b1 t h2]
  obtain ⟨t, rfl⟩ := Nat.exists_eq_add_of_le h2
  rw [bitAt_cons_ge]
  rcases Nat.lt_or_ge t 8 with h3 | h3
  · rw [bitAt_cons_lt _ _ _ h3]
    have a2 : ¬ 8 + (8 + t) < 16 := by omega
    have a3 : 8 + (8 + t) < 24 := by omega
    have a4 : 8 + (8 + t) - 16 = t := by omega
    have b2' : 16 ≤ 8 + (8 + t) := by omega
    have b3' : ¬ 24 ≤ 8 + (8 + t) := by omega
    simp [a2, a3, a4, b2', b3', e b2 t h3]
  obtain ⟨t, rfl⟩ := Nat.exists_eq_add_of_le h3
  rw [bitAt_cons_ge, bitAt_cons_lt _ _ _ (by omega)]
  have a3 : ¬ 8 + (8 + (8 + t)) < 24 := by omega
  have a4 : 8 + (8 + (8 + t)) - 24 = t := by omega
  simp [a3, a4, e b3 t (by omega)]

theorem inputWords_bits (bs : Bytes) : ∃ ws, inputWords bs = some ws ∧
    ws.length = (bs.length + 3) / 4 ∧
    ∀ i, i < 32 * ws.length → (ws.getD (i / 32) 0).getMsbD (i % 32) = bitAt bs i := by
  induction bs using inputWords.induct with
  | case1 b0 b1 b2 b3 bs ih =>
    obtain ⟨ws, h1, h2, h3⟩ := ih
    refine ⟨ntohl b0 b1 b2 b3 :: ws, by simp [inputWords, h1], ?_, ?_⟩
    · simp only [List.length_cons, h2]
      omega
    · intro i hi
      rw [List.length_cons] at hi
      by_cases h : i < 32
      · have e1 : i / 32 = 0 := by omega
        have e2 : i % 32 = i := by omega
        rw [e1, e2, List.getD_cons_zero]
        exact ntohl_bits _ _ _ _ _ _ h
      · obtain ⟨j, rfl⟩ := Nat.exists_eq_add_of_le (Nat.le_of_not_lt h)
        have e1 : (32 + j) / 32 = j / 32 + 1 := by omega
        have e2 : (32 + j) % 32 = j % 32 := by omega
        rw [e1, e2, List.getD_cons_succ, h3 j (by omega)]
        rw [show 32 + j = 8 + (8 + (8 + (8 + j))) by omega, bitAt_cons_ge, bitAt_cons_ge, bitAt_cons_ge,
          bitAt_cons_ge]
  | case2 => exact ⟨[], rfl, rfl, by simp⟩
  | case3 bs h1 h2 =>
    have hl : bs.length ≤ 3 ∧ 0 < bs.length := by
      rcases bs with _ | ⟨b0, _ | ⟨b1, _ | ⟨b2, _ | ⟨b3, bs⟩⟩⟩⟩
      · exact (h2 rfl).elim
      · simp
      · simp
      · simp
      · exact (h1 _ _ _ _ _ rfl).elim
    obtain ⟨v, hv, hb⟩ := emit_bits 4 bs (by omega)
    refine ⟨[v], ?_, ?_, ?_⟩
    · rw [inputWords]
      · simp [hv]
      · exact h1
      · exact h2
    · simp only [List.length_cons, List.length_nil]
      omega
    · intro i hi
      simp only [List.length_cons, List.length_nil] at hi
      have e1 : i / 32 = 0 := by omega
      have e2 : i % 32 = i := by omega
      rw [e1, e2, List.getD_cons_zero]
      exact hb i (by omega)

theorem keyWords_bits (bs : Bytes) (h : bs.length % 4 = 0) :
    (keyWords bs).length = bs.length / 4 ∧
    ∀ i, i < 8 * bs.length → ((keyWords bs).getD (i / 32) 0).getMsbD (i % 32) = bitAt bs i := by
  induction bs using keyWords.induct with
  | case1 b0 b1 b2 b3 bs ih =>
    have hb : bs.length % 4 = 0 := by simp only [List.length_cons] at h; omega
    obtain ⟨h2, h3⟩ := ih hb
    refine ⟨?_, ?_⟩
    · simp only [keyWords, List.length_cons, h2]
      omega
    · intro i hi
      simp only [List.length_cons] at hi
      rw [keyWords]
      by_cases h : i < 32
      · have e1 : i / 32 = 0 := by omega
        have e2 : i % 32 = i := by omega
        rw [e1, e2, List.getD_cons_zero]
        exact ntohl_bits _ _ _ _ _ _ h
      · obtain ⟨j, rfl⟩ := Nat.exists_eq_add_of_le (Nat.le_of_not_lt h)
        have e1 : (32 + j) / 32 = j / 32 + 1 := by omega
        have e2 : (32 + j) % 32 = j % 32 := by omega
        rw [e1, e2, List.getD_cons_succ, h3 j (by omega)]
        rw [show 32 + j = 8 + (8 + (8 + (8 + j))) by omega, bitAt_cons_ge, bitAt_cons_ge, bitAt_cons_ge,
          bitAt_cons_ge]
  | case2 bs h1 =>
    rcases bs with _ | ⟨b0, _ | ⟨b1, _ | ⟨b2, _ | ⟨b3, bs⟩⟩⟩⟩
    · exact ⟨rfl, by simp⟩
    · simp at h
    · simp at h
    · simp at h
    · exact (h1 _ _ _ _ _ rfl).elim

/-! ## The inner loop -/

/-- The window of the key that belongs to input bit `i`. -/
theorem window_bits (l r : BitVec 32) (i t : Nat) (hi : i < 32) (ht : t < 32) :
    ((l <<< i) ||| (r.setWidth 64 >>> (32 - i)).setWidth 32).getMsbD t =
      if i + t < 32 then l.getMsbD (i + t) else r.getMsbD (i + t - 32) := by
  simp only [BitVec.getMsbD_eq_getLsbD, BitVec.getLsbD_or, BitVec.getLsbD_shiftLeft,
    BitVec.getLsbD_setWidth, BitVec.getLsbD_ushiftRight, ht, decide_true, Bool.true_and]
  have a0 : 32 - 1 - t < 32 := by omega
  by_cases h : i + t < 32
  · have a1 : ¬ 32 - 1 - t < i := by omega
    have a2 : r.getLsbD (32 - i + (32 - 1 - t)) = false := BitVec.getLsbD_of_ge _ _ (by omega)
    have e : 32 - 1 - t - i = 32 - 1 - (i + t) := by omega
    simp only [h, a0, a1, a2, e, decide_true, decide_false, Bool.not_false, Bool.true_and, Bool.and_false,
      Bool.or_false, if_true]
  · have a1 : 32 - 1 - t < i := by omega
    have a2 : 32 - i + (32 - 1 - t) < 64 := by omega
    have a3 : i + t - 32 < 32 := by omega
    have e : 32 - i + (32 - 1 - t) = 32 - 1 - (i + t - 32) := by omega
    simp only [h, a0, a1, a3, decide_true, Bool.not_true, Bool.true_and, Bool.false_and, Bool.and_false,
      Bool.false_or, if_false]
    rw [← e]
    simp [a2]

/-- Clearing the lowest set bit. -/
theorem clear_lowest (x : BitVec 32) (k : Nat) (hk : x.getLsbD k = true)
    (hlow : ∀ i, i < k → x.getLsbD i = false) (i : Nat) :
    (x &&& (x - 1)).getLsbD i = (x.getLsbD i && !decide (i = k)) := by
  have hk32 : k < 32 := by
    rcases Nat.lt_or_ge k 32 with h | h
    · exact h
    · rw [BitVec.getLsbD_of_ge _ _ h] at hk
      cases hk
  -- x = 2^k * (2 m + 1)
  have hmod : x.toNat % 2 ^ k = 0 := by
    apply Nat.eq_of_testBit_eq
    intro j
    rw [Nat.testBit_mod_two_pow, Nat.zero_testBit]
    by_cases hj : j < k
    · have := hlow j hj
      rw [← BitVec.testBit_toNat] at this
      simp [this]
    · simp [hj]
  have hodd : x.toNat / 2 ^ k % 2 = 1 := by
    rw [← BitVec.testBit_toNat, Nat.testBit_eq_decide_div_mod_eq] at hk
    simpa using hk
  have hx : x.toNat = 2 ^ k * (2 * (x.toNat / 2 ^ k / 2) + 1) := by
    have h1 := Nat.div_add_mod x.toNat (2 ^ k)
    rw [hmod, Nat.add_zero] at h1
    have h2 := Nat.div_add_mod (x.toNat / 2 ^ k) 2
    rw [hodd] at h2
    rw [h2, h1]
  generalize x.toNat / 2 ^ k / 2 = m at hx
  have hp : 0 < 2 ^ k := Nat.pow_pos (by omega)
  have hx1 : (x - 1).toNat = 2 ^ k * (2 * m) + (2 ^ k - 1) := by
    rw [BitVec.toNat_sub_of_le]
    · rw [hx, Nat.mul_add, Nat.mul_one]
      show 2 ^ k * (2 * m) + 2 ^ k - 1 = _
      omega
    · rw [BitVec.le_def, hx, Nat.mul_add, Nat.mul_one]
      show 1 ≤ _
      omega
  rw [BitVec.getLsbD_and, ← BitVec.testBit_toNat (x - 1), hx1,
    Nat.testBit_two_pow_mul_add _ (by omega)]
  by_cases h1 : i < k
  · simp [hlow i h1]
  · rw [if_neg h1]
    by_cases h2 : i = k
    · subst h2
      simp
    · have e : x.getLsbD i = (2 * m + 1).testBit (i - k) := by
        rw [← BitVec.testBit_toNat, hx, Nat.testBit_two_pow_mul]
        simp
        omega
      obtain ⟨j, hj⟩ : ∃ j, i - k = j + 1 := ⟨i - k - 1, by omega⟩
      rw [e, hj, Nat.testBit_succ, Nat.testBit_succ]
      have : (2 * m + 1) / 2 = m := by omega
      have h4 : 2 * m / 2 = m := by omega
      rw [this, h4]
      simp [h2]

theorem ctz_spec (x : BitVec 32) (hx : x ≠ 0) : ∃ k, ctz x = some k ∧ k < 32 ∧
    x.getLsbD k = true ∧ ∀ i, i < k → x.getLsbD i = false := by
  unfold ctz
  rcases h : (List.range 32).find? fun i => x.getLsbD i with _ | k
  · exfalso
    apply hx
    rw [List.find?_eq_none] at h
    apply BitVec.eq_of_getLsbD_eq
    intro i hi
    have := h i (List.mem_range.mpr hi)
    simpa using this
  · rw [List.find?_range_eq_some] at h
    obtain ⟨h1, h2, h3⟩ := h
    refine ⟨k, rfl, by simpa using h2, h1, ?_⟩
    intro i hi
    have := h3 i hi
    simpa using this

theorem wordLoop_bits (l r : BitVec 32) (n : Nat) : ∀ (c : Nat) (x acc : BitVec 32), 32 ≤ n + c →
    (∀ i, i < c → x.getLsbD i = false) →
    ∃ h, wordLoop l r n x acc = some h ∧ ∀ t, t < 32 → h.getMsbD t = (acc.getMsbD t ^^
      parity (fun j => x.getMsbD j &&
        if j + t < 32 then l.getMsbD (j + t) else r.getMsbD (j + t - 32)) 32) := by
  have zero : ∀ (acc : BitVec 32) (t : Nat), acc.getMsbD t = (acc.getMsbD t ^^
      parity (fun j => (0 : BitVec 32).getMsbD j &&
        if j + t < 32 then l.getMsbD (j + t) else r.getMsbD (j + t - 32)) 32) := by
    intro acc t
    rw [parity_congr 32 (g := fun _ => false) (fun i _ => by simp), parity_false, Bool.xor_false]
  induction n with
  | zero =>
    intro c x acc hc hx
    have : x = 0 := by
      apply BitVec.eq_of_getLsbD_eq
      intro i hi
      rw [hx i (by omega)]
      simp
    subst this
    exact ⟨acc, by simp [wordLoop], fun t _ => zero acc t⟩
  | succ n ih =>
    intro c x acc hc hx
    by_cases h0 : x = 0
    · subst h0
      exact ⟨acc, by simp [wordLoop], fun t _ => zero acc t⟩
    · obtain ⟨k, h1, h2, h3, h4⟩ := ctz_spec x h0
      have hck : c ≤ k := by
        rcases Nat.lt_or_ge k c with h | h
        · rw [hx k h] at h3
          cases h3
        · exact h
      have hcl := clear_lowest x k h3 h4
      obtain ⟨h, g1, g2⟩ := ih (k + 1) (x &&& (x - 1))
        (acc ^^^ (l <<< (31 - k) ||| (r.setWidth 64 >>> (32 - (31 - k))).setWidth 32)) (by omega) (by
          intro i hi
          rw [hcl]
          by_cases hik : i = k
          · simp [hik]
          · rw [h4 i (by omega)]
            rfl)
      refine ⟨h, ?_, ?_⟩
      · simp only [wordLoop, h0, if_false, h1, Option.bind_eq_bind, Option.bind_some]
        exact g1
      · intro t ht
        rw [g2 t ht, BitVec.getMsbD_xor, window_bits l r (31 - k) t (by omega) ht, Bool.xor_assoc]
        congr 1
        rw [← parity_single (31 - k) 32 (if 31 - k + t < 32 then l.getMsbD (31 - k + t)
          else r.getMsbD (31 - k + t - 32)) (by omega), ← parity_xor]
        refine parity_congr 32 ?_
        intro j hj
        have hm : (x &&& (x - 1)).getMsbD j = (x.getMsbD j && !decide (j = 31 - k)) := by
          rw [BitVec.getMsbD_eq_getLsbD, BitVec.getMsbD_eq_getLsbD, hcl]
          have a : decide (32 - 1 - j = k) = decide (j = 31 - k) := decide_eq_decide.mpr (by omega)
          rw [a, Bool.and_assoc]
        have hxk : x.getMsbD (31 - k) = true := by
          rw [BitVec.getMsbD_eq_getLsbD]
          have a : 32 - 1 - (31 - k) = k := by omega
          have a' : 31 - k < 32 := by omega
          rw [a, h3]
          simp [a']
        rw [hm]
        by_cases hjk : j = 31 - k
        · rw [hjk, hxk]
          simp
        · simp [hjk]

/-! ## The outer loop -/

/-- Bit `n` of the repeated key, as words. -/
def keyBit (key : List (BitVec 32)) (n : Nat) : Bool :=
  (key.getD (n / 32 % key.length) 0).getMsbD (n % 32)

theorem toeplitzLoop_bits (key : List (BitVec 32)) (hk : key ≠ []) (xs : List (BitVec 32)) :
    ∀ (i : Nat) (acc : BitVec 32), ∃ h, toeplitzLoop key i xs acc = some h ∧
      ∀ t, t < 32 → h.getMsbD t = (acc.getMsbD t ^^
        parity (fun b => (xs.getD (b / 32) 0).getMsbD (b % 32) && keyBit key (32 * i + b + t))
          (32 * xs.length)) := by
  induction xs with
  | nil =>
    intro i acc
    refine ⟨acc, rfl, ?_⟩
    intro t _
    simp [parity]
  | cons x xs ih =>
    intro i acc
    have hl : 0 < key.length := List.length_pos_iff.mpr hk
    obtain ⟨l, hl1⟩ : ∃ l, key[i % key.length]? = some l :=
      ⟨_, List.getElem?_eq_getElem (Nat.mod_lt _ hl)⟩
    obtain ⟨r, hr1⟩ : ∃ r, key[(i + 1) % key.length]? = some r :=
      ⟨_, List.getElem?_eq_getElem (Nat.mod_lt _ hl)⟩
    obtain ⟨a, ha1, ha2⟩ := wordLoop_bits l r 32 0 x acc (by omega) (by omega)
    obtain ⟨h, hh1, hh2⟩ := ih (i + 1) a
    refine ⟨h, ?_, ?_⟩
    · simp only [toeplitzLoop, hl1, hr1, ha1, Option.bind_eq_bind, Option.bind_some]
      exact hh1
    · intro t ht
      rw [hh2 t ht, ha2 t ht, Bool.xor_assoc, List.length_cons,
        show 32 * (xs.length + 1) = 32 + 32 * xs.length by omega, parity_add]
      congr 2
      · refine parity_congr 32 ?_
        intro j hj
        have e1 : j / 32 = 0 := by omega
        have e2 : j % 32 = j := by omega
        rw [e1, e2, List.getD_cons_zero]
        congr 1
        unfold keyBit
        split
        · have e3 : (32 * i + j + t) / 32 = i := by omega
          have e4 : (32 * i + j + t) % 32 = j + t := by omega
          rw [e3, e4, List.getD_eq_getElem?_getD, hl1]
          rfl
        · have e3 : (32 * i + j + t) / 32 = i + 1 := by omega
          have e4 : (32 * i + j + t) % 32 = j + t - 32 := by omega
          rw [e3, e4, List.getD_eq_getElem?_getD, hr1]
          rfl
      · refine parity_congr _ ?_
        intro j _
        have e1 : (32 + j) / 32 = j / 32 + 1 := by omega
        have e2 : (32 + j) % 32 = j % 32 := by omega
        have e3 : 32 * i + (32 + j) + t = 32 * (i + 1) + j + t := by omega
        rw [e1, e2, e3, List.getD_cons_succ]

/-! ## Exclusive or of words -/

theorem xorLoop_bits (n : Nat) (hn : 0 < n) (k : Nat) : ∀ (bs : Bytes) (acc : BitVec (8 * n)),
    bs.length < k → ∃ h, xorLoop n k bs acc = some h ∧ ∀ t, t < 8 * n →
      h.getMsbD t = (acc.getMsbD t ^^ parity (fun m => bitAt bs (8 * n * m + t)) k) := by
  induction k with
  | zero => intro bs acc h; omega
  | succ k ih =>
    intro bs acc hk
    by_cases hl : bs.length ≥ n
    · obtain ⟨e, he1, he2⟩ := emit_bits n (bs.take n) (by rw [List.length_take]; omega)
      obtain ⟨h, hh1, hh2⟩ := ih (bs.drop n) (acc ^^^ e) (by rw [List.length_drop]; omega)
      refine ⟨h, ?_, ?_⟩
      · simp only [xorLoop, hl, if_true, he1, Option.bind_eq_bind, Option.bind_some]
        exact hh1
      · intro t ht
        rw [hh2 t ht, BitVec.getMsbD_xor, he2 t ht, Nat.add_comm k 1, parity_add, Bool.xor_assoc,
          bitAt_take _ _ _ ht]
        congr 2
        · simp [parity]
        · refine parity_congr _ ?_
          intro m _
          rw [bitAt_drop]
          congr 1
          rw [Nat.mul_add, Nat.mul_one, Nat.add_assoc]
    · obtain ⟨e, he1, he2⟩ := emit_bits n bs (by omega)
      refine ⟨acc ^^^ e, ?_, ?_⟩
      · simp only [xorLoop, hl, if_false, he1, Option.bind_eq_bind, Option.bind_some, Option.pure_def]
      · intro t ht
        rw [BitVec.getMsbD_xor, he2 t ht, Nat.add_comm k 1, parity_add]
        rw [parity_congr k (g := fun _ => false), parity_false]
        · simp [parity]
        · intro m _
          apply bitAt_ge
          have : 8 * n * 1 ≤ 8 * n * (1 + m) := Nat.mul_le_mul_left _ (by omega)
          omega

end Bm.Hash
