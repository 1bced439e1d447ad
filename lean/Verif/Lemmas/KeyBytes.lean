import Verif.Spec.KeyBuilder
import Verif.Lemmas.LookupLaws

/-! # Byte strings as numbers: masks and prefixes -/

namespace Bm
open Spec

theorem bytesNat_lt_two (l : List UInt8) : bytesNat l < 2 ^ (8 * l.length) := by
  have := bytesNat_lt l
  rwa [show (256 : Nat) = 2 ^ 8 from rfl, ← pow_mul] at this

theorem bytesNat_cons (b : UInt8) (l : List UInt8) :
    bytesNat (b :: l) = 2 ^ (8 * l.length) * b.toNat + bytesNat l := by
  simp only [bytesNat]
  rw [show (256 : Nat) = 2 ^ 8 from rfl, ← pow_mul, Nat.mul_comm]

theorem bytesNat_eq_bitsNat (l : List UInt8) : bytesNat l = bitsNat (bytesBits l) := by
  induction l with
  | nil => rfl
  | cons b l ih =>
    rw [bytesNat_cons, bytesBits_cons, bitsNat_append, ih, bitsNat_byteBits, bytesBits_length]
    ring

theorem natBits_bytesNat (l : List UInt8) : natBits (8 * l.length) (bytesNat l) = bytesBits l := by
  rw [bytesNat_eq_bitsNat]
  exact natBits_bitsNat' _ (by simp)

theorem bytesNat_inj {a b : List UInt8} (hl : a.length = b.length) (h : bytesNat a = bytesNat b) :
    a = b := by
  apply bytesBits_inj
  rw [← natBits_bytesNat, ← natBits_bytesNat, hl, h]

theorem bytesNat_and (a b : List UInt8) (hl : a.length = b.length) :
    bytesNat (List.zipWith (· &&& ·) a b) = bytesNat a &&& bytesNat b := by
  induction a generalizing b with
  | nil => cases b <;> simp [bytesNat]
  | cons x a ih =>
    cases b with
    | nil => simp at hl
    | cons y b =>
      have hl' : a.length = b.length := by simpa using hl
      have hz : (List.zipWith (· &&& ·) a b).length = a.length := by simp [hl']
      rw [List.zipWith_cons_cons, bytesNat_cons, bytesNat_cons, bytesNat_cons, ih b hl', hz, ← hl',
        UInt8.toNat_and]
      have h1 := bytesNat_lt_two a
      have h2 := bytesNat_lt_two b
      rw [← hl'] at h2
      apply Nat.eq_of_testBit_eq
      intro i
      rw [Nat.testBit_and, Nat.testBit_two_pow_mul_add _ h1, Nat.testBit_two_pow_mul_add _ h2,
        Nat.testBit_two_pow_mul_add _ (Nat.and_lt_two_pow _ h2)]
      split <;> rw [Nat.testBit_and]

theorem and_ff (a : List UInt8) (n : Nat) (h : a.length = n) :
    List.zipWith (· &&& ·) a (List.replicate n (0xff : UInt8)) = a := by
  subst h
  induction a with
  | nil => rfl
  | cons x a ih =>
    simp only [List.length_cons, List.replicate_succ, List.zipWith_cons_cons, ih]
    congr 1
    have : ∀ x : UInt8, x &&& 0xff = x := by
      intro x
      have h : x.toBitVec &&& 0xff#8 = x.toBitVec := by
        have : (0xff#8) = BitVec.allOnes 8 := rfl
        rw [this, BitVec.and_allOnes]
      exact UInt8.toBitVec_inj.mp h
    exact this x

theorem byte0Mask_toNat (b : UInt8) (w : Nat) :
    (b &&& byte0Mask w).toNat = if w % 8 = 0 then b.toNat else b.toNat % 2 ^ (w % 8) := by
  unfold byte0Mask
  split
  · rename_i h
    rw [UInt8.toNat_and]
    have : (0xff : UInt8).toNat = 2 ^ 8 - 1 := rfl
    rw [this, Nat.and_two_pow_sub_one_eq_mod]
    exact Nat.mod_eq_of_lt b.toNat_lt
  · rw [UInt8.toNat_and, UInt8.toNat_ofNat', Nat.shiftLeft_eq, Nat.one_mul]
    have h8 : 2 ^ (w % 8) ≤ 2 ^ 8 := Nat.pow_le_pow_right (by omega) (by omega)
    have : 1 ≤ 2 ^ (w % 8) := Nat.one_le_two_pow
    rw [Nat.mod_eq_of_lt (by omega), Nat.and_two_pow_sub_one_eq_mod]

/-- Masking the first byte reduces the number to the width of the field. -/
theorem bytesNat_byte0 (k : List UInt8) (w : Nat) (hw : 1 ≤ w) (hk : k.length = (w + 7) / 8) :
    ∃ b r, k = b :: r ∧ bytesNat ((b &&& byte0Mask w) :: r) = bytesNat k % 2 ^ w := by
  cases k with
  | nil => simp at hk; omega
  | cons b r =>
    refine ⟨b, r, rfl, ?_⟩
    rw [bytesNat_cons, bytesNat_cons, byte0Mask_toNat]
    simp only [List.length_cons] at hk
    have hr := bytesNat_lt_two r
    have hb := b.toNat_lt
    split
    · rename_i h0
      have : w = 8 * r.length + 8 := by omega
      rw [this, Nat.mod_eq_of_lt]
      rw [pow_add]
      have : 2 ^ (8 * r.length) * b.toNat + 2 ^ (8 * r.length) ≤ 2 ^ (8 * r.length) * 2 ^ 8 := by
        rw [← Nat.mul_succ]
        exact Nat.mul_le_mul_left _ hb
      omega
    · rename_i h0
      have : w = 8 * r.length + w % 8 := by omega
      conv_rhs => rw [this]
      rw [pow_add, Nat.mod_mul, Nat.mul_add_mod, Nat.mod_eq_of_lt hr,
        Nat.mul_add_div (by positivity), Nat.div_eq_of_lt hr]
      rw [Nat.add_zero, Nat.add_comm]

/-! ## Masks made from prefix lengths -/

theorem byteBits_ofNat (p : Nat) (h : p < 8) : byteBits (UInt8.ofNat (0xff <<< (8 - p))) =
    List.replicate p true ++ List.replicate (8 - p) false := by
  have : ∀ p : Fin 8, byteBits (UInt8.ofNat (0xff <<< (8 - p.1))) =
    List.replicate p.1 true ++ List.replicate (8 - p.1) false := by decide +kernel
  exact this ⟨p, h⟩

theorem bytesBits_replicate_ff (n : Nat) :
    bytesBits (List.replicate n (0xff : UInt8)) = List.replicate (8 * n) true := by
  induction n with
  | zero => rfl
  | succ n ih =>
    rw [List.replicate_succ, bytesBits_cons, ih, show byteBits 0xff = List.replicate 8 true from by
      decide +kernel, ← List.replicate_add]
    congr 1; omega

theorem bytesBits_replicate_zero (n : Nat) :
    bytesBits (List.replicate n (0 : UInt8)) = List.replicate (8 * n) false := by
  induction n with
  | zero => rfl
  | succ n ih =>
    rw [List.replicate_succ, bytesBits_cons, ih, show byteBits 0 = List.replicate 8 false from by
      decide +kernel, ← List.replicate_add]
    congr 1; omega

theorem createMask_bits (p size : Nat) (h : p ≤ 8 * size) :
    ∃ m, createMask p size = some m ∧ m.length = size ∧
      bytesBits m = List.replicate p true ++ List.replicate (8 * size - p) false := by
  unfold createMask
  rw [if_pos (by omega)]
  simp only []
  split
  · rename_i h0
    rw [if_pos (by omega)]
    refine ⟨_, rfl, by simp; omega, ?_⟩
    rw [List.set_append_right _ _ (by simp)]
    obtain ⟨k, hk⟩ : ∃ k, size - p / 8 = k + 1 := ⟨size - p / 8 - 1, by omega⟩
    rw [hk, List.length_replicate, Nat.sub_self, List.replicate_succ, List.set_cons_zero,
      bytesBits_append, bytesBits_cons, bytesBits_replicate_ff, bytesBits_replicate_zero,
      byteBits_ofNat _ (by omega), ← List.append_assoc, ← List.append_assoc, ← List.replicate_add,
      List.append_assoc, ← List.replicate_add]
    congr 2 <;> omega
  · rename_i h0
    refine ⟨_, rfl, by simp; omega, ?_⟩
    rw [bytesBits_append, bytesBits_replicate_ff, bytesBits_replicate_zero]
    congr 2 <;> omega

theorem popByte_eq (b : UInt8) : popByte b.toBitVec = (byteBits b).count true := by
  have : ∀ v : BitVec 8, popByte v = (byteBits ⟨v⟩).count true := by decide +kernel
  exact this b.toBitVec

theorem prefLenFromMask_eq (m : List UInt8) : prefLenFromMask m = (bytesBits m).count true := by
  induction m with
  | nil => rfl
  | cons b m ih =>
    rw [prefLenFromMask, ih, bytesBits_cons, List.count_append]
    split
    · rename_i h; subst h; rfl
    · rw [popByte_eq]

theorem prefLen_createMask {p size : Nat} {m : List UInt8} (h : p ≤ 8 * size)
    (e : createMask p size = some m) : prefLenFromMask m = p := by
  obtain ⟨m', e', _, hb⟩ := createMask_bits p size h
  rw [e] at e'
  simp only [Option.some.injEq] at e'
  subst e'
  rw [prefLenFromMask_eq, hb, List.count_append, List.count_replicate, List.count_replicate]
  simp

/-- Masking with a prefix mask clears the low bits. -/
theorem and_prefixMask {p size : Nat} {m : List UInt8} (h : p ≤ 8 * size)
    (hb : bytesBits m = List.replicate p true ++ List.replicate (8 * size - p) false)
    (hm : m.length = size) (x : Nat) (hx : x < 2 ^ (8 * size)) :
    x &&& bytesNat m = x / 2 ^ (8 * size - p) * 2 ^ (8 * size - p) := by
  apply Nat.eq_of_testBit_eq
  intro i
  rw [Nat.testBit_and, Nat.testBit_mul_two_pow, Nat.testBit_div_two_pow]
  by_cases hi : i < 8 * size
  · have e := natBits_getElem? (8 * size) (bytesNat m) (8 * size - 1 - i)
    rw [if_pos (by omega), show 8 * size - 1 - (8 * size - 1 - i) = i from by omega, ← hm,
      natBits_bytesNat, hb, hm, List.getElem?_append, List.length_replicate] at e
    by_cases h1 : 8 * size - 1 - i < p
    · rw [if_pos h1, List.getElem?_replicate, if_pos h1] at e
      simp only [Option.some.injEq] at e
      rw [← e, Bool.and_true, decide_eq_true (by omega), Bool.true_and]
      congr 1; omega
    · rw [if_neg h1, List.getElem?_replicate, if_pos (by omega)] at e
      simp only [Option.some.injEq] at e
      rw [← e, Bool.and_false, decide_eq_false (by omega), Bool.false_and]
  · have : x.testBit i = false :=
      Nat.testBit_lt_two_pow (lt_of_lt_of_le hx (Nat.pow_le_pow_right (by omega) (by omega)))
    rw [this, Bool.false_and]
    by_cases h2 : 8 * size - p ≤ i
    · rw [show i - (8 * size - p) + (8 * size - p) = i from by omega, this, Bool.and_false]
    · rw [decide_eq_false (by omega), Bool.false_and]

theorem take_bytesBits_eq {n p : Nat} {a b : List UInt8} (ha : a.length = n) (hb : b.length = n)
    (hp : p ≤ 8 * n) : (bytesBits a).take p = (bytesBits b).take p ↔
      bytesNat a / 2 ^ (8 * n - p) = bytesNat b / 2 ^ (8 * n - p) := by
  rw [← natBits_bytesNat a, ← natBits_bytesNat b, ha, hb, take_natBits _ _ _ hp,
    take_natBits _ _ _ hp]
  constructor
  · intro h
    have := congrArg bitsNat h
    rw [bitsNat_natBits, bitsNat_natBits] at this
    have lt (l : List UInt8) (hl : l.length = n) : bytesNat l / 2 ^ (8 * n - p) < 2 ^ p := by
      apply Nat.div_lt_of_lt_mul
      rw [← pow_add, Nat.sub_add_cancel hp, ← hl]
      exact bytesNat_lt_two l
    rwa [Nat.mod_eq_of_lt (lt a ha), Nat.mod_eq_of_lt (lt b hb)] at this
  · intro h; rw [h]

end Bm
