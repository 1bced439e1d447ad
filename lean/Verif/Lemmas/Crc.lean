import Verif.Model.Crc
import Verif.Spec.Crc
import Mathlib.Algebra.CharP.Two
import Mathlib.Algebra.Polynomial.Monic
import Mathlib.Algebra.CharP.Algebra
import Mathlib.Algebra.Field.ZMod
import Mathlib.Tactic.LinearCombination

/-!
# CRCs: words as polynomials
-/

namespace Bm.Crc

open Polynomial Spec

theorem bit_xor (a b : Bool) : bit (a ^^ b) = bit a + bit b := by
  cases a <;> cases b <;> decide

theorem coeff_ofWord {w : Nat} (v : BitVec w) (n : Nat) : (ofWord v).coeff n = bit (v.getLsbD n) := by
  simp only [ofWord, finsetSum_coeff, coeff_C_mul, coeff_X_pow, mul_ite, mul_one, mul_zero,
    Finset.sum_ite_eq, Finset.mem_range]
  split
  · rfl
  · rw [BitVec.getLsbD_of_ge _ _ (by omega)]
    rfl

theorem ofWord_xor {w : Nat} (a b : BitVec w) : ofWord (a ^^^ b) = ofWord a + ofWord b := by
  ext n
  simp only [coeff_add, coeff_ofWord, BitVec.getLsbD_xor, bit_xor]

theorem ofWord_shl {w : Nat} (v : BitVec w) (k : Nat) (hk : k ≤ w) :
    ofWord (v <<< k) = X ^ k * ofWord v - ofWord (v >>> (w - k)) * X ^ w := by
  ext n
  simp only [coeff_sub, coeff_X_pow_mul', coeff_mul_X_pow', coeff_ofWord, BitVec.getLsbD_shiftLeft,
    BitVec.getLsbD_ushiftRight]
  by_cases h1 : k ≤ n
  · by_cases h2 : w ≤ n
    · have e : w - k + (n - w) = n - k := by omega
      simp [h1, h2, e, bit]
    · have e : ¬ n < k := by omega
      have e' : n < w := by omega
      simp [h1, h2, e, e']
  · have h2 : ¬ w ≤ n := by omega
    have e : n < k := by omega
    simp [h1, h2, e, bit]

theorem degree_ofWord {w : Nat} (v : BitVec w) : (ofWord v).degree < w := by
  rw [degree_lt_iff_coeff_zero]
  intro m hm
  rw [coeff_ofWord, BitVec.getLsbD_of_ge _ _ hm]
  rfl

theorem monic_generator {w : Nat} (p : BitVec w) : (generator p).Monic :=
  monic_X_pow_add (degree_ofWord p)

theorem degree_generator {w : Nat} (p : BitVec w) : (generator p).degree = w := by
  unfold generator
  rw [degree_add_eq_left_of_degree_lt, degree_X_pow]
  rw [degree_X_pow]
  exact degree_ofWord p

theorem mod_eq {w : Nat} (p : BitVec w) {f : (ZMod 2)[X]} {r : BitVec w}
    (h : generator p ∣ f - ofWord r) : f %ₘ generator p = ofWord r := by
  obtain ⟨q, hq⟩ := h
  refine (div_modByMonic_unique q (ofWord r) (monic_generator p) ⟨?_, ?_⟩).2
  · rw [← hq]
    ring
  · rw [degree_generator]
    exact degree_ofWord r

theorem ofWord_bit {w : Nat} (v : BitVec w) (hw : 1 ≤ w) :
    ofWord (v >>> (w - 1)) = C (bit (v.getLsbD (w - 1))) := by
  ext n
  rw [coeff_ofWord, BitVec.getLsbD_ushiftRight, coeff_C]
  split
  · subst n
    rfl
  · rw [BitVec.getLsbD_of_ge _ _ (by omega)]
    rfl

theorem divideBit_dvd {w : Nat} (p r : BitVec w) (hw : 1 ≤ w) :
    generator p ∣ X * ofWord r - ofWord (divideBit p r) := by
  have hs := ofWord_shl r 1 hw
  rw [ofWord_bit r hw, pow_one] at hs
  unfold divideBit
  split
  · rename_i h
    rw [h] at hs
    rw [ofWord_xor, hs]
    refine ⟨1, ?_⟩
    have h2 : (2 : (ZMod 2)[X]) = 0 := CharTwo.two_eq_zero
    unfold generator
    simp only [bit, if_true, C_1, one_mul]
    linear_combination (-ofWord p) * h2
  · rename_i h
    rw [Bool.not_eq_true] at h
    rw [h] at hs
    rw [hs]
    simp [bit]

theorem divideBits_dvd {w : Nat} (p : BitVec w) (hw : 1 ≤ w) (n : Nat) : ∀ r : BitVec w,
    generator p ∣ X ^ n * ofWord r - ofWord (divideBits p n r) := by
  induction n with
  | zero => intro r; simp [divideBits]
  | succ n ih =>
    intro r
    rw [divideBits]
    obtain ⟨q1, h1⟩ := ih (divideBit p r)
    obtain ⟨q2, h2⟩ := divideBit_dvd p r hw
    refine ⟨q1 + X ^ n * q2, ?_⟩
    rw [pow_succ]
    linear_combination h1 + X ^ n * h2

theorem mkTable_get {w : Nat} (p : BitVec w) (hw : 8 ≤ w) (d : BitVec w) (hd : d.toNat < 256) :
    ∃ e, (mkTable p)[d.toNat]? = some e ∧ generator p ∣ X ^ w * ofWord d - ofWord e := by
  refine ⟨divideBits p 8 (BitVec.ofNat w d.toNat <<< (w - 8)), ?_, ?_⟩
  · unfold mkTable
    rw [List.getElem?_map, List.getElem?_range hd]
    rfl
  · have h := divideBits_dvd p (by omega) 8 (BitVec.ofNat w d.toNat <<< (w - 8))
    rw [BitVec.ofNat_toNat, BitVec.setWidth_eq] at h ⊢
    rw [ofWord_shl _ _ (by omega)] at h
    have hz : d >>> (w - (w - 8)) = 0#w := by
      apply BitVec.eq_of_toNat_eq
      rw [BitVec.toNat_ushiftRight, Nat.shiftRight_eq_div_pow]
      have : w - (w - 8) = 8 := by omega
      rw [this]
      simp only [BitVec.toNat_ofNat, Nat.zero_mod]
      omega
    have hz' : ofWord (0#w) = 0 := by
      ext n
      rw [coeff_ofWord]
      simp [bit]
    rw [hz, hz'] at h
    rwa [zero_mul, sub_zero, ← mul_assoc, ← pow_add, Nat.add_sub_cancel' hw] at h

theorem getLsbD_reflectLoop {w : Nat} (nBits : Nat) (hw : nBits ≤ w) (n : Nat) :
    ∀ (b : Nat) (data refl : BitVec w) (i : Nat), n + b = nBits →
      (reflectLoop nBits n b data refl).getLsbD i =
        (refl.getLsbD i || (decide (i < n) && data.getLsbD (n - 1 - i))) := by
  induction n with
  | zero => intro b data refl i _; simp [reflectLoop]
  | succ n ih =>
    intro b data refl i h
    rw [reflectLoop, ih _ _ _ _ (by omega)]
    have e : nBits - 1 - b = n := by omega
    rw [e, BitVec.getLsbD_ushiftRight]
    have e1 : (1#w <<< n).getLsbD i = decide (i = n) := by
      rw [BitVec.getLsbD_shiftLeft, BitVec.getLsbD_one]
      by_cases hi : i = n
      · subst hi
        have : i < w := by omega
        simp [this]
        omega
      · by_cases h3 : i < n
        · simp [hi, h3]
        · have : i - n ≠ 0 := by omega
          simp [hi, this]
    have e2 : (if data.getLsbD 0 = true then refl ||| 1#w <<< n else refl).getLsbD i =
        (refl.getLsbD i || (data.getLsbD 0 && decide (i = n))) := by
      split
      · rename_i h0
        rw [BitVec.getLsbD_or, e1, h0, Bool.true_and]
      · rename_i h0
        rw [Bool.not_eq_true] at h0
        rw [h0, Bool.false_and, Bool.or_false]
    rw [e2, Bool.or_assoc]
    congr 1
    rcases Nat.lt_trichotomy i n with hi | hi | hi
    · have a1 : i ≠ n := by omega
      have a2 : i < n + 1 := by omega
      have a3 : 1 + (n - 1 - i) = n + 1 - 1 - i := by omega
      simp [hi, a1, a2, a3]
    · subst hi
      simp
    · have a1 : i ≠ n := by omega
      have a2 : ¬ i < n + 1 := by omega
      have a3 : ¬ i < n := by omega
      simp [a1, a2, a3]

theorem getLsbD_reflect {w : Nat} (data : BitVec w) (n : Nat) (hn : n ≤ w) (i : Nat) :
    (reflect data n).getLsbD i = (decide (i < n) && data.getLsbD (n - 1 - i)) := by
  rw [reflect, getLsbD_reflectLoop n hn n 0 data 0#w i rfl]
  simp

theorem ofBits_append (a b : List Bool) : ofBits (a ++ b) = ofBits a * X ^ b.length + ofBits b := by
  induction a with
  | nil => simp [ofBits]
  | cons x a ih =>
    simp only [List.cons_append, ofBits, ih, List.length_append, pow_add]
    ring

/-- A word with bits in the low 8 places only. -/
theorem ofWord_eight {w : Nat} (v : BitVec w) (h : ∀ i, 8 ≤ i → v.getLsbD i = false) :
    ofWord v = ∑ i ∈ Finset.range 8, C (bit (v.getLsbD i)) * X ^ i := by
  ext n
  rw [coeff_ofWord]
  simp only [finsetSum_coeff, coeff_C_mul, coeff_X_pow, mul_ite, mul_one, mul_zero,
    Finset.sum_ite_eq, Finset.mem_range]
  split
  · rfl
  · rw [h n (by omega)]
    rfl

theorem byteBits_length (r : Bool) (b : UInt8) : (byteBits r b).length = 8 := by simp [byteBits]

theorem bits_length (r : Bool) (bs : Bytes) : (bits r bs).length = 8 * bs.length := by
  induction bs with
  | nil => rfl
  | cons b bs ih =>
    rw [bits, List.flatMap_cons, List.length_append, byteBits_length, ← bits, ih, List.length_cons]
    omega

/-- The byte as the code feeds it in. -/
theorem ofBits_byte {w : Nat} (hw : 8 ≤ w) (refl : Bool) (b : UInt8) :
    ofBits (byteBits refl b) =
      ofWord (if refl then reflect (BitVec.ofNat w b.toNat) 8 else BitVec.ofNat w b.toNat) := by
  have hb : ∀ i, (BitVec.ofNat w b.toNat).getLsbD i = b.toNat.testBit i := by
    intro i
    rw [BitVec.getLsbD_ofNat]
    by_cases hi : i < w
    · simp [hi]
    · have : b.toNat.testBit i = false := by
        apply Nat.testBit_lt_two_pow
        have := b.toNat_lt
        have h2 : 2 ^ 8 ≤ 2 ^ i := Nat.pow_le_pow_right (by omega) (by omega)
        omega
      simp [this]
  have h8 : ∀ i, 8 ≤ i → b.toNat.testBit i = false := by
    intro i hi
    apply Nat.testBit_lt_two_pow
    have := b.toNat_lt
    have h2 : 2 ^ 8 ≤ 2 ^ i := Nat.pow_le_pow_right (by omega) (by omega)
    omega
  have lr : List.range 8 = [0, 1, 2, 3, 4, 5, 6, 7] := by decide
  cases refl
  · rw [if_neg (by simp), ofWord_eight _ (fun i hi => by rw [hb, h8 i hi])]
    simp only [hb, Finset.sum_range_succ, Finset.sum_range_zero, byteBits, lr, List.map_cons,
      List.map_nil, ofBits, List.length_cons, List.length_nil, Bool.false_eq_true, if_false,
      Nat.reduceSub, Nat.reduceAdd]
    ring
  · rw [if_pos rfl, ofWord_eight _ (fun i hi => by
      rw [getLsbD_reflect _ _ hw]
      have : ¬ i < 8 := by omega
      simp [this])]
    simp only [getLsbD_reflect _ _ hw, hb, Finset.sum_range_succ, Finset.sum_range_zero, byteBits, lr,
      List.map_cons, List.map_nil, ofBits, List.length_cons, List.length_nil, if_true,
      Nat.reduceSub, Nat.reduceAdd, Nat.reduceLT, decide_true, Bool.true_and]
    ring

theorem data_lt {w : Nat} (hw : 8 ≤ w) (refl : Bool) (b : UInt8) (r : BitVec w) :
    ((if refl then reflect (BitVec.ofNat w b.toNat) 8 else BitVec.ofNat w b.toNat) ^^^
      (r >>> (w - 8))).toNat < 256 := by
  rw [BitVec.toNat_xor]
  refine Nat.xor_lt_two_pow (n := 8) ?_ ?_
  · split
    · apply Nat.lt_pow_two_of_testBit
      intro j hj
      rw [BitVec.testBit_toNat, getLsbD_reflect _ _ hw]
      have a : ¬ j < 8 := by omega
      simp [a]
    · rw [BitVec.toNat_ofNat]
      have := b.toNat_lt
      exact Nat.lt_of_le_of_lt (Nat.mod_le _ _) this
  · rw [BitVec.toNat_ushiftRight, Nat.shiftRight_eq_div_pow]
    rw [Nat.div_lt_iff_lt_mul (Nat.pow_pos (by omega)), ← Nat.pow_add, Nat.add_sub_cancel' hw]
    exact r.isLt

theorem loop_dvd {w : Nat} (hw : 8 ≤ w) (p : BitVec w) (refl : Bool) (bs : Bytes) : ∀ r : BitVec w,
    ∃ r', loop (mkTable p) refl bs r = some r' ∧
      generator p ∣ ofBits (bits refl bs) * X ^ w + ofWord r * X ^ (bits refl bs).length -
        ofWord r' := by
  induction bs with
  | nil =>
    intro r
    refine ⟨r, rfl, ?_⟩
    simp [bits, ofBits]
  | cons b bs ih =>
    intro r
    obtain ⟨e, he, ⟨q, hq⟩⟩ := mkTable_get p hw _ (data_lt hw refl b r)
    obtain ⟨r', hr', ⟨q', hq'⟩⟩ := ih (e ^^^ (r <<< 8))
    refine ⟨r', ?_, ?_⟩
    · rw [loop]
      simp only [he, Option.bind_eq_bind, Option.bind_some]
      exact hr'
    · have hb : bits refl (b :: bs) = byteBits refl b ++ bits refl bs := rfl
      rw [hb, ofBits_append, ofBits_byte hw, List.length_append, byteBits_length, pow_add]
      rw [ofWord_xor] at hq
      rw [ofWord_xor, ofWord_shl _ _ hw] at hq'
      generalize ofWord (if refl then reflect (BitVec.ofNat w b.toNat) 8 else BitVec.ofNat w b.toNat) = B
        at *
      refine ⟨q' + X ^ (bits refl bs).length * q, ?_⟩
      linear_combination hq' + X ^ (bits refl bs).length * hq

end Bm.Crc
