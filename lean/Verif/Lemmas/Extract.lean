import Verif.Model.Extract
import Verif.Lemmas.Bits
import Mathlib.Tactic.IntervalCases
import Mathlib.Tactic.SplitIfs

/-! # Bits moved by `generic_extract` and `generic_deparse` -/

namespace Bm.Extract

open Spec

theorem byteBits_eq (b : UInt8) : byteBits b = [b.toNat.testBit 7, b.toNat.testBit 6, b.toNat.testBit 5, b.toNat.testBit 4, b.toNat.testBit 3, b.toNat.testBit 2, b.toNat.testBit 1, b.toNat.testBit 0] := rfl

theorem byteBits_shl (b : UInt8) (n : Nat) (hn : n ≤ 8) :
    byteBits (shl b n) = (byteBits b).drop n ++ List.replicate n false := by
  have : (shl b n).toNat = (b.toNat <<< n) % 2^8 := by simp [shl]
  rw [byteBits_eq, byteBits_eq, this]
  interval_cases n <;> simp [-Nat.reducePow, Nat.testBit_mod_two_pow, Nat.testBit_shiftLeft, List.replicate]

theorem byteBits_shr (b : UInt8) (n : Nat) (hn : n ≤ 8) :
    byteBits (shr b n) = List.replicate n false ++ (byteBits b).take (8 - n) := by
  have h8 : b.toNat < 2^8 := b.toNat_lt
  have : (shr b n).toNat = (b.toNat >>> n) % 2^8 := by simp [shr]
  rw [byteBits_eq, byteBits_eq, this]
  have hz : ∀ j, 8 ≤ j → b.toNat.testBit j = false := fun j hj => Nat.testBit_lt_two_pow (lt_of_lt_of_le h8 (Nat.pow_le_pow_right (by omega) hj))
  interval_cases n <;> simp [-Nat.reducePow, Nat.testBit_mod_two_pow, Nat.testBit_shiftRight, List.replicate, hz]

theorem byteBits_or (a b : UInt8) : byteBits (a ||| b) = List.zipWith (· || ·) (byteBits a) (byteBits b) := by
  rw [byteBits_eq, byteBits_eq, byteBits_eq]
  simp [-Nat.reducePow]

theorem byteBits_and (a b : UInt8) : byteBits (a &&& b) = List.zipWith (· && ·) (byteBits a) (byteBits b) := by
  rw [byteBits_eq, byteBits_eq, byteBits_eq]
  simp [-Nat.reducePow]

/-- Equality of lists built with `take`, `drop`, `++` and `replicate`, pointwise. -/
macro "bits" : tactic => `(tactic| (
  apply List.ext_getElem?
  intro i
  simp only [List.getElem?_append, List.getElem?_take, List.getElem?_drop, List.getElem?_replicate,
    List.length_append, List.length_take, List.length_drop, List.length_replicate, byteBits_length,
    bytesBits_length]
  try simp (disch := omega) only [Nat.min_eq_left, Nat.min_eq_right]
  repeat' (first | (exfalso; omega) | split)
  all_goals first
    | rfl
    | (congr 1; omega)
    | (rw [List.getElem?_eq_none]; simp only [bytesBits_length, byteBits_length]; omega)
    | (symm; rw [List.getElem?_eq_none]; simp only [bytesBits_length, byteBits_length]; omega)))

theorem zip_or_false (l : List Bool) (n : Nat) (h : l.length = n) :
    List.zipWith (· || ·) l (List.replicate n false) = l := by
  induction l generalizing n with
  | nil => simp
  | cons a l ih =>
    cases n with
    | zero => simp at h
    | succ n => simp [List.replicate_succ, ih n (by simpa using h)]

theorem zip_false_or (l : List Bool) (n : Nat) (h : l.length = n) :
    List.zipWith (· || ·) (List.replicate n false) l = l := by
  induction l generalizing n with
  | nil => simp
  | cons a l ih =>
    cases n with
    | zero => simp at h
    | succ n => simp [List.replicate_succ, ih n (by simpa using h)]

theorem zip_and_false (l : List Bool) (n : Nat) (h : l.length = n) :
    List.zipWith (· && ·) l (List.replicate n false) = List.replicate n false := by
  induction l generalizing n with
  | nil => simp at h; simp [← h]
  | cons a l ih =>
    cases n with
    | zero => simp at h
    | succ n => simp [List.replicate_succ, ih n (by simpa using h)]

theorem zip_and_true (l : List Bool) (n : Nat) (h : l.length = n) :
    List.zipWith (· && ·) l (List.replicate n true) = l := by
  induction l generalizing n with
  | nil => simp
  | cons a l ih =>
    cases n with
    | zero => simp at h
    | succ n => simp [List.replicate_succ, ih n (by simpa using h)]

/-- Two bytes whose set bits are in different parts. -/
theorem byteBits_merge (a b : UInt8) (n : Nat) (hn : n ≤ 8)
    (ha : (byteBits a).drop n = List.replicate (8 - n) false)
    (hb : (byteBits b).take n = List.replicate n false) :
    byteBits (a ||| b) = (byteBits a).take n ++ (byteBits b).drop n := by
  rw [byteBits_or]
  conv_lhs =>
    rw [← List.take_append_drop n (byteBits a), ← List.take_append_drop n (byteBits b)]
  rw [List.zipWith_append (by simp), ha, hb, zip_or_false _ _ (by simp; omega),
    zip_false_or _ _ (by simp)]

theorem byteBits_two (a b : UInt8) (n : Nat) (hn : n ≤ 8) :
    byteBits (shl a n ||| shr b (8 - n)) = (byteBits a).drop n ++ (byteBits b).take n := by
  have h1 := byteBits_shl a n hn
  have h2 := byteBits_shr b (8 - n) (by omega)
  rw [byteBits_merge _ _ (8 - n) (by omega), h1, h2]
  · have : 8 - (8 - n) = n := by omega
    rw [this]
    bits
  · rw [h1]; bits
  · rw [h2]; bits

theorem byteBits_ff : byteBits 0xff = List.replicate 8 true := by decide

theorem byteBits_maskLow (a : UInt8) (n : Nat) (hn : n ≤ 8) :
    byteBits (a &&& shr 0xff n) = List.replicate n false ++ (byteBits a).drop n := by
  rw [byteBits_and, byteBits_shr _ _ hn, byteBits_ff]
  conv_lhs => rw [← List.take_append_drop n (byteBits a)]
  rw [List.zipWith_append (by simp; omega), zip_and_false _ _ (by simp; omega), List.take_replicate,
    zip_and_true _ _ (by simp)]

theorem byteBits_clear (a : UInt8) (n : Nat) (hn : n ≤ 8) :
    byteBits (a &&& ~~~ shr 0xff n) = (byteBits a).take n ++ List.replicate (8 - n) false := by
  have : byteBits (~~~ shr 0xff n) = List.replicate n true ++ List.replicate (8 - n) false := by
    interval_cases n <;> decide
  rw [byteBits_and, this]
  conv_lhs => rw [← List.take_append_drop n (byteBits a)]
  rw [List.zipWith_append (by simp; omega), zip_and_true _ _ (by simp; omega),
    zip_and_false _ _ (by simp)]

/-! ### Reading -/

theorem drop_byte {data : Bytes} {i : Nat} {b : UInt8} (h : data[i]? = some b) :
    (bytesBits data).drop (8 * i) = byteBits b ++ (bytesBits data).drop (8 * (i + 1)) := by
  induction data generalizing i with
  | nil => simp at h
  | cons a data ih =>
    cases i with
    | zero =>
      simp only [List.getElem?_cons_zero, Option.some.injEq] at h
      subst h
      simp [List.drop_append]
    | succ i =>
      simp only [List.getElem?_cons_succ] at h
      have := ih h
      rw [bytesBits_cons, List.drop_append, List.drop_append,
        List.drop_eq_nil_of_le (by simp only [byteBits_length]; omega : (byteBits a).length ≤ _),
        List.drop_eq_nil_of_le (by simp only [byteBits_length]; omega : (byteBits a).length ≤ _)]
      simp only [byteBits_length, List.nil_append]
      rw [show 8 * (i + 1) - 8 = 8 * i by omega, show 8 * (i + 1 + 1) - 8 = 8 * (i + 1) by omega]
      exact this

theorem bytesBits_take (l : Bytes) (n : Nat) : bytesBits (l.take n) = (bytesBits l).take (8 * n) := by
  induction l generalizing n with
  | nil => simp
  | cons a l ih =>
    cases n with
    | zero => simp
    | succ n =>
      simp only [List.take_succ_cons, bytesBits_cons, ih, List.take_append]
      rw [List.take_of_length_le (by simp only [byteBits_length]; omega : (byteBits a).length ≤ _)]
      simp only [byteBits_length]
      rw [show 8 * (n + 1) - 8 = 8 * n by omega]

theorem bytesBits_drop (l : Bytes) (n : Nat) : bytesBits (l.drop n) = (bytesBits l).drop (8 * n) := by
  induction l generalizing n with
  | nil => simp
  | cons a l ih =>
    cases n with
    | zero => simp
    | succ n =>
      simp only [List.drop_succ_cons, bytesBits_cons, ih, List.drop_append]
      rw [List.drop_eq_nil_of_le (by simp only [byteBits_length]; omega : (byteBits a).length ≤ _)]
      simp only [byteBits_length, List.nil_append]
      rw [show 8 * (n + 1) - 8 = 8 * n by omega]

theorem byte_at {data : Bytes} {i : Nat} {b : UInt8} (h : data[i]? = some b) :
    byteBits b = ((bytesBits data).drop (8 * i)).take 8 := by
  rw [drop_byte h]
  simp [List.take_append]

theorem two_spec (data : Bytes) (n i : Nat) (hn : n ≤ 8) (hi : i + 1 < data.length) :
    ∃ b, two data n i = some b ∧ byteBits b = ((bytesBits data).drop (8 * i + n)).take 8 := by
  have h0 : data[i]? = some data[i] := List.getElem?_eq_getElem (by omega)
  have h1 : data[i + 1]? = some data[i + 1] := List.getElem?_eq_getElem hi
  refine ⟨_, by simp only [two, h0, h1]; rfl, ?_⟩
  rw [byteBits_two _ _ _ hn, byte_at h0, byte_at h1]
  bits

theorem mapM_two (data : Bytes) (n : Nat) (hn : n ≤ 8) (k : Nat) (hk : k = 0 ∨ k < data.length) :
    ∃ l, (List.range k).mapM (two data n) = some l ∧ l.length = k ∧
      bytesBits l = ((bytesBits data).drop n).take (8 * k) := by
  induction k with
  | zero => exact ⟨[], by simp, rfl, by simp⟩
  | succ k ih =>
    have hk' : k + 1 < data.length := by omega
    obtain ⟨l, h1, h2, h3⟩ := ih (by omega)
    obtain ⟨b, h4, h5⟩ := two_spec data n k hn hk'
    refine ⟨l ++ [b], ?_, by simp [h2], ?_⟩
    · rw [List.range_succ, List.mapM_append, h1]
      simp [h4]
    · rw [bytesBits_append, h3]
      simp only [bytesBits_cons, bytesBits_nil, List.append_nil, h5]
      bits

theorem mask0_spec (dst : Bytes) (n : Nat) (hn : n ≤ 8) (hd : 0 < dst.length) :
    ∃ dst', mask0 dst n = some dst' ∧ dst'.length = dst.length ∧
      bytesBits dst' = List.replicate n false ++ (bytesBits dst).drop n := by
  cases dst with
  | nil => simp at hd
  | cons d ds =>
    refine ⟨(d &&& shr 0xff n) :: ds, by simp [mask0, setByte], rfl, ?_⟩
    rw [bytesBits_cons, byteBits_maskLow _ _ hn, bytesBits_cons, List.drop_append,
      show n - (byteBits d).length = 0 by simp; omega]
    simp

theorem orLast_spec (dst : Bytes) (y : UInt8) (m : Nat) (hm : m ≤ 8) (hd : 0 < dst.length)
    (hz : (bytesBits dst).drop (8 * dst.length - m) = List.replicate m false) :
    ∃ x, dst[dst.length - 1]? = some x ∧
      bytesBits (dst.set (dst.length - 1) (x ||| shr y (8 - m)))
        = (bytesBits dst).take (8 * dst.length - m) ++ (byteBits y).take m := by
  rcases List.eq_nil_or_concat dst with rfl | ⟨l, x, rfl⟩
  · simp at hd
  · refine ⟨x, by simp, ?_⟩
    simp only [List.concat_eq_append, List.length_append, List.length_singleton,
      Nat.add_sub_cancel] at hz ⊢
    have hx : (byteBits x).drop (8 - m) = List.replicate m false := by
      rw [← hz, bytesBits_append, List.drop_append,
        List.drop_eq_nil_of_le (by simp only [bytesBits_length]; omega : (bytesBits l).length ≤ _)]
      simp only [bytesBits_length, List.nil_append, bytesBits_cons, bytesBits_nil, List.append_nil]
      congr 1
      omega
    rw [List.set_append_right _ _ (le_refl _)]
    simp only [Nat.sub_self, List.set_cons_zero, bytesBits_append, bytesBits_cons, bytesBits_nil,
      List.append_nil]
    have h2 := byteBits_shr y (8 - m) (by omega)
    rw [byteBits_merge _ _ (8 - m) (by omega) (by rw [hx]; congr 1; omega) (by rw [h2]; bits), h2]
    rw [show 8 - (8 - m) = m by omega]
    bits

/-- **C29**, bit level: see `Props/Extract`. -/
theorem genericExtract_spec (data : Bytes) (o w : Nat) (ho : o < 8) (hw : o = 0 ∨ w ≠ 0)
    (hl : (o + w + 7) / 8 ≤ data.length) :
    ∃ dst, genericExtract data o w = some dst ∧ dst.length = (w + 7) / 8 ∧
      bytesBits dst = List.replicate (8 * ((w + 7) / 8) - w) false ++ ((bytesBits data).drop o).take w := by
  unfold genericExtract
  dsimp only
  have hnb1 : 8 * ((w + 7) / 8) < w + 8 := by omega
  have hnb2 : w ≤ 8 * ((w + 7) / 8) := by omega
  generalize hnb : (w + 7) / 8 = nb at hnb1 hnb2
  have hnl : nb ≤ data.length := by omega
  by_cases h1 : o = 0 ∧ w % 8 = 0
  · rw [if_pos h1]
    have h8 : 8 * nb = w := by omega
    refine ⟨data.take nb, by rw [copyOf, if_pos (by omega)], by simp; omega, ?_⟩
    rw [bytesBits_take, h8, h1.1]
    simp
  rw [if_neg h1]
  have hnb0 : nb ≠ 0 := by omega
  rw [if_neg hnb0]
  by_cases h2 : o = 8 * nb - w
  · rw [if_pos h2]
    simp only [copyOf, if_pos (show nb ≤ data.length by omega), Option.bind_eq_bind, Option.bind_some]
    obtain ⟨dst, h3, h4, h5⟩ := mask0_spec (data.take nb) (8 * nb - w) (by omega) (by simp; omega)
    refine ⟨dst, h3, by simp at h4; omega, ?_⟩
    rw [h5, bytesBits_take, h2]
    bits
  rw [if_neg h2]
  by_cases h3 : o > 8 * nb - w
  · rw [if_pos h3]
    obtain ⟨l, h4, h5, h6⟩ := mapM_two data (o - (8 * nb - w)) (by omega) (nb - 1) (by omega)
    have hlast : data[nb - 1]? = some data[nb - 1] := List.getElem?_eq_getElem (by omega)
    have hnext : data[nb]? = some data[nb] := List.getElem?_eq_getElem (by omega)
    obtain ⟨dst, h7, h8, h9⟩ := mask0_spec (l ++ [shl data[nb - 1] (o - (8 * nb - w))]) (8 * nb - w)
      (by omega) (by simp)
    have hdl : dst.length = nb := by rw [h8]; simp; omega
    have hbits : bytesBits dst = List.replicate (8 * nb - w) false ++
        (((bytesBits data).take (8 * nb)).drop o ++ List.replicate (o - (8 * nb - w)) false) := by
      rw [h9, bytesBits_append, h6]
      simp only [bytesBits_cons, bytesBits_nil, List.append_nil]
      rw [byteBits_shl _ _ (by omega), byte_at hlast]
      bits
    simp only [h4, hlast, h7, hnext, Option.bind_eq_bind, Option.bind_some]
    rw [if_pos (show o + w > 8 * nb by omega)]
    obtain ⟨x, h10, h11⟩ := orLast_spec dst data[nb] (o - (8 * nb - w)) (by omega) (by omega)
      (by rw [hbits, hdl]; bits)
    rw [hdl] at h10 h11
    simp only [h10, Option.bind_some, setByte, if_pos (show nb - 1 < dst.length by omega)]
    refine ⟨_, rfl, by simp [hdl], ?_⟩
    rw [h11, hbits, byte_at hnext]
    bits
  · rw [if_neg h3]
    have h0 : data[0]? = some data[0] := List.getElem?_eq_getElem (by omega)
    obtain ⟨l, h4, h5, h6⟩ := mapM_two data (8 - (8 * nb - w - o)) (by omega) (nb - 1) (by omega)
    simp only [h0, h4, Option.bind_eq_bind, Option.bind_some, Option.pure_def]
    refine ⟨_, rfl, by simp; omega, ?_⟩
    rw [bytesBits_cons, byteBits_maskLow _ _ (by omega), byteBits_shr _ _ (by omega), h6, byte_at h0]
    bits

end Bm.Extract
