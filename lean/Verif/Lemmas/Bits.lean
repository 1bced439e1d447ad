import Verif.Spec.Bits
import Mathlib.Data.Nat.Bitwise
import Mathlib.Tactic.Ring
import Mathlib.Tactic.Linarith

/-! Facts about bit strings. -/

namespace Bm.Spec

@[simp] theorem natBits_length (w n : Nat) : (natBits w n).length = w := by
  induction w with
  | zero => rfl
  | succ w ih => simp [natBits, ih]

@[simp] theorem byteBits_length (b : UInt8) : (byteBits b).length = 8 := by simp [byteBits]

@[simp] theorem bytesBits_nil : bytesBits [] = [] := rfl

@[simp] theorem bytesBits_cons (b : UInt8) (l : List UInt8) :
    bytesBits (b :: l) = byteBits b ++ bytesBits l := rfl

@[simp] theorem bytesBits_append (l m : List UInt8) :
    bytesBits (l ++ m) = bytesBits l ++ bytesBits m := by
  simp [bytesBits]

@[simp] theorem bytesBits_length (l : List UInt8) : (bytesBits l).length = 8 * l.length := by
  induction l with
  | nil => rfl
  | cons b l ih => simp [ih]; ring

theorem natBits_getElem? (w n i : Nat) :
    (natBits w n)[i]? = if i < w then some (n.testBit (w - 1 - i)) else none := by
  induction w generalizing i with
  | zero => simp [natBits]
  | succ w ih =>
    cases i with
    | zero => simp [natBits]
    | succ i =>
      simp only [natBits, List.getElem?_cons_succ, ih]
      have : w - 1 - i = w + 1 - 1 - (i + 1) := by omega
      simp only [this, Nat.add_lt_add_iff_right]

theorem natBits_congr {w n m : Nat} (h : n % 2 ^ w = m % 2 ^ w) : natBits w n = natBits w m := by
  apply List.ext_getElem?
  intro i
  simp only [natBits_getElem?]
  split
  · rename_i hi
    congr 1
    have e1 := Nat.testBit_mod_two_pow n w (w - 1 - i)
    have e2 := Nat.testBit_mod_two_pow m w (w - 1 - i)
    have : w - 1 - i < w := by omega
    simp only [this, decide_true, Bool.true_and] at e1 e2
    rw [← e1, ← e2, h]
  · rfl

theorem natBits_mod (w n : Nat) : natBits w (n % 2 ^ w) = natBits w n :=
  natBits_congr (Nat.mod_mod _ _)

theorem natBits_append (a b n : Nat) :
    natBits (a + b) n = natBits a (n / 2 ^ b) ++ natBits b n := by
  apply List.ext_getElem?
  intro i
  simp only [natBits_getElem?, List.getElem?_append, natBits_length]
  by_cases h1 : i < a
  · have h2 : i < a + b := by omega
    simp only [h1, h2, if_true, Nat.testBit_div_two_pow]
    congr 2; omega
  · simp only [h1, if_false]
    by_cases h2 : i < a + b
    · have h3 : i - a < b := by omega
      simp only [h2, h3, if_true]
      congr 2; omega
    · have h3 : ¬ i - a < b := by omega
      simp [h2, h3]

theorem bitsNat_lt (l : List Bool) : bitsNat l < 2 ^ l.length := by
  induction l with
  | nil => simp [bitsNat]
  | cons b l ih =>
    simp only [bitsNat, List.length_cons, Nat.pow_succ]
    split <;> omega

theorem bitsNat_append (l m : List Bool) :
    bitsNat (l ++ m) = bitsNat l * 2 ^ m.length + bitsNat m := by
  induction l with
  | nil => simp [bitsNat]
  | cons b l ih =>
    simp only [List.cons_append, bitsNat, ih, List.length_append, Nat.pow_add]
    split <;> ring

theorem bitsNat_natBits (w n : Nat) : bitsNat (natBits w n) = n % 2 ^ w := by
  induction w with
  | zero => simp [natBits, bitsNat, Nat.mod_one]
  | succ w ih =>
    simp only [natBits, bitsNat, ih, natBits_length]
    have h : n % 2 ^ (w + 1) = n % 2 ^ w + 2 ^ w * (n / 2 ^ w % 2) := by
      rw [Nat.pow_succ, Nat.mod_mul]
    rw [h, Nat.testBit_eq_decide_div_mod_eq]
    rcases Nat.mod_two_eq_zero_or_one (n / 2 ^ w) with e | e <;> simp [e] <;> omega

theorem natBits_bitsNat (l : List Bool) : natBits l.length (bitsNat l) = l := by
  induction l with
  | nil => rfl
  | cons b l ih =>
    simp only [List.length_cons, natBits, bitsNat]
    have hlt := bitsNat_lt l
    have h1 : ((if b = true then 2 ^ l.length else 0) + bitsNat l).testBit l.length = b := by
      cases b
      · simp [Nat.testBit_lt_two_pow hlt]
      · simp only [if_true]
        rw [Nat.testBit_two_pow_add_eq, Nat.testBit_lt_two_pow hlt]; rfl
    rw [h1]
    congr 1
    have : natBits l.length ((if b = true then 2 ^ l.length else 0) + bitsNat l) =
        natBits l.length (bitsNat l) := by
      apply natBits_congr
      cases b <;> simp
    rw [this, ih]

theorem natBits_bitsNat' {w : Nat} (l : List Bool) (h : l.length = w) :
    natBits w (bitsNat l) = l := by
  subst h; exact natBits_bitsNat l

theorem bitsNat_inj {l m : List Bool} (hl : l.length = m.length) (h : bitsNat l = bitsNat m) :
    l = m := by
  rw [← natBits_bitsNat l, ← natBits_bitsNat m, h, hl]

@[simp] theorem bitsNat_byteBits (b : UInt8) : bitsNat (byteBits b) = b.toNat := by
  have := b.toNat_lt
  rw [byteBits, bitsNat_natBits, Nat.mod_eq_of_lt (by simpa using this)]

theorem byteBits_inj {a b : UInt8} (h : byteBits a = byteBits b) : a = b := by
  have := congrArg bitsNat h
  simp only [bitsNat_byteBits] at this
  exact UInt8.toNat_inj.1 this

theorem byteBits_ofNat_bitsNat (l : List Bool) (h : l.length = 8) :
    byteBits (UInt8.ofNat (bitsNat l)) = l := by
  have hlt := bitsNat_lt l
  rw [h] at hlt
  unfold byteBits
  rw [UInt8.toNat_ofNat_of_lt' (by simpa using hlt)]
  exact natBits_bitsNat' l h

theorem bytesBits_inj {a b : List UInt8} (h : bytesBits a = bytesBits b) : a = b := by
  induction a generalizing b with
  | nil =>
    have := congrArg List.length h
    simp at this
    simp [this]
  | cons x a ih =>
    cases b with
    | nil =>
      have := congrArg List.length h
      simp at this
    | cons y b =>
      simp only [bytesBits_cons] at h
      have := List.append_inj h (by simp)
      rw [byteBits_inj this.1, ih this.2]

theorem take_natBits (k w n : Nat) (h : k ≤ w) : (natBits w n).take k = natBits k (n / 2 ^ (w - k)) := by
  have : w = k + (w - k) := by omega
  conv_lhs => rw [this, natBits_append]
  rw [List.take_append_of_le_length (by simp)]
  rw [List.take_of_length_le (by simp)]

theorem drop_natBits (k w n : Nat) (h : k ≤ w) : (natBits w n).drop k = natBits (w - k) n := by
  have : w = k + (w - k) := by omega
  conv_lhs => rw [this, natBits_append]
  rw [List.drop_append_of_le_length (by simp)]
  simp

end Bm.Spec
