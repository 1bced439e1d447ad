import Verif.Lemmas.Hash
import Mathlib.Data.List.Induction
import Mathlib.Logic.Function.Iterate
import Mathlib.Data.List.Basic

/-!
# Hash functions

C43: the Toeplitz hash.  C50: `xor16`, `xor32` and `identity`.  C51: the two round robin functions.
-/

namespace Bm.Hash

open Spec

theorem keyBit_eq (key : Bytes) (h : KeyOk key) (n : Nat) :
    keyBit (keyWords key) n = bitAt key (n % (8 * key.length)) := by
  obtain ⟨h1, k, hk⟩ := h
  obtain ⟨h2, h3⟩ := keyWords_bits key (by omega)
  have h4 : (keyWords key).length = k := by omega
  rw [← h3 _ (Nat.mod_lt _ (by omega)), keyBit, h4]
  have e : 8 * key.length = 32 * k := by omega
  rw [e, Nat.mod_mul_right_div_self, Nat.mod_mul_right_mod]

/-- **C43** The hash with a key of whole words, for input of any length: bit `t` of the result, from
the left, is the parity over the set bits `i` of the input of bit `i + t` of the repeated key. -/
theorem C43_toeplitz (key input : Bytes) (hk : KeyOk key) :
    ∃ h, Hash.toeplitz (keyWords key) input = some h ∧
      ∀ t, t < 32 → h.getMsbD t = Spec.toeplitz key input t := by
  obtain ⟨ws, h1, h2, h3⟩ := inputWords_bits input
  have hne : keyWords key ≠ [] := by
    obtain ⟨a, b⟩ := hk
    have := (keyWords_bits key (by omega)).1
    intro h
    rw [h] at this
    simp at this
    omega
  obtain ⟨h, h4, h5⟩ := toeplitzLoop_bits _ hne ws 0 0
  refine ⟨h, ?_, ?_⟩
  · simp only [Hash.toeplitz, h1, Option.bind_eq_bind, Option.bind_some]
    exact h4
  · intro t ht
    rw [h5 t ht]
    have e0 : (0 : BitVec 32).getMsbD t = false := by simp
    rw [e0, Bool.false_xor, Spec.toeplitz]
    obtain ⟨p, hp⟩ := Nat.exists_eq_add_of_le (show 8 * input.length ≤ 32 * ws.length by omega)
    rw [hp, parity_add]
    rw [parity_congr p (g := fun _ => false), parity_false, Bool.xor_false]
    · refine parity_congr _ ?_
      intro i hi
      rw [h3 i (by omega), keyBit_eq key hk]
      congr 3
      omega
    · intro i hi
      rw [h3 _ (by omega), bitAt_ge _ _ (by omega)]
      rfl

/-- **C43** with the key set at run time: the last acceptable key is used, unacceptable ones are
refused. -/
theorem C43_keys (keys : List Bytes) (input : Bytes) (host : List (BitVec 32))
    (hh : host = keys.foldl (fun h k => (updateKey h k).2) newKey) :
    (∀ k, (updateKey host k).1 = decide (KeyOk k)) ∧
    ∃ h, Hash.toeplitz host input = some h ∧
      ∀ t, t < 32 → h.getMsbD t = Spec.toeplitz (currentKey keys) input t := by
  constructor
  · intro k
    unfold updateKey
    by_cases h : KeyOk k
    · rw [if_neg (by obtain ⟨h1, h2⟩ := h; omega)]
      simp [h]
    · rw [if_pos (by unfold KeyOk at h; omega)]
      simp [h]
  have e : host = keyWords (currentKey keys) ∧ KeyOk (currentKey keys) := by
    subst hh
    induction keys using List.reverseRecOn with
    | nil => exact ⟨rfl, by decide⟩
    | append_singleton ks k ih =>
      rw [List.foldl_append, List.foldl_cons, List.foldl_nil, ih.1]
      unfold currentKey
      rw [List.filter_append]
      by_cases h : KeyOk k
      · have hf : [k].filter (fun x => decide (KeyOk x)) = [k] := by simp [h]
        rw [hf, List.getLast?_append]
        refine ⟨?_, by simpa using h⟩
        unfold updateKey
        rw [if_neg (by obtain ⟨h1, h2⟩ := h; omega)]
        simp
      · have hf : [k].filter (fun x => decide (KeyOk x)) = [] := by simp [h]
        rw [hf, List.append_nil]
        refine ⟨?_, ih.2⟩
        unfold updateKey
        rw [if_pos (by unfold KeyOk at h; omega)]
  rw [e.1]
  exact C43_toeplitz _ input e.2

/-- The verification suite of the RSS specification: source 66.9.149.187, destination
161.142.100.80, with the usual 40-byte key. -/
example : Hash.toeplitz (keyWords [0x6d, 0x5a, 0x56, 0xda, 0x25, 0x5b, 0x0e, 0xc2, 0x41, 0x67, 0x25, 0x3d,
      0x43, 0xa3, 0x8f, 0xb0, 0xd0, 0xca, 0x2b, 0xcb, 0xae, 0x7b, 0x30, 0xb4, 0x77, 0xcb, 0x2d, 0xa3,
      0x80, 0x30, 0xf2, 0x0c, 0x6a, 0x42, 0xb7, 0x3b, 0xbe, 0xac, 0x01, 0xfa])
    [66, 9, 149, 187, 161, 142, 100, 80] = some 0x323e8fc2 := by decide +kernel

/-- A key of one word is repeated; input that is not whole words. -/
example : KeyOk [0x80, 0, 0, 1] ∧ Hash.toeplitz (keyWords [0x80, 0, 0, 1]) [0, 0, 0, 0, 0, 0x80] =
    some 0x00000180 := by decide +kernel

/-! ## The other functions -/

/-- **C50** `xor16` and `xor32` (`n` is 2 or 4): the exclusive or of the big-endian words of the input,
the last one filled up with zeros. -/
theorem C50_xor (n : Nat) (hn : 0 < n) (input : Bytes) :
    ∃ h, xorHash n input = some h ∧ ∀ t, t < 8 * n → h.getMsbD t = xorWords n input t := by
  obtain ⟨h, h1, h2⟩ := xorLoop_bits n hn (input.length + 1) input 0#(8 * n) (by omega)
  refine ⟨h, h1, ?_⟩
  intro t ht
  rw [h2 t ht, parity, bitAt_ge input (8 * n * input.length + t)]
  · simp [xorWords]
  · have : 8 * 1 * input.length ≤ 8 * n * input.length :=
      Nat.mul_le_mul_right _ (Nat.mul_le_mul_left _ hn)
    omega

/-- Two words and an odd byte. -/
example : xorHash 2 [0x12, 0x34, 0xff, 0x00, 0x0f] = some 0xe234 := by decide +kernel

theorem foldl_bound : ∀ (bs : Bytes) (v : Nat), bs.foldl (fun v b => 256 * v + b.toNat) v <
    (v + 1) * 256 ^ bs.length
  | [], v => by simp
  | b :: bs, v => by
    rw [List.foldl_cons, List.length_cons, Nat.pow_succ, Nat.mul_comm (256 ^ _) 256, ← Nat.mul_assoc]
    refine Nat.lt_of_lt_of_le (foldl_bound bs _) (Nat.mul_le_mul_right _ ?_)
    have := b.toNat_lt
    omega

/-- **C50** `identity`: the big-endian value of the first 8 bytes (fewer if there are fewer). -/
theorem C50_identity (input : Bytes) : (identity input).toNat = value (input.take 8) := by
  have key : ∀ (bs : Bytes) (i : Nat) (res : BitVec 64), i ≤ 8 → res.toNat < 256 ^ i →
      (identityLoop i bs res).toNat = (bs.take (8 - i)).foldl (fun v b => 256 * v + b.toNat) res.toNat := by
    intro bs
    induction bs with
    | nil => intro i res _ _; simp [identityLoop]
    | cons b bs ih =>
      intro i res hi hr
      rw [identityLoop]
      by_cases h : i < 8
      · rw [if_pos h]
        have hb := b.toNat_lt
        have hlt : 256 * res.toNat + b.toNat < 256 ^ (i + 1) := by
          rw [Nat.pow_succ]
          omega
        have h64 : 256 ^ (i + 1) ≤ 2 ^ 64 := by
          rw [show (2 : Nat) ^ 64 = 256 ^ 8 by rfl]
          exact Nat.pow_le_pow_right (by omega) (by omega)
        have e : ((if i > 0 then res <<< 8 else res) + BitVec.ofNat 64 b.toNat).toNat =
            256 * res.toNat + b.toNat := by
          rw [BitVec.toNat_add, BitVec.toNat_ofNat, Nat.mod_eq_of_lt (a := b.toNat) (by omega)]
          have : (if i > 0 then res <<< 8 else res).toNat = 256 * res.toNat := by
            split
            · rw [BitVec.toNat_shiftLeft, Nat.shiftLeft_eq, Nat.mod_eq_of_lt]
              · omega
              · have : 2 ^ 8 = 256 := by rfl
                omega
            · have : i = 0 := by omega
              subst this
              simp at hr
              omega
          rw [this, Nat.mod_eq_of_lt (by omega)]
        rw [ih (i + 1) _ (by omega) (by rw [e]; exact hlt), e]
        have : 8 - i = (8 - (i + 1)) + 1 := by omega
        rw [this, List.take_succ_cons, List.foldl_cons]
      · rw [if_neg h]
        have : 8 - i = 0 := by omega
        rw [this]
        rfl
  exact key input 0 0 (by omega) (by simp)

example : identity [1, 2, 3] = 0x010203 ∧ identity [1, 2, 3, 4, 5, 6, 7, 8, 9] = 0x0102030405060708 := by
  decide +kernel

/-- **C51** The `n`-th call of `round_robin` returns `n`, modulo `2^64`. -/
theorem C51_round_robin (n : Nat) :
    (roundRobin ((fun i => (roundRobin i).2)^[n] 0)).1 = BitVec.ofNat 64 n := by
  have key : ∀ n (i : BitVec 64), ((fun i => (roundRobin i).2)^[n]) i = i + BitVec.ofNat 64 n := by
    intro n
    induction n with
    | zero => intro i; simp [Nat.iterate]
    | succ n ih =>
      intro i
      rw [Nat.iterate, ih]
      simp only [roundRobin]
      rw [BitVec.add_assoc]
      congr 1
      apply BitVec.eq_of_toNat_eq
      simp
      omega
  rw [key]
  simp [roundRobin]

/-- **C51** `round_robin_consistent` gives each input the number of different inputs seen before it was
first seen, whatever calls were made before. -/
theorem C51_consistent (inputs : List Bytes) (x : Bytes) (s : Rrc)
    (hs : s = inputs.foldl (fun s y => (s.call y).2) {}) :
    (s.call x).1 = BitVec.ofNat 64 ((distinct inputs).idxOf x) := by
  have inv : (∀ y, s.hashes.lookup y =
      if y ∈ distinct inputs then some (BitVec.ofNat 64 ((distinct inputs).idxOf y)) else none) ∧
      s.idx = BitVec.ofNat 64 (distinct inputs).length := by
    subst hs
    induction inputs using List.reverseRecOn with
    | nil => exact ⟨fun y => rfl, rfl⟩
    | append_singleton inputs z ih =>
      obtain ⟨h1, h2⟩ := ih
      have hd : distinct (inputs ++ [z]) =
          if z ∈ distinct inputs then distinct inputs else distinct inputs ++ [z] := by
        simp only [distinct, List.foldl_append, List.foldl_cons, List.foldl_nil]
        congr
      rw [List.foldl_append, List.foldl_cons, List.foldl_nil, hd]
      generalize inputs.foldl (fun s y => (Rrc.call s y).2) {} = s at *
      generalize distinct inputs = D at *
      unfold Rrc.call
      rw [h1 z]
      by_cases hz : z ∈ D
      · simp only [hz, if_true]
        exact ⟨h1, h2⟩
      · simp only [hz, if_false]
        constructor
        · intro y
          rw [List.lookup_cons]
          by_cases hy : y = z
          · subst hy
            simp [h2, List.idxOf_append, hz]
          · have hb : (y == z) = false := by simpa using hy
            rw [hb]
            simp only [h1 y, List.mem_append, List.mem_singleton, hy, or_false]
            by_cases hyD : y ∈ D
            · simp [hyD, List.idxOf_append]
            · simp [hyD]
        · rw [h2, List.length_append, List.length_singleton]
          apply BitVec.eq_of_toNat_eq
          simp
  obtain ⟨h1, h2⟩ := inv
  unfold Rrc.call
  rw [h1 x]
  by_cases hx : x ∈ distinct inputs
  · simp [hx]
  · simp only [hx, if_false]
    rw [List.idxOf_eq_length hx, h2]

/-- **C51** So long as there are fewer than `2^64` different inputs, the results of two calls are the
same exactly when the inputs are. -/
theorem C51_same_iff (inputs : List Bytes) (x y : Bytes) (hx : x ∈ inputs) (hy : y ∈ inputs)
    (hl : inputs.length < 2 ^ 64) (s : Rrc)
    (hs : s = inputs.foldl (fun s y => (s.call y).2) {}) :
    (s.call x).1 = (s.call y).1 ↔ x = y := by
  rw [C51_consistent inputs x s hs, C51_consistent inputs y s hs]
  have hd : (∀ z ∈ inputs, z ∈ distinct inputs) ∧ (distinct inputs).length ≤ inputs.length := by
    clear hs hx hy hl
    induction inputs using List.reverseRecOn with
    | nil => exact ⟨by simp, by simp [distinct]⟩
    | append_singleton inputs z ih =>
      have hd : distinct (inputs ++ [z]) =
          if z ∈ distinct inputs then distinct inputs else distinct inputs ++ [z] := by
        simp only [distinct, List.foldl_append, List.foldl_cons, List.foldl_nil]
        congr
      rw [hd]
      constructor
      · intro w hw
        rcases List.mem_append.mp hw with h | h
        · have := ih.1 w h
          split
          · exact this
          · exact List.mem_append_left _ this
        · rw [List.mem_singleton] at h
          subst h
          split
          · assumption
          · simp
      · have := ih.2
        split <;> simp <;> omega
  constructor
  · intro h
    have e := congrArg BitVec.toNat h
    have bx := List.idxOf_lt_length_of_mem (hd.1 x hx)
    have bY := List.idxOf_lt_length_of_mem (hd.1 y hy)
    have b := hd.2
    rw [BitVec.toNat_ofNat, BitVec.toNat_ofNat, Nat.mod_eq_of_lt (by omega), Nat.mod_eq_of_lt (by omega)] at e
    exact (List.idxOf_inj (hd.1 x hx)).mp e
  · rintro rfl
    rfl

example : (([[1], [2], [1], [3]] : List Bytes).foldl (fun (s : Rrc) y => (s.call y).2) {}).hashes =
    [([3], 2), ([2], 1), ([1], 0)] := by decide +kernel

end Bm.Hash
