import Verif.Lemmas.Cksum

/-!
# The checksum

C35.  Both functions called `cksum16` compute the Internet checksum of RFC 1071: the calculation
returns it as a number, the checksum engine in network byte order.  `C35_receiver` is the use of it:
with the checksum in its place the one's complement sum of the data is all ones.
-/

namespace Bm.Cksum

/-- **C35** The calculation `cksum16` (and `csum16`) is the Internet checksum, for data of any length. -/
theorem C35_checksum (buf : Bytes) : cksum16 buf = Spec.checksum buf := swap16_core buf

/-- **C35** for the function of the checksum engine, whose result is used as two bytes. -/
theorem C35_checksum_bytes (buf : Bytes) : cksum16Bytes buf =
    [(Spec.checksum buf / 256).toUInt8, (Spec.checksum buf % 256).toUInt8] := by
  obtain ⟨t, h1, h2, -⟩ := core_rep buf
  rw [← swap16_core buf]
  unfold cksum16Bytes
  generalize core buf = x at *
  have e1 : swap16 x / 256 = x % 256 := by unfold swap16; omega
  have e2 : swap16 x % 256 = x / 256 := by unfold swap16; omega
  rw [e1, e2]

theorem words_append : ∀ (a b : Bytes), a.length % 2 = 0 →
    Spec.words (a ++ b) = Spec.words a ++ Spec.words b
  | [], b, _ => rfl
  | [x], b, h => by simp at h
  | x :: y :: a, b, h => by
    simp only [List.cons_append, Spec.words]
    rw [words_append a b (by simp only [List.length_cons] at h; omega)]

/-- What the checksum is for: computed with zero in its place and then put there, at an even offset,
it makes the one's complement sum of the data all ones. -/
theorem C35_receiver (a b : Bytes) (h : a.length % 2 = 0) :
    Spec.sum (a ++ cksum16Bytes (a ++ [0, 0] ++ b) ++ b) = 65535 := by
  rw [C35_checksum_bytes]
  have hs : Spec.checksum (a ++ [0, 0] ++ b) + Spec.sum (a ++ [0, 0] ++ b) = 65535 := by
    have := (spec_rep (a ++ [0, 0] ++ b)).1
    unfold Spec.checksum
    omega
  have hr : ∀ c : Nat, c ≤ 65535 →
      Spec.sum (a ++ [(c / 256).toUInt8, (c % 256).toUInt8] ++ b) ≤ 65535 ∧
      Rep (Spec.sum (a ++ [(c / 256).toUInt8, (c % 256).toUInt8] ++ b))
        (c + ((Spec.words a).sum + (Spec.words b).sum)) := by
    intro c hc
    have hm := (words_le (a ++ [(c / 256).toUInt8, (c % 256).toUInt8] ++ b)).1
    obtain ⟨h1, h2⟩ := foldl_add _ 0 (by omega) hm
    refine ⟨h1, h2.trans ?_⟩
    have e1 : (c / 256).toUInt8.toNat = c / 256 := by
      simp only [Nat.toUInt8, UInt8.toNat_ofNat']
      omega
    have e2 : (c % 256).toUInt8.toNat = c % 256 := by
      simp only [Nat.toUInt8, UInt8.toNat_ofNat']
      omega
    rw [List.append_assoc, words_append _ _ h, words_append _ _ (by simp)]
    simp only [Spec.words, e1, e2, List.sum_append, List.sum_cons, List.sum_nil]
    have : 256 * (c / 256) + c % 256 = c := by omega
    rw [this]
    refine ⟨congrArg (· % 65535) ?_, ?_⟩ <;> omega
  obtain ⟨-, z2⟩ := hr 0 (by omega)
  have hz : a ++ [((0 : Nat) / 256).toUInt8, ((0 : Nat) % 256).toUInt8] ++ b = a ++ [0, 0] ++ b := rfl
  rw [hz] at z2
  obtain ⟨c1, c2⟩ := hr (Spec.checksum (a ++ [0, 0] ++ b)) (by unfold Spec.checksum; omega)
  refine Rep.unique (c2.trans ?_) c1 (by omega)
  obtain ⟨z, z'⟩ := z2
  refine ⟨?_, ?_⟩ <;> omega

/-- The example of RFC 1071, and an odd number of bytes with carries. -/
example : Spec.sum [0x00, 0x01, 0xf2, 0x03, 0xf4, 0xf5, 0xf6, 0xf7] = 0xddf2 ∧
    cksum16 [0x00, 0x01, 0xf2, 0x03, 0xf4, 0xf5, 0xf6, 0xf7] = 0x220d ∧
    cksum16 [0xff, 0xff, 0xff, 0xff, 0xff, 0xff, 0xff, 0xff, 0xff, 0xff, 0xff, 0xff, 0x01] = 0xfeff := by
  decide +kernel

/-- An IPv4 header: the sum with the checksum in place, at byte offset 10. -/
example : cksum16Bytes ([0x45, 0, 0, 0x73, 0, 0, 0x40, 0, 0x40, 0x11] ++ [0, 0] ++
    [0xc0, 0xa8, 0, 1, 0xc0, 0xa8, 0, 0xc7]) = [0xb8, 0x61] := by decide +kernel

end Bm.Cksum
