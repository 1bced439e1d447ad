import Verif.Lemmas.Header

/-!
# C29: field extraction reads exactly the right bits
-/

namespace Bm.Extract

open Bm.Spec

/-- **C29** for `generic_extract`, all widths, offsets and packets, except an empty field that does
not start on a byte: the result has `ceil(w / 8)` bytes and its bits are the `w` packet bits from
bit `o` on, after zero bits; nothing outside a buffer is touched (the result is not `none`).
What is missing from the full claim is false, see `C29_refuted`. -/
theorem C29_partial (data : Bytes) (o w : Nat) (ho : o < 8) (h0 : o = 0 ∨ w ≠ 0)
    (hl : (o + w + 7) / 8 ≤ data.length) :
    ∃ dst, genericExtract data o w = some dst ∧ dst.length = (w + 7) / 8 ∧
      bytesBits dst = List.replicate (8 * ((w + 7) / 8) - w) false ++ ((bytesBits data).drop o).take w :=
  genericExtract_spec data o w ho h0 hl

/-- As a number: the big-endian value of the result is the value of those packet bits. -/
theorem C29_value (data : Bytes) (o w : Nat) (ho : o < 8) (h0 : o = 0 ∨ w ≠ 0)
    (hl : (o + w + 7) / 8 ≤ data.length) :
    ∃ dst, genericExtract data o w = some dst ∧
      Data.importBytes dst = (bitsNat (((bytesBits data).drop o).take w) : Nat) := by
  obtain ⟨dst, h1, _, h3⟩ := genericExtract_spec data o w ho h0 hl
  refine ⟨dst, h1, ?_⟩
  rw [Data.importBytes_eq, h3, Field.bitsNat_pad]

/-- Only the bytes that the field touches matter. -/
theorem C29_local (data : Bytes) (o w : Nat) (ho : o < 8) (h0 : o = 0 ∨ w ≠ 0)
    (hl : (o + w + 7) / 8 ≤ data.length) (rest : Bytes) :
    genericExtract data o w = genericExtract (data.take ((o + w + 7) / 8) ++ rest) o w := by
  have hlen : (data.take ((o + w + 7) / 8)).length = (o + w + 7) / 8 := by
    rw [List.length_take]; omega
  obtain ⟨dst, h1, _, h3⟩ := genericExtract_spec data o w ho h0 hl
  obtain ⟨dst', g1, _, g3⟩ := genericExtract_spec (data.take ((o + w + 7) / 8) ++ rest) o w ho h0
    (by rw [List.length_append, hlen]; omega)
  rw [h1, g1]
  congr 1
  apply bytesBits_inj
  rw [h3, g3, bytesBits_append, bytesBits_take]
  congr 1
  have hb : (bytesBits data).length = 8 * data.length := bytesBits_length data
  rw [List.drop_append_of_le_length (by rw [List.length_take]; omega),
    List.take_append_of_le_length (by rw [List.length_drop, List.length_take]; omega),
    List.drop_take, List.take_take]
  congr 1
  omega

/-- The full claim fails for an empty field (a variable-length field of length 0) that starts inside a
byte: `dst[0]` is written although `dst` has no bytes. -/
theorem C29_refuted : genericExtract [0xab, 0xcd] 4 0 = none := by decide

/-- Thirteen bits from bit 3 on. -/
example : genericExtract [0xab, 0xcd, 0xef] 3 13 = some [0x0b, 0xcd] := by decide

/-- Twelve bits that spread over three bytes. -/
example : genericExtract [0xab, 0xcd, 0xef] 6 12 = some [0x0f, 0x37] := by decide

end Bm.Extract
