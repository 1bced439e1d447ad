import Verif.Lemmas.Crc

/-!
# CRC calculations

C36.  The table-driven loops compute remainders of polynomials over the field with two elements, for
every width of at least 8 bits, every generator, initial value, final xor and reflection; the built-in
tables are those of their generators.
-/

namespace Bm.Crc

open Spec

/-- **C36** The table-driven computation gives the polynomial remainder, and never looks outside the
table. -/
theorem C36_custom {w : Nat} (hw : 8 ≤ w) (c : Config w) (msg : Bytes) :
    ∃ r, custom c (mkTable c.polynomial) msg = some r ∧
      IsCrc c.polynomial c.initialRemainder c.finalXor c.dataReflected c.remainderReflected msg r := by
  obtain ⟨r, hr, hd⟩ := loop_dvd hw c.polynomial c.dataReflected msg c.initialRemainder
  refine ⟨(if c.remainderReflected then reflect r w else r) ^^^ c.finalXor, ?_, ?_⟩
  · simp only [custom, hr, Option.bind_eq_bind, Option.bind_some, Option.pure_def]
  · intro k hk
    rw [remainder, mod_eq _ hd, BitVec.getLsbD_xor, bit_xor, coeff_ofWord]
    congr 2
    split
    · rw [getLsbD_reflect _ _ (Nat.le_refl w)]
      simp [hk]
    · rfl

/-- Reconfiguration: whatever configurations were set before, the one set last is used, with its
table. -/
theorem C36_reconfigured {w : Nat} (hw : 8 ≤ w) (c0 : Config w) (cs : List (Config w)) (c : Config w)
    (msg : Bytes) (o : Obj w) (ho : o = (cs ++ [c]).foldl Obj.update (Obj.new c0)) :
    ∃ r, custom o.config o.table msg = some r ∧
      IsCrc c.polynomial c.initialRemainder c.finalXor c.dataReflected c.remainderReflected msg r := by
  rw [List.foldl_append] at ho
  subst ho
  exact C36_custom hw c msg

/-- **C36** The built-in tables are generated by the polynomials 0x8005, 0x1021 and 0x04c11db7. -/
theorem C36_tables : table16 = mkTable 0x8005 ∧ tableCCITT = mkTable 0x1021 ∧
    table32 = mkTable 0x04c11db7 := by
  refine ⟨?_, ?_, ?_⟩ <;> decide +kernel

/-- **C36** `crc16`: generator 0x8005, reflected. -/
theorem C36_crc16 (msg : Bytes) : ∃ r, crc16 msg = some r ∧ IsCrc 0x8005#16 0 0 true true msg r := by
  obtain ⟨r, h1, h2⟩ := C36_custom (by decide) init16 msg
  refine ⟨r, ?_, h2⟩
  rw [← h1, crc16, C36_tables.1]
  rfl

/-- **C36** `crc32`: generator 0x04c11db7, reflected, initial value and final xor all ones. -/
theorem C36_crc32 (msg : Bytes) : ∃ r, crc32 msg = some r ∧
    IsCrc 0x04c11db7#32 0xffffffff 0xffffffff true true msg r := by
  obtain ⟨r, h1, h2⟩ := C36_custom (by decide) init32 msg
  refine ⟨r, ?_, h2⟩
  rw [← h1, crc32, C36_tables.2.2]
  rfl

/-- **C36** `crcCCITT`: generator 0x1021, initial value all ones, not reflected. -/
theorem C36_crcCCITT (msg : Bytes) : ∃ r, crcCCITT msg = some r ∧
    IsCrc 0x1021#16 0xffff 0 false false msg r := by
  obtain ⟨r, h1, h2⟩ := C36_custom (w := 16) (by decide) ⟨0x1021, 0xffff, 0, false, false⟩ msg
  refine ⟨r, ?_, h2⟩
  rw [← h1, crcCCITT, C36_tables.2.1]
  rfl

/-- Until reconfigured, the custom CRCs of 16 and 32 bits are `crc16` and `crc32`. -/
theorem C36_defaults (msg : Bytes) :
    custom (Obj.new init16).config (Obj.new init16).table msg = crc16 msg ∧
    custom (Obj.new init32).config (Obj.new init32).table msg = crc32 msg := by
  constructor
  · rw [crc16, C36_tables.1]
    rfl
  · rw [crc32, C36_tables.2.2]
    rfl

/-- The check value is determined by `IsCrc`. -/
theorem C36_unique {w : Nat} (p i x : BitVec w) (ri ro : Bool) (msg : Bytes) (r r' : BitVec w)
    (h : IsCrc p i x ri ro msg r) (h' : IsCrc p i x ri ro msg r') : r = r' := by
  apply BitVec.eq_of_getLsbD_eq
  intro k hk
  have e := (h k hk).trans (h' k hk).symm
  revert e
  cases r.getLsbD k <;> cases r'.getLsbD k <;> decide

/-- The well-known check values of "123456789". -/
example : crc16 [49, 50, 51, 52, 53, 54, 55, 56, 57] = some 0xbb3d ∧
    crc32 [49, 50, 51, 52, 53, 54, 55, 56, 57] = some 0xcbf43926 ∧
    crcCCITT [49, 50, 51, 52, 53, 54, 55, 56, 57] = some 0x29b1 ∧
    custom init8 (mkTable init8.polynomial) [49, 50, 51, 52, 53, 54, 55, 56, 57] = some 0xf4 := by
  refine ⟨?_, ?_, ?_, ?_⟩ <;> decide +kernel

end Bm.Crc
