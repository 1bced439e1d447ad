import Verif.Model.SimpleSwitch

/-!
# C41: the flags of a packet in `simple_switch`
-/

namespace Bm.SSwitch

/-- The five flags. -/
def flags : List Flag := [cloneSession, cloneList, learnList, resubmitFlag, recirculateFlag]

theorem flags_shift : ∀ f ∈ flags, f.shift ≤ 48 := by decide

/-- The masks cover 16 bits. -/
theorem flags_mask : ∀ f ∈ flags, ∀ i : Nat, i < 64 →
    f.mask.getLsbD i = decide (f.shift ≤ i ∧ i < f.shift + 16) := by
  decide +kernel

/-- Bit `i` of a flag is bit `shift + i` of its register. -/
theorem getFlag_bit {f : Flag} (hf : f ∈ flags) (r : Regs) (i : Nat) (hi : i < 16) :
    (getFlag f r).getLsbD i = (r f.reg).getLsbD (f.shift + i) := by
  have hm : f.mask.getLsbD (f.shift + i) = true := by
    have := flags_mask f hf (f.shift + i) (by have := flags_shift f hf; omega)
    rw [this]
    exact decide_eq_true (by omega)
  simp [getFlag, BitVec.getLsbD_setWidth, hm, hi]

/-- The bits of a register after a flag in it is set. -/
theorem setFlag_bit {f : Flag} (hf : f ∈ flags) (r : Regs) (v : BitVec 16) (i : Nat) (hi : i < 64) :
    (setFlag f r v f.reg).getLsbD i =
      if f.shift ≤ i ∧ i < f.shift + 16 then v.getLsbD (i - f.shift) else (r f.reg).getLsbD i := by
  have hm := flags_mask f hf i hi
  simp only [setFlag, setReg, if_true, BitVec.getLsbD_or, BitVec.getLsbD_and, BitVec.getLsbD_not, hm,
    BitVec.getLsbD_shiftLeft, BitVec.getLsbD_setWidth, hi, decide_true, Bool.true_and]
  by_cases h : f.shift ≤ i ∧ i < f.shift + 16
  · have : i - f.shift < 64 := by omega
    have h2 : ¬ i < f.shift := by omega
    simp [h, this, h2]
  · rw [if_neg h]
    by_cases h1 : i < f.shift
    · simp [h, h1]
    · have : v.getLsbD (i - f.shift) = false := BitVec.getLsbD_of_ge _ _ (by omega)
      simp [h, this]

theorem setFlag_other {f : Flag} (r : Regs) (v : BitVec 16) {i : Fin 4} (hi : i ≠ f.reg) :
    setFlag f r v i = r i := by
  simp [setFlag, setReg, hi]

/-- Different flags do not overlap. -/
theorem flags_apart : ∀ f ∈ flags, ∀ g ∈ flags, f ≠ g →
    f.reg ≠ g.reg ∨ f.shift + 16 ≤ g.shift ∨ g.shift + 16 ≤ f.shift := by
  decide

/-- **C41**.  A flag is read back as written; every other flag, the packet length (register 0) and the
register not used keep their contents. -/
theorem C41 (f : Flag) (hf : f ∈ flags) (r : Regs) (v : BitVec 16) :
    getFlag f (setFlag f r v) = v ∧
    (∀ g ∈ flags, g ≠ f → getFlag g (setFlag f r v) = getFlag g r) ∧
    setFlag f r v lenReg = r lenReg ∧ setFlag f r v 3 = r 3 := by
  refine ⟨?_, fun g hg hne => ?_, ?_, ?_⟩
  · apply BitVec.eq_of_getLsbD_eq
    intro i hi
    have := flags_shift f hf
    rw [getFlag_bit hf _ _ hi, setFlag_bit hf _ _ _ (by omega), if_pos (by omega)]
    congr 1
    omega
  · apply BitVec.eq_of_getLsbD_eq
    intro i hi
    rw [getFlag_bit hg _ _ hi, getFlag_bit hg _ _ hi]
    by_cases hr : g.reg = f.reg
    · have := flags_shift g hg
      rw [hr, setFlag_bit hf _ _ _ (by omega), if_neg]
      rcases flags_apart g hg f hf hne with h | h | h
      · exact absurd hr h
      · omega
      · omega
    · rw [setFlag_other _ _ hr]
  · apply setFlag_other
    revert f
    decide
  · apply setFlag_other
    revert f
    decide

/-- `clear_all` clears all flags and keeps the packet length. -/
theorem C41_clear (r : Regs) : (∀ f ∈ flags, getFlag f (clearAll r) = 0) ∧ clearAll r lenReg = r lenReg := by
  refine ⟨fun f hf => ?_, ?_⟩
  · have h : clearAll r f.reg = 0 := by
      have : f.reg = 1 ∨ f.reg = 2 := by revert f; decide
      rcases this with h | h <;> simp [clearAll, setReg, h]
    unfold getFlag
    rw [h]
    simp
  · rfl

/-- Registers that are full of ones: one flag is changed. -/
example : getFlag learnList (setFlag learnList (fun _ => 0xffffffffffffffff) 0x1234) = 0x1234 ∧
    getFlag cloneList (setFlag learnList (fun _ => 0xffffffffffffffff) 0x1234) = 0xffff ∧
    setFlag learnList (fun _ => 0xffffffffffffffff) 0x1234 1 = 0xffff1234ffffffff := by
  decide

end Bm.SSwitch
