import Verif.Model.Field
import Verif.Spec.Field
import Verif.Lemmas.Deparse
import Mathlib.Data.Nat.Bitwise

/-!
# Lemmas on big numbers and fields
-/

namespace Bm.Data

open Bm.Spec

/-- Masking is reduction modulo a power of two, also for negative numbers. -/
theorem land_mask (x : Int) (n : Nat) : x.land (2 ^ n - 1) = x % 2 ^ n := by
  have hp : 0 < 2 ^ n := Nat.two_pow_pos n
  have hm : (2 ^ n - 1 : Int) = ((2 ^ n - 1 : Nat) : Int) := by
    rw [Nat.cast_sub (by omega)]
    push_cast
    rfl
  rw [hm]
  cases x with
  | ofNat a =>
    change Int.ofNat (a &&& (2 ^ n - 1)) = _
    rw [Nat.and_two_pow_sub_one_eq_mod]
    simp
  | negSucc m =>
    change Int.ofNat (Nat.ldiff (2 ^ n - 1) m) = _
    have h1 : Nat.ldiff (2 ^ n - 1) m = 2 ^ n - 1 - m % 2 ^ n := by
      apply Nat.eq_of_testBit_eq
      intro i
      rw [Nat.testBit_ldiff, Nat.testBit_two_pow_sub_one]
      have : 2 ^ n - 1 - m % 2 ^ n = 2 ^ n - (m % 2 ^ n + 1) := by omega
      rw [this, Nat.testBit_two_pow_sub_succ (Nat.mod_lt _ hp), Nat.testBit_mod_two_pow]
      by_cases h : i < n <;> simp [h]
    rw [h1, Int.negSucc_eq]
    have h2 : m % 2 ^ n < 2 ^ n := Nat.mod_lt _ hp
    have h3 := Nat.mod_add_div m (2 ^ n)
    have h4 : (-((m : Int) + 1)) = ((2 ^ n - 1 - m % 2 ^ n : Nat) : Int) + (2 ^ n : Int) * (-((m / 2 ^ n : Nat) : Int) - 1) := by
      rw [Nat.cast_sub (by omega), Nat.cast_sub (by omega)]
      have : (m : Int) = ((m % 2 ^ n : Nat) : Int) + (2 ^ n : Int) * ((m / 2 ^ n : Nat) : Int) := by
        exact_mod_cast h3.symm
      push_cast at *
      linarith
    rw [h4, Int.add_mul_emod_self_left]
    symm
    apply Int.emod_eq_of_lt
    · exact Int.natCast_nonneg _
    · have : 2 ^ n - 1 - m % 2 ^ n < 2 ^ n := by omega
      exact_mod_cast this

theorem importBytes_eq (l : Bytes) : importBytes l = (bitsNat (bytesBits l) : Nat) := by
  have h : ∀ (a : Nat), l.foldl (fun a b => a * 256 + b.toNat) a
      = a * 2 ^ (8 * l.length) + bitsNat (bytesBits l) := by
    induction l with
    | nil => intro a; simp [bitsNat]
    | cons b l ih =>
      intro a
      rw [List.foldl_cons, ih, bytesBits_cons, bitsNat_append, bitsNat_byteBits, bytesBits_length,
        List.length_cons, show 8 * (l.length + 1) = 8 * l.length + 8 by omega, Nat.pow_add]
      ring
  unfold importBytes
  rw [h 0]
  simp

theorem beBytes_length (size n : Nat) : (beBytes size n).length = size := by
  induction size with
  | zero => rfl
  | succ s ih => simp [beBytes, ih]

theorem bytesBits_beBytes (size n : Nat) : bytesBits (beBytes size n) = natBits (8 * size) n := by
  induction size with
  | zero => rfl
  | succ s ih =>
    rw [beBytes, bytesBits_cons, ih, show 8 * (s + 1) = 8 + 8 * s by omega, natBits_append]
    congr 1
    unfold byteBits
    apply natBits_congr
    rw [show (256 : Nat) ^ s = 2 ^ (8 * s) by rw [Nat.pow_mul]]
    simp

theorem natBits_zero (w : Nat) : natBits w 0 = List.replicate w false := by
  induction w with
  | zero => rfl
  | succ w ih => simp [natBits, ih, List.replicate_succ]

theorem natBits_of_lt {w n k : Nat} (h : n < 2 ^ w) (hk : w ≤ k) :
    natBits k n = List.replicate (k - w) false ++ natBits w n := by
  have : k = (k - w) + w := by omega
  rw [this, natBits_append, Nat.div_eq_of_lt h, natBits_zero]
  simp

theorem bytesBits_zero (l : Bytes) :
    bytesBits (l.map fun _ => (0 : UInt8)) = List.replicate (8 * l.length) false := by
  induction l with
  | nil => rfl
  | cons b l ih =>
    rw [List.map_cons, bytesBits_cons, ih, show byteBits 0 = List.replicate 8 false by decide,
      List.replicate_append_replicate, List.length_cons]
    congr 1; omega

/-- Exporting a number that fits. -/
theorem exportBytes_spec (dst : Bytes) (w : Nat) (v : Int) (hv : 0 ≤ v) (hw : v < 2 ^ w)
    (hd : dst.length = (w + 7) / 8) :
    ∃ l, exportBytes (dst.map fun _ => 0) ((w + 7) / 8) v = some l ∧ l.length = (w + 7) / 8 ∧
      bytesBits l = List.replicate (8 * ((w + 7) / 8) - w) false ++ natBits w v.toNat := by
  obtain ⟨n, rfl⟩ := Int.eq_ofNat_of_zero_le hv
  have hn : n < 2 ^ w := by exact_mod_cast hw
  unfold exportBytes
  by_cases h0 : (n : Int) = 0
  · rw [if_pos h0]
    have : n = 0 := by exact_mod_cast h0
    subst this
    refine ⟨_, rfl, by simp [hd], ?_⟩
    rw [bytesBits_zero, hd]
    simp only [Int.ofNat_eq_natCast, Nat.cast_zero, Int.toNat_zero, natBits_zero,
      List.replicate_append_replicate]
    congr 1; omega
  · rw [if_neg h0]
    have h1 : (n : Int).natAbs < 256 ^ ((w + 7) / 8) := by
      rw [show (256 : Nat) = 2 ^ 8 by rfl, ← Nat.pow_mul]
      simp only [Int.natAbs_natCast]
      exact lt_of_lt_of_le hn (Nat.pow_le_pow_right (by omega) (by omega))
    rw [if_pos h1]
    refine ⟨_, rfl, beBytes_length _ _, ?_⟩
    rw [bytesBits_beBytes]
    simp only [Int.natAbs_natCast, Int.toNat_natCast]
    exact natBits_of_lt hn (by omega)

end Bm.Data

namespace Bm.Field

open Bm.Spec Bm.Data Bm.Extract

/-- The kind of a field. -/
def kind (f : Field) : Kind := ⟨f.nbits, f.isSigned, f.isSaturating⟩

/-- The constants and sizes of a field fit its kind. -/
structure Shape (f : Field) : Prop where
  nbytes : f.nbytes = (f.nbits + 7) / 8
  len : f.bytes.length = f.nbytes
  mask : f.mask = 2 ^ f.nbits - 1
  max : f.max = f.kind.highest
  min : f.min = f.kind.lowest
  sgn : f.isSigned = true → 1 < f.nbits

theorem mk'_shape {n a s h vl sat f} (e : mk' n a s h vl sat = some f) :
    f.Shape ∧ f.nbits = n ∧ f.isSigned = s ∧ f.isSaturating = sat ∧ f.arith = a ∧ f.hidden = h
      ∧ f.value = 0 ∧ f.bytes = List.replicate ((n + 7) / 8) 0 := by
  unfold mk' at e
  split at e
  · cases e
  · rename_i hs
    cases e
    refine ⟨⟨rfl, by simp, rfl, ?_, ?_, ?_⟩, rfl, rfl, rfl, rfl, rfl, rfl, rfl⟩
    · rfl
    · rfl
    · intro h1
      simp only [Bool.and_eq_true, decide_eq_true_eq, not_and] at hs
      have := hs h1
      simp only
      omega

theorem two_pow_half {w : Nat} (h : 1 < w) : (2 ^ w : Int) = 2 * 2 ^ (w - 1) := by
  obtain ⟨k, rfl⟩ : ∃ k, w = k + 1 := ⟨w - 1, by omega⟩
  rw [Nat.add_sub_cancel, pow_succ]
  ring

/-- Taking the bits of a number that has `2 ^ w` added. -/
theorem intBits_of_dvd {w : Nat} {v r : Int} (h : (2 ^ w : Int) ∣ v - r) (h0 : 0 ≤ r) (h1 : r < 2 ^ w) :
    intBits w v = natBits w r.toNat := by
  unfold intBits
  have : v % 2 ^ w = r := by
    rw [← Int.emod_eq_of_lt h0 h1]
    exact Int.emod_eq_emod_iff_emod_sub_eq_zero.2 (Int.emod_eq_zero_of_dvd h)
  rw [this]

/-- The odd case: a value that a signed field does not wrap. -/
def Odd (f : Field) (v : Int) : Prop :=
  f.isSigned = true ∧ f.isSaturating = false ∧ 2 ^ (f.nbits - 1) ≤ v ∧ v < 2 ^ f.nbits

theorem wrap_spec {f : Field} (hf : f.Shape) (v : Int) :
    f.kind.lowest ≤ f.wrap v ∧ f.wrap v < 2 ^ f.nbits ∧ (2 ^ f.nbits : Int) ∣ v - f.wrap v ∧
    (f.isSigned = true → f.wrap v ≤ f.kind.highest ∨ f.wrap v = v) := by
  have hpos : (0 : Int) < 2 ^ f.nbits := by positivity
  have hdvd : (2 ^ f.nbits : Int) ∣ v - v % 2 ^ f.nbits := Int.dvd_self_sub_emod
  have hlt := Int.emod_lt_of_pos v hpos
  have hge := Int.emod_nonneg v (ne_of_gt hpos)
  unfold wrap
  rw [hf.mask, land_mask, hf.max, hf.min]
  unfold kind Kind.lowest Kind.highest
  cases hs : f.isSigned with
  | false =>
    simp only [Bool.not_false, if_true, Bool.false_eq_true, if_false]
    exact ⟨hge, hlt, hdvd, by simp⟩
  | true =>
    have hw := hf.sgn hs
    have h2 := two_pow_half hw
    have hM : (0 : Int) < 2 ^ (f.nbits - 1) := by positivity
    simp only [Bool.not_true, Bool.false_eq_true, if_false, if_true]
    rw [h2] at hdvd hlt hge ⊢
    generalize (2 ^ (f.nbits - 1) : Int) = M at *
    split
    · split
      · refine ⟨by omega, by omega, ?_, fun _ => Or.inl (by omega)⟩
        have : v - (v % (2 * M) - (2 * M - 1 + 1)) = (v - v % (2 * M)) + 2 * M := by ring
        rw [this]
        exact Int.dvd_add hdvd (Int.dvd_refl _)
      · exact ⟨by omega, by omega, hdvd, fun _ => Or.inl (by omega)⟩
    · exact ⟨by omega, by omega, by simp, fun _ => Or.inr rfl⟩

theorem saturate_spec {f : Field} (hf : f.Shape) (v : Int) :
    (f.isSaturating = false → f.saturate v = v) ∧
    (f.isSaturating = true → f.kind.Fits (f.saturate v) ∧ f.kind.Assigned v (f.saturate v)) := by
  unfold saturate
  rw [hf.max, hf.min]
  have hle : f.kind.lowest ≤ f.kind.highest := by
    unfold Kind.lowest Kind.highest
    have h1 : (0 : Int) < 2 ^ (f.kind.w - 1) := by positivity
    have h2 : (0 : Int) < 2 ^ f.kind.w := by positivity
    split <;> omega
  refine ⟨fun h => by simp [h], fun h => ?_⟩
  have hk : f.kind.saturating = true := h
  unfold Kind.Assigned
  simp only [h, hk, if_true]
  unfold Kind.Fits
  split
  · exact ⟨⟨le_refl _, hle⟩, fun _ => rfl, fun h => by omega, fun h => by omega⟩
  · split
    · exact ⟨⟨hle, le_refl _⟩, fun h => by omega, fun _ => rfl, fun h => by omega⟩
    · exact ⟨⟨by omega, by omega⟩, fun h => by omega, fun h => by omega, fun _ => rfl⟩

/-- Wrapping leaves a value in range alone. -/
theorem wrap_fits {f : Field} (hf : f.Shape) {v : Int} (h : f.kind.Fits v) : f.wrap v = v := by
  unfold wrap
  rw [hf.mask, land_mask, hf.max, hf.min]
  unfold kind Kind.Fits Kind.lowest Kind.highest at h
  cases hs : f.isSigned with
  | false =>
    rw [hs] at h
    simp only [Bool.not_false, if_true, Bool.false_eq_true, if_false] at h ⊢
    exact Int.emod_eq_of_lt h.1 (by omega)
  | true =>
    rw [hs] at h
    have hw := hf.sgn hs
    have h2 := two_pow_half hw
    have hM : (0 : Int) < 2 ^ (f.nbits - 1) := by positivity
    unfold kind Kind.lowest Kind.highest
    simp only [Bool.not_true, Bool.false_eq_true, if_false, if_true, hs] at h ⊢
    rw [if_neg]
    rw [h2]
    omega

/-- Every assignment. -/
theorem set_spec {f : Field} (hf : f.Shape) (v : Int) :
    ∃ f', f.set false v = some f' ∧ f'.Shape ∧ f'.kind = f.kind ∧ f'.arith = f.arith ∧
      f'.hidden = f.hidden ∧ f'.vl = f.vl ∧
      IsBytesOf f.nbits f'.value f'.bytes ∧ f.kind.lowest ≤ f'.value ∧ f'.value < 2 ^ f.nbits ∧
      (¬ f.Odd v → f.kind.Fits f'.value ∧ f.kind.Assigned v f'.value) ∧
      (f.Odd v → f'.value = v) := by
  set r := f.wrap (f.saturate v) with hr
  obtain ⟨h1, h2, h3, h4⟩ := wrap_spec hf (f.saturate v)
  rw [← hr] at h1 h2 h3 h4
  obtain ⟨s1, s2⟩ := saturate_spec hf v
  -- the bytes
  have hb : ∃ l, f.bytesFor r = some l ∧ IsBytesOf f.nbits r l := by
    unfold bytesFor
    dsimp only
    by_cases h0 : 0 ≤ r
    · rw [if_pos (Or.inr h0)]
      obtain ⟨l, e1, e2, e3⟩ := exportBytes_spec f.bytes f.nbits r h0 h2 (by rw [hf.len, hf.nbytes])
      rw [hf.nbytes]
      refine ⟨l, e1, e2, ?_⟩
      rw [e3, e2, intBits_of_dvd (by simp) h0 h2]
    · have hs : f.isSigned = true := by
        by_contra hs
        unfold kind Kind.lowest at h1
        simp only [hs] at h1
        exact h0 h1
      have hM : (0 : Int) < 2 ^ (f.nbits - 1) := by positivity
      have h5 := two_pow_half (hf.sgn hs)
      have hmin : f.min = -2 ^ (f.nbits - 1) := by rw [hf.min]; simp [kind, Kind.lowest, hs]
      have hlow : f.kind.lowest = -2 ^ (f.nbits - 1) := by simp [kind, Kind.lowest, hs]
      rw [hlow] at h1
      rw [if_neg (by simp [hs]; omega)]
      have h6 : r - f.min - f.min = r + 2 ^ f.nbits := by rw [hmin, h5]; ring
      rw [h6]
      obtain ⟨l, e1, e2, e3⟩ := exportBytes_spec f.bytes f.nbits (r + 2 ^ f.nbits) (by rw [h5]; omega)
        (by omega) (by rw [hf.len, hf.nbytes])
      rw [hf.nbytes]
      refine ⟨l, e1, e2, ?_⟩
      rw [e3, e2, intBits_of_dvd (r := r + 2 ^ f.nbits) (by simp) (by rw [h5]; omega) (by omega)]
  obtain ⟨l, hl, hlb⟩ := hb
  have hval : (if r ≠ v then r else v) = r := by
    split
    · rfl
    · rename_i h; exact (Classical.not_not.1 h).symm
  refine ⟨{ f with bytes := l, value := r }, ?_, ?_, rfl, rfl, rfl, rfl, hlb, h1, h2, ?_, ?_⟩
  · unfold Field.set Field.exportBytes
    have e1 : ({ f with value := v } : Field).getValue false = v := rfl
    have e2 : ({ f with value := v } : Field).wrap (({ f with value := v } : Field).saturate v) = r := rfl
    simp only [e1, e2, Option.bind_eq_bind]
    rw [show ({ f with value := v } : Field).bytesFor r = some l from hl, Option.bind_some]
    simp only [hval]
    rfl
  · exact ⟨hf.nbytes, by rw [hf.nbytes]; exact hlb.1, hf.mask, hf.max, hf.min, hf.sgn⟩
  · intro hodd
    cases hsat : f.isSaturating with
    | true =>
      obtain ⟨g1, g2⟩ := s2 hsat
      have : r = f.saturate v := wrap_fits hf g1
      rw [this]
      exact ⟨g1, g2⟩
    | false =>
      rw [s1 hsat] at h3 h4 hr
      have hfits : f.kind.Fits r := by
        refine ⟨h1, ?_⟩
        cases hs : f.isSigned with
        | false => simp only [kind, Kind.highest, hs, Bool.false_eq_true, if_false]; omega
        | true =>
          rcases h4 hs with h | h
          · exact h
          · by_contra hc
            apply hodd
            refine ⟨hs, hsat, ?_, by omega⟩
            simp only [kind, Kind.highest, hs, if_true] at hc
            omega
      have hk : f.kind.saturating = false := hsat
      refine ⟨hfits, ?_⟩
      unfold Kind.Assigned
      rw [hk]
      exact ⟨hfits, h3⟩
  · rintro ⟨o1, o2, o3, o4⟩
    change r = v
    rw [hr, s1 o2]
    unfold wrap
    rw [hf.mask, hf.min]
    have : (0 : Int) < 2 ^ (f.nbits - 1) := by positivity
    simp only [o1, Bool.not_true, Bool.false_eq_true, if_false, kind, Kind.lowest, if_true]
    rw [if_neg (by omega)]

theorem bitsNat_pad (n : Nat) (l : List Bool) : bitsNat (List.replicate n false ++ l) = bitsNat l := by
  induction n with
  | zero => rfl
  | succ n ih => simp [List.replicate_succ, bitsNat, ih]

theorem testBit_top {n w : Nat} (h : n < 2 ^ w) (hw : 0 < w) :
    n.testBit (w - 1) = decide (2 ^ (w - 1) ≤ n) := by
  obtain ⟨k, rfl⟩ : ∃ k, w = k + 1 := ⟨w - 1, by omega⟩
  rw [Nat.add_sub_cancel]
  by_cases hk : 2 ^ k ≤ n
  · rw [decide_eq_true hk, Nat.testBit_eq_decide_div_mod_eq]
    have : n / 2 ^ k = 1 := by
      rw [Nat.div_eq_iff (by positivity)]
      rw [Nat.pow_succ] at h
      omega
    simp [this]
  · rw [decide_eq_false hk]
    exact Nat.testBit_lt_two_pow (by omega)

/-- Reading the number back from the bytes. -/
theorem sync_spec {f : Field} (hf : f.Shape) (B : List Bool) (hB : B.length = f.nbits)
    (hb : bytesBits f.bytes = List.replicate (8 * f.nbytes - f.nbits) false ++ B) :
    f.kind.Fits f.syncValue.value ∧ IsBytesOf f.nbits f.syncValue.value f.bytes := by
  have hn : importBytes f.bytes = (bitsNat B : Nat) := by rw [importBytes_eq, hb, bitsNat_pad]
  have hlt : bitsNat B < 2 ^ f.nbits := hB ▸ bitsNat_lt B
  have hltI : ((bitsNat B : Nat) : Int) < 2 ^ f.nbits := by exact_mod_cast hlt
  have hnat : natBits f.nbits (bitsNat B) = B := natBits_bitsNat' B hB
  have key : f.kind.Fits f.syncValue.value ∧ (2 ^ f.nbits : Int) ∣ f.syncValue.value - (bitsNat B : Nat) := by
    unfold syncValue
    simp only [hn]
    cases hs : f.isSigned with
    | false =>
      simp only [Bool.false_and, Bool.false_eq_true, if_false, kind, Kind.Fits, Kind.lowest,
        Kind.highest, hs]
      exact ⟨⟨by omega, by omega⟩, by simp⟩
    | true =>
      have hw := hf.sgn hs
      have h2 := two_pow_half hw
      have hM : (0 : Int) < 2 ^ (f.nbits - 1) := by positivity
      have htb : Data.testBit ((bitsNat B : Nat) : Int) (f.nbits - 1)
          = decide (2 ^ (f.nbits - 1) ≤ bitsNat B) := testBit_top hlt (by omega)
      have hcl : clearBit ((bitsNat B : Nat) : Int) (f.nbits - 1)
          = if 2 ^ (f.nbits - 1) ≤ bitsNat B then ((bitsNat B : Nat) : Int) - 2 ^ (f.nbits - 1)
            else (bitsNat B : Nat) := by
        unfold clearBit
        rw [htb]
        simp
      rw [htb, hcl, hf.min]
      simp only [Bool.true_and, decide_eq_true_eq, kind, Kind.Fits, Kind.lowest, Kind.highest, hs,
        if_true]
      by_cases hge : 2 ^ (f.nbits - 1) ≤ bitsNat B
      · have hgeI : (2 ^ (f.nbits - 1) : Int) ≤ (bitsNat B : Nat) := by exact_mod_cast hge
        rw [if_pos hge, if_pos hge]
        rw [h2] at hltI ⊢
        refine ⟨⟨by omega, by omega⟩, ⟨-1, by ring⟩⟩
      · have hgeI : ¬ (2 ^ (f.nbits - 1) : Int) ≤ (bitsNat B : Nat) := by exact_mod_cast hge
        rw [if_neg hge]
        exact ⟨⟨by omega, by omega⟩, by simp⟩
  refine ⟨key.1, by rw [hf.len, hf.nbytes], ?_⟩
  rw [hb, hf.len, intBits_of_dvd key.2 (by omega) hltI, Int.toNat_natCast, hnat]

theorem syncValue_shape {f : Field} (hf : f.Shape) : f.syncValue.Shape :=
  ⟨hf.nbytes, hf.len, hf.mask, hf.max, hf.min, hf.sgn⟩

/-- The constants of a field fit its kind; its bytes may not have the right length yet. -/
def Shape0 (f : Field) : Prop := ({ f with bytes := List.replicate f.nbytes 0 } : Field).Shape

theorem Shape.shape0 {f : Field} (hf : f.Shape) : f.Shape0 :=
  ⟨hf.nbytes, by simp, hf.mask, hf.max, hf.min, hf.sgn⟩

/-- Extracting a field. -/
theorem extract_spec {f : Field} (hf : f.Shape0) (data : Bytes) (o : Nat) (ho : o < 8)
    (h0 : o = 0 ∨ f.nbits ≠ 0) (hl : (o + f.nbits + 7) / 8 ≤ data.length) :
    ∃ f', f.extract data o = some f' ∧ f'.Shape ∧ f'.kind = f.kind ∧ f'.arith = f.arith ∧
      f'.hidden = f.hidden ∧ f'.vl = f.vl ∧
      bytesBits f'.bytes = List.replicate (8 * f.nbytes - f.nbits) false
        ++ ((bytesBits data).drop o).take f.nbits ∧
      (f.arith = true → f.kind.Fits f'.value ∧ IsBytesOf f.nbits f'.value f'.bytes) := by
  obtain ⟨dst, h1, h2, h3⟩ := genericExtract_spec data o f.nbits ho h0 hl
  unfold extract
  simp only [h1, Option.bind_eq_bind, Option.bind_some]
  have hs : ({ f with bytes := dst } : Field).Shape :=
    ⟨hf.nbytes, by rw [hf.nbytes]; exact h2, hf.mask, hf.max, hf.min, hf.sgn⟩
  have hb : bytesBits dst = List.replicate (8 * f.nbytes - f.nbits) false
        ++ ((bytesBits data).drop o).take f.nbits := by rw [hf.nbytes]; exact h3
  have hlen : (((bytesBits data).drop o).take f.nbits).length = f.nbits := by
    rw [List.length_take, List.length_drop, bytesBits_length]
    omega
  by_cases ha : f.arith = true
  · refine ⟨({ f with bytes := dst } : Field).syncValue, by rw [if_pos ha]; rfl,
      syncValue_shape hs, rfl, rfl, rfl, rfl, hb, fun _ => ?_⟩
    exact sync_spec hs _ hlen hb
  · exact ⟨{ f with bytes := dst }, by rw [if_neg ha]; rfl, hs, rfl, rfl, rfl, rfl, hb,
      fun h => absurd h ha⟩

end Bm.Field
