import Verif.Model.PsaHash
import Verif.Props.Header
import Verif.Props.PsaCksum

/-!
# The extern `Hash` of psa_switch

C72.  What is hashed is the number written by the bits of the fields, one after another, in as few
whole bytes as hold these bits; the destination gets the hash, for `get_hash_mod` brought into the
range the program asks for.
-/

namespace Bm.PsaHash

open Bm.Spec Bm.Extract Bm.Field Bm.Header

/-- The buffer holds `bits` and zeros behind them. -/
structure Inv (buf : Bytes) (bits : List Bool) : Prop where
  le : bits.length ≤ 8 * buf.length
  eq : bytesBits buf = bits ++ List.replicate (8 * buf.length - bits.length) false

theorem put_spec {buf : Bytes} {bits : List Bool} (h : Inv buf bits) {f : Field} (hf : Padded f)
    (hl : bits.length + f.nbits ≤ 8 * buf.length) :
    ∃ buf', put f buf bits.length = some (buf', bits.length + f.nbits) ∧
      buf'.length = buf.length ∧ Inv buf' (bits ++ fieldBits f) := by
  obtain ⟨h1, h2⟩ := h
  have hfl : (fieldBits f).length = f.nbits := fieldBits_length hf.shape
  obtain ⟨d, e1, e2, z, ⟨e3, e4⟩, e5⟩ := genericDeparse_spec f.bytes (buf.drop (bits.length / 8)) f.nbits
    (bits.length % 8) (by omega) (by rw [hf.shape.len, hf.shape.nbytes]) hf.pad
    (by rw [List.length_drop]; omega)
  have hdst : bytesBits (buf.drop (bits.length / 8)) = bits.drop (8 * (bits.length / 8))
      ++ List.replicate (8 * buf.length - bits.length) false := by
    rw [bytesBits_drop, h2, List.drop_append_of_le_length (by omega)]
  have hz : z = List.replicate z.length false := by
    rcases e4 with e4 | e4
    · exact e4
    · rw [hdst, List.drop_append, List.drop_eq_nil_of_le (by rw [List.length_drop]; omega),
        List.nil_append, List.drop_replicate, List.take_replicate] at e4
      have := congrArg List.length e4
      rw [List.length_replicate] at this
      rw [← this] at e4
      exact e4
  have p1 : (bytesBits (buf.drop (bits.length / 8))).take (bits.length % 8)
      = bits.drop (8 * (bits.length / 8)) := by
    rw [hdst]
    exact List.take_left' (by rw [List.length_drop]; omega)
  have p2 : (bytesBits (buf.drop (bits.length / 8))).drop (8 * ((bits.length % 8 + f.nbits + 7) / 8)) =
      List.replicate (8 * buf.length - 8 * ((bits.length + f.nbits + 7) / 8)) false := by
    rw [hdst, List.drop_append, List.drop_eq_nil_of_le (by rw [List.length_drop]; omega),
      List.nil_append, List.drop_replicate, List.length_drop]
    congr 1
    omega
  have hlen : (buf.take (bits.length / 8) ++ d).length = buf.length := by
    rw [List.length_append, List.length_take, e2, List.length_drop]
    omega
  refine ⟨buf.take (bits.length / 8) ++ d, ?_, hlen, ?_, ?_⟩
  · simp only [put, Field.deparse, e1, Option.bind_eq_bind, Option.bind_some]
    rfl
  · rw [hlen, List.length_append, hfl]
    exact hl
  · rw [hlen, bytesBits_append, bytesBits_take, h2, List.take_append_of_le_length (by omega), e5, p1, p2,
      hz]
    change _ ++ (_ ++ (fieldBits f ++ (_ ++ _))) = _
    rw [← List.append_assoc, List.take_append_drop, List.append_assoc, List.replicate_append_replicate]
    congr 3
    rw [e3, List.length_append, hfl]
    omega

theorem fill_spec : ∀ (fs : List Field) {buf : Bytes} {bits : List Bool}, Inv buf bits →
    (∀ f ∈ fs, Padded f) → bits.length + (fs.map (·.nbits)).sum ≤ 8 * buf.length →
    ∃ buf', fill fs buf bits.length = some buf' ∧ buf'.length = buf.length ∧
      Inv buf' (bits ++ fs.flatMap fieldBits)
  | [], buf, bits, h, _, _ => ⟨buf, rfl, rfl, by simpa using h⟩
  | f :: fs, buf, bits, h, hp, hl => by
    simp only [List.map_cons, List.sum_cons] at hl
    have hf := hp f (by simp)
    have hfl : (fieldBits f).length = f.nbits := fieldBits_length hf.shape
    obtain ⟨b1, e1, l1, i1⟩ := put_spec h hf (by omega)
    obtain ⟨b2, e2, l2, i2⟩ := fill_spec fs i1 (fun g hg => hp g (by simp [hg]))
      (by rw [List.length_append, hfl, l1]; omega)
    refine ⟨b2, ?_, by rw [l2, l1], ?_⟩
    · simp only [fill, e1, Option.bind_eq_bind, Option.bind_some]
      rw [← hfl, ← List.length_append]
      exact e2
    · rw [List.flatMap_cons, ← List.append_assoc]
      exact i2

theorem totalBits_eq (fs : List Field) : totalBits fs = (fs.map (·.nbits)).sum := by
  unfold totalBits
  have : ∀ (l : List Field) (n : Nat), l.foldl (fun n f => n + f.nbits) n = n + (l.map (·.nbits)).sum := by
    intro l
    induction l with
    | nil => simp
    | cons f l ih =>
      intro n
      rw [List.foldl_cons, ih, List.map_cons, List.sum_cons]
      omega
  rw [this]
  omega

/-- **C72** What is hashed: whole bytes, as few as hold the bits of the fields, these in order at the
end and less than eight zeros in front.  For fields that hold numbers (`Holds`, kept by every operation
on fields, C28 and C29) the bits are the two's complement forms. -/
theorem C72_buffer (fs : List Field) (h : ∀ f ∈ fs, f.Shape ∧ Holds f) :
    ∃ buf, buildBuffer fs = some buf ∧
      8 * buf.length < (fs.map (·.nbits)).sum + 8 ∧
      bytesBits buf = List.replicate (8 * buf.length - (fs.map (·.nbits)).sum) false ++
        fs.flatMap fun f => intBits f.nbits f.value := by
  have hp : ∀ f ∈ fs, Padded f := fun f hf => (h f hf).2.padded (h f hf).1
  have hb : fs.flatMap (fun f => intBits f.nbits f.value) = fs.flatMap fieldBits := by
    clear hp
    induction fs with
    | nil => rfl
    | cons f fs ih =>
      rw [List.flatMap_cons, List.flatMap_cons, ih fun g hg => h g (by simp [hg])]
      congr 1
      unfold fieldBits
      rw [(h f (by simp)).2.bytes.2]
      exact (List.drop_left' (by simp)).symm
  have hfl : (fs.flatMap fieldBits).length = (fs.map (·.nbits)).sum := by
    clear hb h
    induction fs with
    | nil => rfl
    | cons f fs ih =>
      rw [List.flatMap_cons, List.length_append, List.map_cons, List.sum_cons,
        ih fun g hg => hp g (by simp [hg]), fieldBits_length (hp f (by simp)).shape]
  rw [hb]
  unfold buildBuffer
  dsimp only
  rw [totalBits_eq]
  set n := (fs.map (·.nbits)).sum with hn
  have hi : Inv (List.replicate ((n + 7) / 8) 0) (List.replicate ((n + 7) / 8 * 8 - n) false) := by
    refine ⟨by simp; omega, ?_⟩
    have : ∀ m, bytesBits (List.replicate m (0 : UInt8)) = List.replicate (8 * m) false := by
      intro m
      induction m with
      | zero => rfl
      | succ k ih =>
        rw [List.replicate_succ, bytesBits_cons, ih, show byteBits 0 = List.replicate 8 false by decide,
          List.replicate_append_replicate]
        congr 1
        omega
    rw [this, List.replicate_append_replicate]
    congr 1
    simp
    omega
  obtain ⟨buf, e, l, i1, i2⟩ := fill_spec fs hi hp (by simp only [List.length_replicate, ← hn]; omega)
  rw [List.length_replicate] at e l
  refine ⟨buf, e, by omega, ?_⟩
  rw [i2, l, List.length_append, hfl, List.length_replicate,
    show 8 * ((n + 7) / 8) - ((n + 7) / 8 * 8 - n + n) = 0 by omega]
  simp only [List.replicate_zero, List.append_nil]
  congr 2
  omega

theorem set_mod {dst : Field} (hd : dst.Shape) (hu : dst.isSigned = false)
    (hs : dst.isSaturating = false) (v : Nat) :
    ∃ f, dst.set false v = some f ∧ f.Shape ∧ f.kind = dst.kind ∧
      f.value = ((v % 2 ^ dst.nbits : Nat) : Int) := by
  obtain ⟨f, e, h1, h2, -, -, -, -, -, -, h3, -⟩ := Field.set_spec hd v
  obtain ⟨⟨h4, h5⟩, h6⟩ := h3 (by unfold Field.Odd; simp [hu])
  refine ⟨f, e, h1, h2, ?_⟩
  unfold Kind.Assigned at h6
  rw [if_neg (by simp [Field.kind, hs])] at h6
  unfold Kind.lowest Field.kind at h4
  unfold Kind.highest Field.kind at h5
  simp only [hu, Bool.false_eq_true, if_false] at h4 h5
  push_cast
  have e1 : f.value % 2 ^ dst.nbits = f.value := Int.emod_eq_of_lt h4 (by omega)
  have e2 : (v : Int) % 2 ^ dst.nbits = f.value % 2 ^ dst.nbits :=
    Int.emod_eq_emod_iff_emod_sub_eq_zero.2 (Int.emod_eq_zero_of_dvd h6.2)
  rw [e2, e1]

/-- The bytes `buf` are the number written by the bits of the fields. -/
def Hashed (fs : List Field) (buf : Bytes) : Prop :=
  8 * buf.length < (fs.map (·.nbits)).sum + 8 ∧
    bytesBits buf = List.replicate (8 * buf.length - (fs.map (·.nbits)).sum) false ++
      fs.flatMap fun f => intBits f.nbits f.value

/-- There is only one such byte string. -/
theorem Hashed.unique {fs : List Field} {a b : Bytes} (ha : Hashed fs a) (hb : Hashed fs b) : a = b := by
  have hl : (fs.flatMap fun f => intBits f.nbits f.value).length = (fs.map (·.nbits)).sum := by
    clear ha hb
    induction fs with
    | nil => rfl
    | cons f fs ih => simp [List.flatMap_cons, intBits, ih]
  have la := congrArg List.length ha.2
  have lb := congrArg List.length hb.2
  simp only [bytesBits_length, List.length_append, List.length_replicate, hl] at la lb
  have h1 := ha.1
  have h2 := hb.1
  have : a.length = b.length := by omega
  apply bytesBits_inj
  rw [ha.2, hb.2, this]

/-- **C72**, `get_hash`: the destination is assigned the hash of these bytes. -/
theorem C72_hash (hash : Bytes → BitVec 64) (fs : List Field) (h : ∀ f ∈ fs, f.Shape ∧ Holds f)
    {dst : Field} (hd : dst.Shape) (hu : dst.isSigned = false) (hs : dst.isSaturating = false) :
    ∃ buf f, Hashed fs buf ∧ getHash hash dst false fs = some f ∧ f.Shape ∧ f.kind = dst.kind ∧
      f.value = (((hash buf).toNat % 2 ^ dst.nbits : Nat) : Int) := by
  obtain ⟨buf, e, h1, h2⟩ := C72_buffer fs h
  obtain ⟨f, e2, h3, h4, h5⟩ := set_mod hd hu hs (hash buf).toNat
  exact ⟨buf, f, ⟨h1, h2⟩, by simp [getHash, e, e2], h3, h4, h5⟩

/-- **C72**, `get_hash_mod`: a number of the range `base, …, base + max - 1`, given by the hash, when
these numbers fit in 64 bits and in the destination. -/
theorem C72_hash_mod (hash : Bytes → BitVec 64) (fs : List Field) (h : ∀ f ∈ fs, f.Shape ∧ Holds f)
    {dst : Field} (hd : dst.Shape) (hu : dst.isSigned = false) (hs : dst.isSaturating = false)
    (base max : Nat) (h0 : 0 < max) (h64 : base + max ≤ 2 ^ 64) (hw : base + max ≤ 2 ^ dst.nbits)
    (hm : max < 2 ^ 64) :
    ∃ buf f, Hashed fs buf ∧ getHashMod hash dst false base fs max = some f ∧ f.Shape ∧
      f.kind = dst.kind ∧ f.value = ((base + (hash buf).toNat % max : Nat) : Int) ∧
      base ≤ f.value ∧ f.value < base + max := by
  obtain ⟨buf, e, h1, h2⟩ := C72_buffer fs h
  have hlt : (hash buf).toNat % max < max := Nat.mod_lt _ h0
  have e1 : getU64 base = some (BitVec.ofNat 64 base) := by
    unfold getU64
    rw [if_pos (by omega)]
    rfl
  have e2 : getU64 max = some (BitVec.ofNat 64 max) := by
    unfold getU64
    rw [if_pos (by omega)]
    rfl
  have e3 : inRange (BitVec.ofNat 64 base) (BitVec.ofNat 64 max) (hash buf) =
      some (BitVec.ofNat 64 base + hash buf % BitVec.ofNat 64 max) := by
    unfold inRange
    rw [if_neg]
    intro e
    have := congrArg BitVec.toNat e
    rw [BitVec.toNat_ofNat, Nat.mod_eq_of_lt hm] at this
    exact absurd this (by simp; omega)
  have e4 : (BitVec.ofNat 64 base + hash buf % BitVec.ofNat 64 max).toNat =
      base + (hash buf).toNat % max := by
    rw [BitVec.toNat_add, BitVec.toNat_umod, BitVec.toNat_ofNat, BitVec.toNat_ofNat,
      Nat.mod_eq_of_lt hm, Nat.mod_eq_of_lt (by omega : base < 2 ^ 64), Nat.mod_eq_of_lt (by omega)]
  obtain ⟨f, e5, h3, h4, h5⟩ := set_mod hd hu hs (base + (hash buf).toNat % max)
  rw [Nat.mod_eq_of_lt (by omega)] at h5
  refine ⟨buf, f, ⟨h1, h2⟩, ?_, h3, h4, h5, by omega, by omega⟩
  simp only [getHashMod, e, e1, e2, e3, Option.bind_eq_bind, Option.bind_some, e4, e5]

/-- **C72** A range of no numbers is undefined behaviour (a division by 0). -/
theorem C72_empty_range (hash : Bytes → BitVec 64) (fs : List Field) (dst : Field) (inv : Bool)
    (base : Int) : getHashMod hash dst inv base fs 0 = none := by
  unfold getHashMod
  cases buildBuffer fs with
  | none => rfl
  | some buf =>
    simp only [Option.bind_eq_bind, Option.bind_some]
    cases getU64 base with
    | none => rfl
    | some b => rfl

namespace Ex

/-- A field of `w` bits. -/
def field (w : Nat) (signed : Bool) (v : Int) : Option Field := do
  (← Field.mk' w true signed false false false).set false v

/-- Fields of 4 and 9 bits, the second one signed, holding 5 and -1: `0101 1 1111 1111` in two bytes.  The
hash function is the sum of the bytes, the destination has 8 bits. -/
example : ∃ a b d, field 4 false 5 = some a ∧ field 9 true (-1) = some b ∧ field 8 false 0 = some d ∧
    buildBuffer [a, b] = some [0x0b, 0xff] ∧
    (getHash (fun l => BitVec.ofNat 64 (l.foldl (fun n x => n + x.toNat) 0)) d false [a, b]).map
      (·.value) = some 10 ∧
    (getHashMod (fun l => BitVec.ofNat 64 (l.foldl (fun n x => n + x.toNat) 0)) d false 100 [a, b]
      7).map (·.value) = some 100 := by
  refine ⟨_, _, _, rfl, rfl, rfl, ?_⟩
  decide +kernel

/-- The hypotheses of C72: such fields hold numbers. -/
example : ∃ a, field 9 true (-1) = some a ∧ a.Shape ∧ Holds a := by
  refine ⟨_, rfl, ⟨by decide, by decide, by decide, by decide, by decide, by decide⟩, ⟨?_, ?_⟩⟩
  · unfold Kind.Fits
    decide
  · unfold IsBytesOf
    decide

end Ex

end Bm.PsaHash
