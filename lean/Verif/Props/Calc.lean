import Verif.Lemmas.Calc
import Verif.Model.Hash
import Verif.Model.Crc
import Verif.Props.Cksum
import Verif.Props.Header

/-!
# The input of calculations, and checksums

C44.  The buffer a calculation runs over is the concatenation of the bits of its entries, filled up
with zero bits to a whole byte, followed by the payload if asked for.

C47.  Verifying a checksum that has just been updated succeeds: always for `IPv4Checksum` if the header
is laid out as an IPv4 header, and for a calculation whose result fits the field
(`C47_calc_partial`, which is exact: with a result that does not fit, verification fails, `C47_refuted`).
-/

namespace Bm.Calc

open Bm.Spec Bm.Extract Bm.Field Bm.Header

/-- Zero bits up to the end of the byte. -/
def padded (l : List Bool) : List Bool := l ++ List.replicate ((8 - l.length % 8) % 8) false

/-- **C44** For entries that exist and fit their declared width, headers starting at byte boundaries:
the buffer is the bits of the entries one after the other, zero bits up to the end of the byte, and the
payload. -/
theorem C44_concat (es : List Entry) (hdrs : List Header) (payload : Option Bytes)
    (hok : ∀ e ∈ es, e.Ok hdrs) (ha : Aligned hdrs 0 es) :
    ∃ buf, build es hdrs payload = some buf ∧
      bytesBits buf = padded (es.flatMap (Entry.bits hdrs)) ++ bytesBits (payload.getD []) := by
  obtain ⟨s, h1, h2, h3, h4⟩ := run_spec (hdrs := hdrs) es (s := ⟨[], 0⟩) (bits := []) ⟨rfl, rfl, rfl⟩ hok ha
  rw [List.nil_append] at h2 h3 h4
  refine ⟨s.buf ++ payload.getD [], by rw [build, h1]; rfl, ?_⟩
  rw [bytesBits_append, h4, padded, h3]
  congr 3
  omega

/-- The bits of a field that holds a number (C31) are the two's complement form of that number. -/
theorem C44_field {f : Field} (hs : f.Shape) (hf : Holds f) : fieldBits f = intBits f.nbits f.value := by
  unfold fieldBits
  rw [hf.bytes.2]
  exact List.drop_left' (by simp)

/-- A header that starts inside a byte fails an assertion. -/
theorem C44_misaligned (pre post : List Entry) (h : Nat) (hdrs : List Header) (payload : Option Bytes)
    (hok : ∀ e ∈ pre, e.Ok hdrs) (ha : Aligned hdrs 0 pre)
    (hm : (pre.flatMap (Entry.bits hdrs)).length % 8 ≠ 0) :
    build (pre ++ .header h :: post) hdrs payload = none := by
  obtain ⟨s, h1, h2, -, -⟩ := run_spec (hdrs := hdrs) pre (s := ⟨[], 0⟩) (bits := []) ⟨rfl, rfl, rfl⟩ hok ha
  rw [List.nil_append] at h2
  unfold build
  rw [List.foldlM_append, h1]
  simp only [Option.bind_eq_bind, Option.bind_some, List.foldlM_cons, step, h2]
  rw [if_pos hm]
  rfl

/-- A header with fields of 4, 12 and 16 bits, holding 0xa, 0xbcd and 0xef11. -/
def exHdr : Option Header :=
  (mk' 0 none [⟨4, false, false, false, false, true⟩, ⟨12, false, false, false, false, true⟩,
    ⟨16, false, false, false, false, true⟩, validInfo true] false).bind (·.extract [0xab, 0xcd, 0xef, 0x11] 0)

/-- A header that is not valid. -/
def exInvalid : Option Header :=
  mk' 0 none [⟨8, false, false, false, false, true⟩, validInfo true] false

/-- Fields, a constant of 4 bits, an invalid header, a header and the payload. -/
example : (exHdr.bind fun a => exInvalid.bind fun b =>
    build [.field 0 1, .const [0x05] 4, .field 1 0, .header 0, .field 0 0] [a, b] (some [1, 2]))
    = some [0xbc, 0xd5, 0xab, 0xcd, 0xef, 0x11, 0xa0, 1, 2] := by decide +kernel

/-- The hypotheses of `C44_concat` matter: a constant wider than its declared width spoils the field
before it (the 4 bits 0xa become 0xf). -/
theorem C44_wide_constant : (exHdr.bind fun a => build [.field 0 0, .const [0xf5] 4] [a] none)
    = some [0xf5] ∧ (exHdr.bind fun a => build [.field 0 0, .const [0x05] 4] [a] none) = some [0xa5] := by
  decide +kernel

/-! ### Checksums -/

/-- The entry does not read field `i` of header `h`. -/
def Entry.Avoids (h i : Nat) : Entry → Prop
  | .field h' i' => ¬ (h' = h ∧ i' = i)
  | .const _ _ => True
  | .header h' => h' ≠ h

theorem setField_other {hdrs : List Header} {h i k : Nat} {f : Field} (hk : k ≠ h) :
    (setField hdrs h i f)[k]? = hdrs[k]? := by
  unfold setField
  cases hh : hdrs[h]? with
  | none => rfl
  | some hd => simp only; rw [List.getElem?_set_ne (Ne.symm hk)]

theorem setField_same {hdrs : List Header} {h i : Nat} {f : Field} {hd : Header} (hh : hdrs[h]? = some hd) :
    (setField hdrs h i f)[h]? = some { hd with fields := hd.fields.set i f } := by
  unfold setField
  rw [hh]
  simp only
  have := (List.getElem?_eq_some_iff.1 hh).1
  rw [List.getElem?_set_self this]

theorem step_setField {hdrs : List Header} {h i : Nat} {f : Field} (s : St) (e : Entry) (ha : e.Avoids h i) :
    step (setField hdrs h i f) s e = step hdrs s e := by
  cases e with
  | const v n => rfl
  | header k =>
    have hk : k ≠ h := ha
    simp only [step, setField_other hk]
  | field k j =>
    by_cases hk : k = h
    · subst hk
      cases hh : hdrs[k]? with
      | none => simp [step, setField, hh]
      | some hd =>
        have hj : j ≠ i := fun hj => ha ⟨rfl, hj⟩
        simp only [step, setField_same hh, hh, Option.bind_eq_bind, Option.bind_some, Header.isValid,
          List.getElem?_set_ne (Ne.symm hj)]
        rfl
    · simp only [step, setField_other hk]

theorem build_setField {hdrs : List Header} {h i : Nat} {f : Field} (es : List Entry)
    (ha : ∀ e ∈ es, e.Avoids h i) (payload : Option Bytes) :
    build es (setField hdrs h i f) payload = build es hdrs payload := by
  unfold build
  congr 1
  generalize (⟨[], 0⟩ : St) = s
  induction es generalizing s with
  | nil => rfl
  | cons e es ih =>
    rw [List.foldlM_cons, List.foldlM_cons, step_setField s e (ha e (by simp))]
    congr 1
    funext s'
    exact ih (fun x hx => ha x (by simp [hx])) s'

/-- **C47** for checksums based on a calculation: if neither the calculation nor the condition reads
the (unsigned) checksum field, then after an update verification succeeds if and only if the header is
not valid, the condition is not met, or the result of the calculation fits the field.

`_partial`: the property has no such exception; see `C47_refuted`. -/
theorem C47_calc_partial (rz : Bool) (c : Checksum) (fn : Calculation) (payload : Bytes)
    (hdrs : List Header) (hd : Header) (f : Field) (v : BitVec 64) (b : Bool)
    (h1 : hdrs[c.hdr]? = some hd) (h2 : hd.fields[c.off]? = some f) (hs : f.Shape)
    (ha : f.arith = true) (hu : f.isSigned = false)
    (hav : ∀ e ∈ fn.entries, e.Avoids c.hdr c.off)
    (hc : c.condMet hdrs = some b) (hcs : ∀ g, c.condMet (setField hdrs c.hdr c.off g) = c.condMet hdrs)
    (hv : fn.output hdrs payload = some v) (hval : hd.isValid = true) :
    ∃ hdrs', c.update (calcUpdate rz c fn payload) hdrs = some hdrs' ∧
      c.verify (calcVerify rz c fn payload) hdrs' = some (decide (b = false ∨ v.toNat < 2 ^ f.nbits)) := by
  cases b with
  | false =>
    refine ⟨hdrs, ?_, ?_⟩
    · unfold Checksum.update; rw [hc]; rfl
    · unfold Checksum.verify; rw [h1, hc]; simp [hval]
  | true =>
    obtain ⟨f', g1, g2, g3, g4, g5, g6, g7, g8, g9, g10, -⟩ := set_spec hs (v.toNat : Int)
    have hodd : ¬ f.Odd (v.toNat : Int) := by
      intro ho
      have : f.isSigned = true := ho.1
      simp [hu] at this
    obtain ⟨g11, g12⟩ := g10 hodd
    refine ⟨setField hdrs c.hdr c.off f', ?_, ?_⟩
    · unfold Checksum.update
      rw [hc]
      simp only [Option.bind_eq_bind, Option.bind_some, Bool.not_true, Bool.false_eq_true, if_false]
      unfold calcUpdate
      simp only [hv, h1, h2, hval, Option.bind_eq_bind, Option.bind_some, Bool.not_true, Bool.and_false,
        Bool.false_and, g1]
      rfl
    · unfold Checksum.verify
      have hfv : ({ hd with fields := hd.fields.set c.off f' } : Header).isValid = true := hval
      rw [setField_same h1, hcs, hc]
      simp only [Option.bind_eq_bind, Option.bind_some, hfv, Bool.not_true, Bool.false_eq_true, if_false]
      unfold calcVerify
      have hout : fn.output (setField hdrs c.hdr c.off f') payload = some v := by
        rw [← hv]
        unfold Calculation.output
        rw [build_setField _ hav]
      have hlow : 0 ≤ f'.value := by
        have := g8
        unfold Kind.lowest at this
        rw [show f.kind.signed = f.isSigned from rfl, hu] at this
        simpa using this
      have hfit : f.kind.Fits (v.toNat : Int) ↔ v.toNat < 2 ^ f.nbits := by
        unfold Kind.Fits Kind.lowest Kind.highest
        rw [show f.kind.signed = f.isSigned from rfl, hu]
        simp only [Bool.false_eq_true, if_false, show f.kind.w = f.nbits from rfl]
        have : ((2 ^ f.nbits : Nat) : Int) = 2 ^ f.nbits := by push_cast; rfl
        omega
      -- the value written is at most the value asked for
      have hle : f'.value ≤ v.toNat ∧ (f'.value = v.toNat ↔ v.toNat < 2 ^ f.nbits) := by
        have hhi : f.kind.highest = 2 ^ f.nbits - 1 := by
          unfold Kind.highest
          rw [show f.kind.signed = f.isSigned from rfl, hu]
          rfl
        have hcast : ((2 ^ f.nbits : Nat) : Int) = 2 ^ f.nbits := by push_cast; rfl
        by_cases hlt : v.toNat < 2 ^ f.nbits
        · have : f'.value = v.toNat := by
            unfold Kind.Assigned at g12
            split at g12
            · exact g12.2.2 (hfit.2 hlt)
            · obtain ⟨-, k, hk⟩ := g12
              have hw : f.kind.w = f.nbits := rfl
              rw [hw] at hk
              have hk0 : k = 0 := by
                rw [← hcast] at hk g9
                have hpos : 0 < 2 ^ f.nbits := Nat.two_pow_pos _
                generalize 2 ^ f.nbits = P at *
                by_contra hne
                rcases Int.lt_or_gt_of_ne hne with hneg | hp
                · have : (P : Int) * k ≤ (P : Int) * (-1) := Int.mul_le_mul_of_nonneg_left (by omega) (by omega)
                  omega
                · have : (P : Int) * 1 ≤ (P : Int) * k := Int.mul_le_mul_of_nonneg_left (by omega) (by omega)
                  omega
              subst hk0
              omega
          exact ⟨by omega, by simp [this, hlt]⟩
        · refine ⟨by omega, ⟨fun he => by omega, fun hlt' => absurd hlt' hlt⟩⟩
      have hget : getU64 rz { hd with fields := hd.fields.set c.off f' } f' = some f'.value.toNat := by
        unfold getU64
        simp only [hfv, Bool.not_true, Bool.and_false, Bool.false_and, Field.getValue, Bool.false_eq_true,
          if_false]
        have := v.isLt
        rw [if_pos ⟨by rw [g4, ha], hlow, by omega⟩]
      have hlen := (List.getElem?_eq_some_iff.1 h2).1
      simp only [hout, setField_same h1, List.getElem?_set_self hlen, hget, Option.bind_eq_bind,
        Option.bind_some, Option.pure_def]
      congr 1
      rw [Bool.eq_iff_iff]
      simp only [beq_iff_eq, decide_eq_true_eq, reduceCtorEq, false_or]
      rw [← hle.2]
      omega

/-- With a header that is not valid nothing is verified. -/
theorem C47_invalid (c : Checksum) (verify_ : List Header → Option Bool) (hdrs : List Header)
    (hd : Header) (h1 : hdrs[c.hdr]? = some hd) (hval : hd.isValid = false) :
    c.verify verify_ hdrs = some true := by
  unfold Checksum.verify
  rw [h1]
  simp [hval]

/-- Bytes 2 and 3 of the header are the CRC-32 of its first two bytes, which does not fit. -/
def exCrc : Calculation :=
  { entries := [.field 0 0, .field 0 1], withPayload := false,
    hash := fun l => (Crc.crc32 l).map (·.setWidth 64) }

/-- The full claim fails if the result of the calculation is wider than the field. -/
theorem C47_refuted : ∃ hdrs hdrs' : List Header,
    (exHdr.map fun a => [a]) = some hdrs ∧
    Checksum.update ⟨0, 2, none⟩ (calcUpdate false ⟨0, 2, none⟩ exCrc []) hdrs = some hdrs' ∧
    Checksum.verify ⟨0, 2, none⟩ (calcVerify false ⟨0, 2, none⟩ exCrc []) hdrs' = some false := by
  refine ⟨(exHdr.map fun a => [a]).getD [], (Checksum.update ⟨0, 2, none⟩ (calcUpdate false ⟨0, 2, none⟩ exCrc [])
    ((exHdr.map fun a => [a]).getD [])).getD [], ?_, ?_, ?_⟩ <;> decide +kernel

/-- The hypotheses of `C47_calc_partial` can be met: the Internet checksum of the first two fields. -/
example : (exHdr.bind fun a => (Checksum.update ⟨0, 2, none⟩ (calcUpdate false ⟨0, 2, none⟩
      ⟨[.field 0 0, .field 0 1], true, fun l => some (BitVec.ofNat 64 (Cksum.cksum16 l))⟩ [1, 2, 3]) [a])).map
    (fun l => (l.map fun h => h.fields.map (·.value), Checksum.verify ⟨0, 2, none⟩
      (calcVerify false ⟨0, 2, none⟩
        ⟨[.field 0 0, .field 0 1], true, fun l => some (BitVec.ofNat 64 (Cksum.cksum16 l))⟩ [1, 2, 3]) l))
    = some ([[0xa, 0xbcd, 0x5030, 1]], some true) := by decide +kernel

/-- A header with an IPv4 layout as far as it matters: 10 bytes, a checksum of 16 bits, the rest; at
most 60 bytes in all. -/
structure Ipv4Like (hd : Header) (i : Nat) (f : Field) : Prop where
  wf : hd.WF
  padded : ∀ g ∈ visible hd.fields, Padded g
  size : hd.nbytesPacket ≤ 60
  field : hd.fields[i]? = some f
  shown : f.hidden = false
  width : f.nbits = 16
  place : ((hd.fields.take i).map (·.nbits)).sum = 80

/-- Zeroing the checksum. -/
theorem zero_spec (W : Bytes) (h : 12 ≤ W.length) :
    (W.set 10 0).set 11 0 = W.take 10 ++ [0, 0] ++ W.drop 12 := by
  have e : W.drop 12 = (W.drop 10).drop 2 := by rw [List.drop_drop]
  have hl : (W.take 10).length = 10 := by rw [List.length_take]; omega
  have hd : 2 ≤ (W.drop 10).length := by rw [List.length_drop]; omega
  rw [e]
  conv_lhs => rw [← List.take_append_drop 10 W]
  revert hl hd
  generalize W.take 10 = A
  generalize W.drop 10 = B
  intro hl hd
  match B, hd with
  | x :: y :: B, _ =>
    rw [List.set_append, if_neg (by omega), List.set_append, if_neg (by omega), hl, List.append_assoc]
    rfl

theorem ipv4Cksum_spec {hd : Header} (hp : ∀ f ∈ visible hd.fields, Padded f)
    (hs : total hd.fields = 8 * hd.nbytesPacket) (hl : hd.nbytesPacket ≤ 60) (buffer : Bytes)
    (hb : buffer.length = 60) (W : Bytes) (hW : bytesBits W = wire hd.fields) :
    ipv4Cksum buffer hd = some (Cksum.cksum16Bytes ((W.set 10 0).set 11 0)) := by
  obtain ⟨r, h1, h2, h3, h4⟩ := Header.deparse_spec hp hs buffer (by omega)
  have hr : r.take hd.nbytesPacket = W := bytesBits_inj (by rw [h3, hW])
  unfold ipv4Cksum
  rw [h1]
  simp only [Option.bind_eq_bind, Option.bind_some]
  rw [setByte_spec r 10 0 (by omega)]
  simp only [Option.bind_some]
  rw [setByte_spec _ 11 0 (by simp; omega)]
  simp only [Option.bind_some]
  rw [if_pos (by simp; omega), List.take_set, List.take_set, hr]
  rfl

theorem setBytes_padded {f : Field} (hs : f.Shape) (hw : f.nbits = 16) (l : Bytes) (hl : l.length = 2) :
    ∃ f', f.setBytes l = some f' ∧ Padded f' ∧ f'.bytes = l ∧ f'.nbits = f.nbits ∧ f'.hidden = f.hidden := by
  have hn : f.nbytes = 2 := by rw [hs.nbytes, hw]
  have hsh : ({ f with bytes := l } : Field).Shape :=
    ⟨hs.nbytes, by rw [hn, ← hl], hs.mask, hs.max, hs.min, hs.sgn⟩
  unfold Field.setBytes
  rw [if_pos (by omega)]
  refine ⟨_, rfl, ?_⟩
  dsimp only
  by_cases ha : f.arith = true
  · rw [if_pos ha]
    refine ⟨⟨syncValue_shape hsh, ?_⟩, rfl, rfl, rfl⟩
    change (bytesBits l).take (8 * l.length - f.nbits) = List.replicate (8 * l.length - f.nbits) false
    rw [hl, hw]
    rfl
  · rw [if_neg ha]
    refine ⟨⟨hsh, ?_⟩, rfl, rfl, rfl⟩
    change (bytesBits l).take (8 * l.length - f.nbits) = List.replicate (8 * l.length - f.nbits) false
    rw [hl, hw]
    rfl

/-- Replacing the checksum changes bits 80 to 95 of the header. -/
theorem ipv4_wire {hd : Header} {i : Nat} {f f' : Field} (h : Ipv4Like hd i f) (hf' : Padded f')
    (hw' : f'.nbits = 16) (hh' : f'.hidden = false) :
    (∀ g ∈ visible (hd.fields.set i f'), Padded g) ∧
    total (hd.fields.set i f') = total hd.fields ∧
    ∃ A B : List Bool, A.length = 80 ∧ wire hd.fields = A ++ (fieldBits f ++ B) ∧
      wire (hd.fields.set i f') = A ++ (fieldBits f' ++ B) := by
  obtain ⟨l, v, hl, hv, hlh⟩ := h.wf.last
  have hfield := h.field
  have hplace := h.place
  have hpad := h.padded
  rw [hl] at hfield hplace hpad
  rw [hl]
  have hi : i < l.length := by
    by_contra hc
    have : (l ++ [v]).length ≤ i ∨ i = l.length := by
      simp only [List.length_append, List.length_singleton]; omega
    rcases this with h1 | h1
    · rw [List.getElem?_eq_none h1] at hfield; cases hfield
    · subst h1
      simp only [List.getElem?_concat_length, Option.some.injEq] at hfield
      have := h.shown
      rw [← hfield, hv] at this
      cases this
  rw [List.getElem?_append_left hi] at hfield
  rw [List.set_append, if_pos hi]
  have hset : l.set i f' = l.take i ++ f' :: l.drop (i + 1) := List.set_eq_take_append_cons_drop.trans (by rw [if_pos hi])
  have horig : l = l.take i ++ f :: l.drop (i + 1) := by
    have h1 := (List.getElem?_eq_some_iff.1 hfield).2
    conv_lhs => rw [← List.take_append_drop i l, List.drop_eq_getElem_cons hi, h1]
  have hlh' : ∀ g ∈ l.set i f', g.hidden = false := by
    intro g hg
    rcases List.mem_or_eq_of_mem_set hg with hg | rfl
    · exact hlh g hg
    · exact hh'
  rw [visible_of_last hv hlh] at hpad
  unfold wire total
  rw [visible_of_last hv hlh, visible_of_last hv hlh']
  refine ⟨?_, ?_, (l.take i).flatMap fieldBits, (l.drop (i + 1)).flatMap fieldBits, ?_, ?_, ?_⟩
  · intro g hg
    rcases List.mem_or_eq_of_mem_set hg with hg | rfl
    · exact hpad g hg
    · exact hf'
  · rw [hset]
    conv_rhs => rw [horig]
    simp [hw', h.width]
  · have : ∀ m : List Field, (∀ g ∈ m, Padded g) → (m.flatMap fieldBits).length = (m.map (·.nbits)).sum := by
      intro m hm
      induction m with
      | nil => rfl
      | cons g m ih =>
        rw [List.flatMap_cons, List.length_append, List.map_cons, List.sum_cons,
          fieldBits_length (hm g (by simp)).shape, ih (fun x hx => hm x (by simp [hx]))]
    rw [this _ (fun g hg => hpad g (List.mem_of_mem_take hg)), ← hplace,
      List.take_append_of_le_length (by omega)]
  · conv_lhs => rw [horig]
    simp
  · rw [hset]
    simp

/-- **C47** for `IPv4Checksum`: updating succeeds, the header then satisfies what a receiver checks
(the one's complement sum of its bytes is all ones) and verification succeeds, whatever the
uninitialised buffers contain. -/
theorem C47_ipv4 (c : Checksum) (hdrs : List Header) (hd : Header) (f : Field)
    (h1 : hdrs[c.hdr]? = some hd) (hi : Ipv4Like hd c.off f) (hval : hd.isValid = true)
    (hc : c.condMet hdrs = some true) (hcs : ∀ g, c.condMet (setField hdrs c.hdr c.off g) = c.condMet hdrs)
    (junk junk' : Bytes) (hj : junk.length = 60) (hj' : junk'.length = 60) :
    ∃ hdrs' hd', c.update (ipv4Update junk c) hdrs = some hdrs' ∧ hdrs'[c.hdr]? = some hd' ∧
      (∃ W, hd'.deparse (List.replicate hd'.nbytesPacket 0) = some W ∧ Cksum.Spec.sum W = 65535) ∧
      c.verify (ipv4Verify junk' c) hdrs' = some true := by
  have hsize := hi.wf.size
  obtain ⟨r, d1, d2, d3, d4⟩ := Header.deparse_spec hi.padded hsize junk (by rw [hj]; exact hi.size)
  set W := r.take hd.nbytesPacket with hWdef
  have hck := ipv4Cksum_spec hi.padded hsize hi.size junk hj W d3
  set k := Cksum.cksum16Bytes ((W.set 10 0).set 11 0) with hk
  have hkl : k.length = 2 := rfl
  have hmem : f ∈ hd.fields := List.mem_of_getElem? hi.field
  obtain ⟨f', s1, s2, s3, s4, s5⟩ := setBytes_padded (hi.wf.shape f hmem) hi.width k hkl
  obtain ⟨w1, w2, A, B, w3, w4, w5⟩ := ipv4_wire hi s2 (by rw [s4, hi.width]) (by rw [s5, hi.shown])
  set hd' : Header := { hd with fields := hd.fields.set c.off f' } with hhd'
  have hsize' : total hd'.fields = 8 * hd'.nbytesPacket := by rw [← hsize]; exact w2
  have hval' : hd'.isValid = true := hval
  have hlen := (List.getElem?_eq_some_iff.1 hi.field).1
  -- the new bytes
  obtain ⟨r', e1, e2, e3, e4⟩ := Header.deparse_spec (h := hd') w1 hsize' (List.replicate hd'.nbytesPacket 0)
    (by simp)
  rw [List.length_replicate] at e2
  rw [List.take_of_length_le (by omega)] at e3
  have hWl : W.length = hd.nbytesPacket := by
    rw [hWdef, List.length_take, d2, hj]
    have := hi.size
    omega
  have hfb : (fieldBits f).length = 16 := by
    rw [fieldBits_length (hi.wf.shape f hmem), hi.width]
  have hfb' : fieldBits f' = bytesBits k := by
    unfold fieldBits
    rw [s3, s4, hi.width, hkl]
    rfl
  have hkb : (bytesBits k).length = 16 := by rw [bytesBits_length, hkl]
  have hwl : 96 ≤ 8 * W.length := by
    have := congrArg List.length d3
    rw [bytesBits_length, w4, List.length_append, List.length_append, w3, hfb] at this
    omega
  have hr' : r'.length = W.length := by rw [hWl]; exact e2
  have t10 : r'.take 10 = W.take 10 := by
    apply bytesBits_inj
    rw [bytesBits_take, bytesBits_take, e3, d3, w4]
    change List.take _ (wire (hd.fields.set c.off f')) = _
    rw [w5, List.take_left' (by omega), List.take_left' (by omega)]
  have t12 : r'.drop 12 = W.drop 12 := by
    apply bytesBits_inj
    rw [bytesBits_drop, bytesBits_drop, e3, d3, w4]
    change List.drop _ (wire (hd.fields.set c.off f')) = _
    rw [w5, hfb', ← List.append_assoc, ← List.append_assoc,
      List.drop_left' (by rw [List.length_append]; omega), List.drop_left' (by rw [List.length_append]; omega)]
  have tk : (r'.drop 10).take 2 = k := by
    apply bytesBits_inj
    rw [bytesBits_take, bytesBits_drop, e3]
    change List.take _ (List.drop _ (wire (hd.fields.set c.off f'))) = _
    rw [w5, hfb', List.drop_left' (by omega), List.take_left' (by omega)]
  have hzero : (r'.set 10 0).set 11 0 = (W.set 10 0).set 11 0 := by
    rw [zero_spec _ (by omega), zero_spec _ (by omega), t10, t12]
  have hupd : c.update (ipv4Update junk c) hdrs = some (setField hdrs c.hdr c.off f') := by
    unfold Checksum.update
    rw [hc]
    simp only [Option.bind_eq_bind, Option.bind_some, Bool.not_true, Bool.false_eq_true, if_false]
    unfold ipv4Update
    simp only [h1, hval, hi.field, hck, s1, Option.bind_eq_bind, Option.bind_some, Bool.not_true,
      Bool.false_eq_true, if_false]
    rfl
  refine ⟨setField hdrs c.hdr c.off f', hd', hupd, setField_same h1, ⟨r', e1, ?_⟩, ?_⟩
  · have hsplit : r' = r'.take 10 ++ k ++ r'.drop 12 := by
      rw [← tk, List.append_assoc, show r'.drop 12 = (r'.drop 10).drop 2 by rw [List.drop_drop],
        List.take_append_drop, List.take_append_drop]
    rw [hsplit, hk, ← hzero, zero_spec _ (by omega)]
    exact Cksum.C35_receiver _ _ (by rw [List.length_take]; omega)
  · have hck' := ipv4Cksum_spec (hd := hd') w1 hsize' hi.size junk' hj' r' e3
    rw [hzero, ← hk] at hck'
    unfold Checksum.verify
    rw [setField_same h1, hcs, hc, ← hhd']
    simp only [Option.bind_eq_bind, Option.bind_some, hval', Bool.not_true, Bool.false_eq_true, if_false]
    unfold ipv4Verify
    rw [setField_same h1, ← hhd']
    have hget : hd'.fields[c.off]? = some f' := List.getElem?_set_self hlen
    simp only [hget, hck', hval', Option.bind_eq_bind, Option.bind_some, Bool.not_true, Bool.false_eq_true,
      if_false, s3, hkl, le_refl, if_true]
    rw [List.take_of_length_le (by omega)]
    simp

/-- An IPv4 header (the fields of each 32-bit word taken together, except for the checksum). -/
def exIpv4 : Option Header :=
  (mk' 0 none [⟨32, false, false, false, false, true⟩, ⟨32, false, false, false, false, true⟩,
    ⟨16, false, false, false, false, true⟩, ⟨16, false, false, false, false, true⟩,
    ⟨32, false, false, false, false, true⟩, ⟨32, false, false, false, false, true⟩, validInfo true]
    false).bind (·.extract [0x45, 0, 0, 0x73, 0, 0, 0x40, 0, 0x40, 0x11, 0xde, 0xad, 0xc0, 0xa8, 0, 1, 0xc0,
      0xa8, 0, 0xc7] 0)

/-- Updating it with one content of the buffer and verifying it with another one. -/
example : (exIpv4.bind fun hd => (Checksum.update ⟨0, 3, none⟩ (ipv4Update (List.replicate 60 7) ⟨0, 3, none⟩)
      [hd])).map (fun l => (l.map fun h => h.fields.map (·.value),
        Checksum.verify ⟨0, 3, none⟩ (ipv4Verify (List.replicate 60 9) ⟨0, 3, none⟩) l))
      = some ([[0x45000073, 0x4000, 0x4011, 0xb861, 0xc0a80001, 0xc0a800c7, 1]], some true) ∧
    (exIpv4.bind fun hd => Checksum.verify ⟨0, 3, none⟩ (ipv4Verify (List.replicate 60 9) ⟨0, 3, none⟩) [hd])
      = some false := by
  refine ⟨?_, ?_⟩ <;> decide +kernel

/-- A header of more than 60 bytes overruns the buffer on the stack. -/
theorem C47_overrun : (((mk' 0 none [⟨488, false, false, false, false, true⟩, validInfo true] false).bind
      (·.extract (List.replicate 61 0) 0)).bind fun hd => some (ipv4Cksum (List.replicate 60 0) hd))
    = some none := by decide +kernel

end Bm.Calc
