import Verif.Lemmas.Extract

/-! # Bits moved by `generic_deparse` -/

namespace Bm.Extract

open Spec

theorem setByte_spec (dst : Bytes) (i : Nat) (v : UInt8) (h : i < dst.length) :
    setByte dst i v = some (dst.set i v) := if_pos h

theorem bytesBits_set (dst : Bytes) (i : Nat) (v : UInt8) (h : i < dst.length) :
    bytesBits (dst.set i v) = (bytesBits dst).take (8 * i) ++ byteBits v
      ++ (bytesBits dst).drop (8 * (i + 1)) := by
  rw [List.set_eq_take_append_cons_drop, if_pos h, bytesBits_append, bytesBits_cons, bytesBits_take,
    bytesBits_drop, List.append_assoc]

theorem setBytes_spec (dst : Bytes) (i : Nat) (vs : Bytes) (h : i + vs.length ≤ dst.length) :
    ∃ dst', setBytes dst i vs = some dst' ∧ dst'.length = dst.length ∧
      bytesBits dst' = (bytesBits dst).take (8 * i) ++ bytesBits vs
        ++ (bytesBits dst).drop (8 * (i + vs.length)) := by
  induction vs generalizing dst i with
  | nil => exact ⟨dst, rfl, rfl, by simp⟩
  | cons v vs ih =>
    simp only [List.length_cons] at h
    obtain ⟨dst', h1, h2, h3⟩ := ih (dst.set i v) (i + 1) (by simp; omega)
    refine ⟨dst', ?_, by simpa using h2, ?_⟩
    · simp only [setBytes, setByte_spec dst i v (by omega), Option.bind_eq_bind, Option.bind_some]
      exact h1
    · rw [h3, bytesBits_set _ _ _ (by omega), bytesBits_cons]
      simp only [List.length_cons]
      bits

theorem orBytes_zero (dst : Bytes) (i : Nat) (vs : Bytes) (h : i + vs.length ≤ dst.length)
    (hz : ((bytesBits dst).drop (8 * i)).take (8 * vs.length)
      = List.replicate (8 * vs.length) false) :
    ∃ dst', orBytes dst i vs = some dst' ∧ dst'.length = dst.length ∧
      bytesBits dst' = (bytesBits dst).take (8 * i) ++ bytesBits vs
        ++ (bytesBits dst).drop (8 * (i + vs.length)) := by
  induction vs generalizing dst i with
  | nil => exact ⟨dst, rfl, rfl, by simp⟩
  | cons v vs ih =>
    simp only [List.length_cons] at h hz
    have hi : dst[i]? = some dst[i] := List.getElem?_eq_getElem (by omega)
    have hd : byteBits dst[i] = List.replicate 8 false := by
      rw [byte_at hi]
      have := congrArg (List.take 8) hz
      rw [List.take_take, List.take_replicate] at this
      rw [show min 8 (8 * (vs.length + 1)) = 8 by omega] at this
      exact this
    have hor : byteBits (dst[i] ||| v) = byteBits v := by
      rw [byteBits_merge _ _ 0 (by omega) (by simp [hd]) (by simp)]
      simp
    have hb := bytesBits_set dst i (dst[i] ||| v) (by omega)
    obtain ⟨dst', h1, h2, h3⟩ := ih (dst.set i (dst[i] ||| v)) (i + 1) (by simp; omega) (by
      rw [hb]
      have := congrArg (fun l => (List.drop 8 l)) hz
      simp only [List.drop_replicate, List.drop_take, List.drop_drop] at this
      rw [show 8 * (vs.length + 1) - 8 = 8 * vs.length by omega,
        show 8 * i + 8 = 8 * (i + 1) by omega] at this
      rw [← this]
      bits)
    refine ⟨dst', ?_, by simpa using h2, ?_⟩
    · simp only [orBytes, orByte, hi, setByte_spec dst i _ (show i < dst.length by omega),
        Option.bind_eq_bind, Option.bind_some]
      exact h1
    · rw [h3, hb, hor, bytesBits_cons]
      simp only [List.length_cons]
      bits

theorem clear0_spec (dst : Bytes) (n : Nat) (hn : n ≤ 8) (hd : 0 < dst.length) :
    ∃ dst', clear0 dst n = some dst' ∧ dst'.length = dst.length ∧
      bytesBits dst' = (bytesBits dst).take n ++ List.replicate (8 - n) false
        ++ (bytesBits dst).drop 8 := by
  have hi : dst[0]? = some dst[0] := List.getElem?_eq_getElem hd
  refine ⟨dst.set 0 (dst[0] &&& ~~~ shr 0xff n), ?_, by simp, ?_⟩
  · simp only [clear0, hi, Option.bind_eq_bind, Option.bind_some, setByte_spec _ _ _ hd]
  · rw [bytesBits_set _ _ _ hd, byteBits_clear _ _ hn, byte_at hi]
    bits

theorem orByte_spec (dst : Bytes) (i : Nat) (v : UInt8) (n : Nat) (hn : n ≤ 8)
    (hi : i < dst.length)
    (hz : ((bytesBits dst).drop (8 * i + n)).take (8 - n) = List.replicate (8 - n) false)
    (hv : (byteBits v).take n = List.replicate n false) :
    ∃ dst', orByte dst i v = some dst' ∧ dst'.length = dst.length ∧
      bytesBits dst' = (bytesBits dst).take (8 * i + n) ++ (byteBits v).drop n
        ++ (bytesBits dst).drop (8 * (i + 1)) := by
  have hg : dst[i]? = some dst[i] := List.getElem?_eq_getElem hi
  refine ⟨dst.set i (dst[i] ||| v), ?_, by simp, ?_⟩
  · simp only [orByte, hg, Option.bind_eq_bind, Option.bind_some, setByte_spec _ _ _ hi]
  · rw [bytesBits_set _ _ _ hi, byteBits_merge _ _ n hn ?_ hv, byte_at hg]
    · bits
    · rw [byte_at hg, ← hz]
      bits

theorem byteBits_lowMask (a : UInt8) (n : Nat) (hn : n ≤ 8) :
    byteBits (a &&& UInt8.ofNat (2 ^ n - 1)) = List.replicate (8 - n) false ++ (byteBits a).drop (8 - n) := by
  have : UInt8.ofNat (2 ^ n - 1) = shr 0xff (8 - n) := by
    interval_cases n <;> decide
  rw [this, byteBits_maskLow _ _ (by omega)]

/-- The result of `generic_deparse`: field bits after the first `o` bits, zeros or the old bits up to
the end of the last byte touched, the rest unchanged. -/
def Deparsed (data dst dst' : Bytes) (w o : Nat) : Prop :=
  dst'.length = dst.length ∧ ∃ z : List Bool, (z.length = 8 * ((o + w + 7) / 8) - (o + w) ∧
      (z = List.replicate z.length false ∨ z = ((bytesBits dst).drop (o + w)).take z.length)) ∧
    bytesBits dst' = (bytesBits dst).take o ++ ((bytesBits data).drop (8 * data.length - w) ++ (z
      ++ (bytesBits dst).drop (8 * ((o + w + 7) / 8))))

/-- The pad bits, moved. -/
theorem pad_moved {F : List Bool} {p o : Nat} (hpad : F.take p = List.replicate p false) (h : o ≤ p)  :
    (F.drop (p - o)).take o = List.replicate o false := by
  have := congrArg (fun l => (List.drop (p - o) l)) hpad
  simp only [List.drop_replicate, List.drop_take] at this
  rw [show p - (p - o) = o by omega] at this
  exact this

section
set_option linter.unusedSectionVars false
variable (data dst : Bytes) (w o : Nat) (ho : o < 8) (hw : w ≠ 0)
  (nb : Nat) (hnb : data.length = nb) (hdata : nb = (w + 7) / 8)
  (hpad : (bytesBits data).take (8 * nb - w) = List.replicate (8 * nb - w) false)
  (hdst : (o + w + 7) / 8 ≤ dst.length)
include ho hw hnb hdata hdst

theorem deparse_aligned (h1 : o = 0 ∧ w % 8 = 0) :
    ∃ dst', setBytes dst 0 (data.take ((w + 7) / 8)) = some dst' ∧ Deparsed data dst dst' w o := by
  rw [List.take_of_length_le (by omega)]
  obtain ⟨dst', h2, h3, h4⟩ := setBytes_spec dst 0 data (by omega)
  refine ⟨dst', h2, h3, [], ⟨by simp; omega, .inl rfl⟩, ?_⟩
  rw [h4, h1.1, hnb, show 8 * nb - w = 0 by omega, show 8 * ((0 + w + 7) / 8) = 8 * (0 + nb) by omega]
  simp

include hpad

theorem deparse_same (h5 : 8 * nb - w = o) (d1 : Bytes) (hd1 : d1.length = dst.length)
    (h4 : bytesBits d1 = (bytesBits dst).take o ++ List.replicate (8 - o) false
      ++ (bytesBits dst).drop 8) :
    ∃ d2 d3, setBytes d1 1 (data.drop 1) = some d2 ∧ orByte d2 0 data[0] = some d3 ∧
      Deparsed data dst d3 w o := by
  have hd0 : data[0]? = some data[0] := List.getElem?_eq_getElem (by omega)
  obtain ⟨d2, h6, h7, h8⟩ := setBytes_spec d1 1 (data.drop 1) (by simp; omega)
  have h8' : bytesBits d2 = (bytesBits dst).take o ++ (List.replicate (8 - o) false
      ++ ((bytesBits data).drop 8 ++ (bytesBits dst).drop (8 * nb))) := by
    rw [h8, h4, bytesBits_drop]
    simp only [List.length_drop]
    bits
  obtain ⟨d3, h9, h10, h11⟩ := orByte_spec d2 0 data[0] o (by omega) (by omega)
    (by rw [h8']; bits)
    (by
      rw [byte_at hd0, List.take_take, show min o 8 = o by omega, Nat.mul_zero, List.drop_zero]
      rw [h5] at hpad
      exact hpad)
  refine ⟨d2, d3, h6, h9, by omega, [], ⟨by simp; omega, .inl rfl⟩, ?_⟩
  rw [h11, h8', byte_at hd0, hnb, h5, show (o + w + 7) / 8 = nb by omega, List.nil_append]
  bits

end

set_option maxHeartbeats 1000000 in
/-- The field has more pad bits than the offset: everything moves left by `s`. -/
theorem deparse_left (data dst : Bytes) (w o s m : Nat) (ho : o + s < 8) (hs : 0 < s)
    (hnb : data.length = m + 1) (hw : w + (o + s) = 8 * (m + 1))
    (hpad : (bytesBits data).take (o + s) = List.replicate (o + s) false)
    (hdst : m + 1 ≤ dst.length) (d1 : Bytes) (hd1 : d1.length = dst.length)
    (h4 : bytesBits d1 = (bytesBits dst).take o ++ List.replicate (8 - o) false
      ++ (bytesBits dst).drop 8) :
    ∃ d2 l d3 d4, setBytes d1 1 (List.replicate m 0) = some d2 ∧
      (List.range m).mapM (two data s) = some l ∧
      orBytes d2 0 l = some d3 ∧
      orByte d3 m (shl data[m] s) = some d4 ∧
      Deparsed data dst d4 w o := by
  obtain ⟨d2, h7, h8, h9⟩ := setBytes_spec d1 1 (List.replicate m 0) (by simp; omega)
  obtain ⟨l, h10, h11, h12⟩ := mapM_two data s (by omega) m (by omega)
  have hlast : data[m]? = some data[m] := List.getElem?_eq_getElem (by omega)
  have hpm : ((bytesBits data).drop s).take o = List.replicate o false := by
    have := pad_moved (o := o) hpad (by omega)
    rwa [show o + s - o = s by omega] at this
  have hz : bytesBits (List.replicate m (0 : UInt8)) = List.replicate (8 * m) false := by
    clear h7 h8 h9 h10 h11 h12 hlast hnb hw hdst
    induction m with
    | zero => rfl
    | succ k ih =>
      rw [List.replicate_succ, bytesBits_cons, ih, show byteBits 0 = List.replicate 8 false by decide]
      bits
  have h9' : bytesBits d2 = (bytesBits dst).take o ++ (List.replicate (8 * (m + 1) - o) false
      ++ (bytesBits dst).drop (8 * (m + 1))) := by
    rw [h9, hz, h4]
    simp only [List.length_replicate]
    clear h12 h9 hz h4 hpm hpad
    bits
  have hlb : byteBits (shl data[m] s) = (bytesBits data).drop (8 * m + s)
        ++ List.replicate s false := by
    rw [byteBits_shl _ _ (by omega), byte_at hlast]
    clear h12 h9 hz h4 hpm hpad
    bits
  have hfin : ∀ d4 : Bytes, d4.length = dst.length →
      bytesBits d4 = (bytesBits dst).take o ++ ((bytesBits data).drop (o + s)
        ++ (List.replicate s false ++ (bytesBits dst).drop (8 * (m + 1)))) →
      Deparsed data dst d4 w o := by
    intro d4 e1 e2
    refine ⟨e1, List.replicate s false, ⟨by simp; omega, .inl (by simp)⟩, ?_⟩
    rw [e2, hnb, show (o + w + 7) / 8 = m + 1 by omega, show 8 * (m + 1) - w = o + s by omega]
  cases m with
  | zero =>
    have hl0 : l = [] := List.length_eq_zero_iff.1 (by omega)
    subst hl0
    obtain ⟨d3, h13, h14, h15⟩ := orByte_spec d2 0 (shl data[0] s) o
      (by omega) (by omega) (by rw [h9']; clear h12 h9 hz h4 hpm hpad h9' hfin; bits)
      (by
        rw [hlb, ← hpm]
        clear h12 h9 hz h4 hpm hpad h9' hfin
        bits)
    refine ⟨d2, [], d2, d3, h7, h10, rfl, h13, hfin d3 (by omega) ?_⟩
    rw [h15, h9', hlb]
    clear h12 h9 hz h4 hpm hpad h9' hfin h15
    bits
  | succ m =>
    obtain ⟨v, vs, rfl⟩ : ∃ v vs, l = v :: vs := by
      cases l with
      | nil => simp at h11
      | cons v vs => exact ⟨v, vs, rfl⟩
    simp only [List.length_cons] at h11
    have hvl : vs.length = m := by omega
    have hv : byteBits v = ((bytesBits data).drop s).take 8 := by
      have := congrArg (List.take 8) h12
      rw [bytesBits_cons, List.take_append, List.take_take] at this
      simp only [byteBits_length, Nat.sub_self, List.take_zero, List.append_nil] at this
      rw [List.take_of_length_le (by simp), show min 8 (8 * (m + 1)) = 8 by omega] at this
      exact this
    have hvs : bytesBits vs = ((bytesBits data).drop (s + 8)).take (8 * m) := by
      have := congrArg (List.drop 8) h12
      rw [bytesBits_cons, List.drop_append, List.drop_eq_nil_of_le (by simp)] at this
      simp only [byteBits_length, Nat.sub_self, List.drop_zero, List.nil_append] at this
      rw [this]
      clear this h12 h9 hz h4 hpm hpad h9' hfin hv
      bits
    clear h12 h9 hz h4 hpad
    obtain ⟨d3, h13, h14, h15⟩ := orByte_spec d2 0 v o (by omega) (by omega)
      (by rw [h9']; clear hpm h9' hfin hv hvs; bits)
      (by
        rw [hv, ← hpm]
        clear hpm h9' hfin hv hvs
        bits)
    have h15' : bytesBits d3 = (bytesBits dst).take o ++ (((bytesBits data).drop (o + s)).take (8 - o)
        ++ (List.replicate (8 * (m + 1)) false ++ (bytesBits dst).drop (8 * (m + 2)))) := by
      rw [h15, h9', hv]
      clear h15 hpm h9' hfin hv hvs
      bits
    clear h15 h9'
    obtain ⟨d4, h16, h17, h18⟩ := orBytes_zero d3 1 vs (by omega) (by
      rw [h15', hvl]
      clear h15' hpm hfin hv hvs
      bits)
    have h18' : bytesBits d4 = (bytesBits dst).take o ++ (((bytesBits data).drop (o + s)).take (8 * (m + 1) - o)
        ++ (List.replicate 8 false ++ (bytesBits dst).drop (8 * (m + 2)))) := by
      rw [h18, h15', hvs, hvl]
      clear h15' hpm hfin hv hvs h18
      bits
    clear h18 h15'
    obtain ⟨d5, h19, h20, h21⟩ := orByte_spec d4 (m + 1) (shl data[m + 1] s) 0
      (by omega) (by omega)
      (by rw [h18']; clear h18' hpm hfin hv hvs; bits)
      (by simp)
    refine ⟨d2, v :: vs, d4, d5, h7, h10, ?_, h19, hfin d5 (by omega) ?_⟩
    · simp only [orBytes, h13, Option.bind_eq_bind, Option.bind_some]
      exact h16
    · rw [h21, h18', hlb, List.drop_zero]
      clear h21 h18' hpm hfin hv hvs hlb
      bits

/-- The field has fewer pad bits than the offset: everything moves right by `s`. First byte. -/
theorem deparse_right (data dst : Bytes) (w p s m : Nat) (ho : p + s < 8) (hs : 0 < s)
    (hnb : data.length = m + 1) (hw : w + p = 8 * (m + 1))
    (hpad : (bytesBits data).take p = List.replicate p false)
    (hdst : m + 2 ≤ dst.length) (d1 : Bytes) (hd1 : d1.length = dst.length)
    (h4 : bytesBits d1 = (bytesBits dst).take (p + s) ++ List.replicate (8 - (p + s)) false
      ++ (bytesBits dst).drop 8) :
    ∃ d2, orByte d1 0 (shr data[0] s) = some d2 ∧
      d2.length = dst.length ∧
      bytesBits d2 = (bytesBits dst).take (p + s) ++
        (((bytesBits data).drop p).take (8 - (p + s)) ++ (bytesBits dst).drop 8) := by
  have hd0 : data[0]? = some data[0] := List.getElem?_eq_getElem (by omega)
  have hsb : byteBits (shr data[0] s) = List.replicate s false
      ++ (bytesBits data).take (8 - s) := by
    rw [byteBits_shr _ _ (by omega), byte_at hd0]
    clear hpad h4
    bits
  obtain ⟨d2, h7, h8, h9⟩ := orByte_spec d1 0 (shr data[0] s) (p + s) (by omega) (by omega)
    (by rw [h4]; clear h4 hpad hsb; bits)
    (by
      rw [hsb, show List.replicate (p + s) false = List.replicate s false
        ++ List.replicate p false by rw [List.replicate_append_replicate]; congr 1; omega,
        ← hpad]
      clear h4 hpad hsb
      bits)
  refine ⟨d2, h7, by omega, ?_⟩
  rw [h9, h4, hsb]
  clear h9 h4 hsb hpad
  bits

/-- A field of one byte that spreads over two. -/
theorem deparse_right_one (data dst : Bytes) (w p s : Nat) (ho : p + s < 8) (hs : 0 < s)
    (hnb : data.length = 1) (hw : w + p = 8)
    (hdst : 2 ≤ dst.length) (d2 : Bytes)
    (hd2 : d2.length = dst.length)
    (h9 : bytesBits d2 = (bytesBits dst).take (p + s) ++
        (((bytesBits data).drop p).take (8 - (p + s)) ++ (bytesBits dst).drop 8)) :
    ∃ d3, setByte d2 1 (shl data[0] (8 - s)) = some d3 ∧
      Deparsed data dst d3 w (p + s) := by
  have hd0 : data[0]? = some data[0] := List.getElem?_eq_getElem (by omega)
  have hsb : byteBits (shl data[0] (8 - s))
      = ((bytesBits data).drop (8 - s)) ++ List.replicate (8 - s) false := by
    rw [byteBits_shl _ _ (by omega), byte_at hd0]
    clear h9
    bits
  refine ⟨_, setByte_spec _ _ _ (by omega), by simp; omega,
    List.replicate (8 - s) false, ⟨by simp; omega, .inl (by simp)⟩, ?_⟩
  rw [bytesBits_set _ _ _ (by omega), h9, hsb, hnb, show (p + s + w + 7) / 8 = 2 by omega,
    show 8 * 1 - w = p by omega]
  clear h9 hsb
  bits

set_option maxHeartbeats 1000000 in
/-- A longer field, after the first byte. -/
theorem deparse_right_more (data dst : Bytes) (w p s m : Nat) (ho : p + s < 8) (hs : 0 < s)
    (hnb : data.length = m + 1) (hw : w + p = 8 * (m + 1))
    (hdst : m + 2 ≤ dst.length) (hn : 0 < m) (d2 : Bytes)
    (hd2 : d2.length = dst.length)
    (h9 : bytesBits d2 = (bytesBits dst).take (p + s) ++
        (((bytesBits data).drop p).take (8 - (p + s)) ++ (bytesBits dst).drop 8)) :
    ∃ l d3 x d4 d5, (List.range m).mapM (two data (8 - s)) = some l ∧
      setBytes d2 1 l = some d3 ∧ d3[m + 1]? = some x ∧
      setByte d3 (m + 1) (x &&& UInt8.ofNat (2 ^ (8 - s) - 1)) = some d4 ∧
      orByte d4 (m + 1) (shl data[m] (8 - s)) = some d5 ∧
      Deparsed data dst d5 w (p + s) := by
  obtain ⟨l, h10, h11, h12⟩ := mapM_two data (8 - s) (by omega) m (by omega)
  have hlast : data[m]? = some data[m] := List.getElem?_eq_getElem (by omega)
  obtain ⟨d3, h13, h14, h15⟩ := setBytes_spec d2 1 l (by omega)
  have h15' : bytesBits d3 = (bytesBits dst).take (p + s) ++
      (((bytesBits data).drop p).take (8 * (m + 1) - (p + s)) ++ (bytesBits dst).drop (8 * (m + 1))) := by
    rw [h15, h9, h12, h11]
    clear h15 h9 h12
    bits
  clear h15 h9 h12
  have hdn : d3[m + 1]? = some d3[m + 1] := List.getElem?_eq_getElem (by omega)
  have hx : byteBits d3[m + 1] = ((bytesBits dst).drop (8 * (m + 1))).take 8 := by
    rw [byte_at hdn, h15']
    clear h15'
    bits
  have hset := bytesBits_set d3 (m + 1) (d3[m + 1] &&& UInt8.ofNat (2 ^ (8 - s) - 1))
    (by omega)
  rw [byteBits_lowMask _ _ (by omega), h15', hx] at hset
  have hset' : bytesBits (d3.set (m + 1) (d3[m + 1] &&& UInt8.ofNat (2 ^ (8 - s) - 1)))
      = (bytesBits dst).take (p + s) ++ (((bytesBits data).drop p).take (8 * (m + 1) - (p + s)) ++
        (List.replicate s false ++ (bytesBits dst).drop (8 * (m + 1) + s))) := by
    rw [hset]
    clear hset hx h15'
    bits
  generalize hd4 : d3.set (m + 1) (d3[m + 1] &&& UInt8.ofNat (2 ^ (8 - s) - 1)) = d4
    at hset'
  clear hset hx h15'
  have hd4l : d4.length = d3.length := by rw [← hd4]; simp
  have hd4n : d4[m + 1]? = some d4[m + 1] := List.getElem?_eq_getElem (by omega)
  have hb4 : byteBits d4[m + 1] = List.replicate s false
      ++ ((bytesBits dst).drop (8 * (m + 1) + s)).take (8 - s) := by
    rw [byte_at hd4n, hset']
    clear hset'
    bits
  have hsh : byteBits (shl data[m] (8 - s))
      = (bytesBits data).drop (8 * (m + 1) - s) ++ List.replicate (8 - s) false := by
    rw [byteBits_shl _ _ (by omega), byte_at hlast]
    clear hset' hb4
    bits
  have hor : byteBits (d4[m + 1] ||| shl data[m] (8 - s))
      = (bytesBits data).drop (8 * (m + 1) - s)
        ++ ((bytesBits dst).drop (8 * (m + 1) + s)).take (8 - s) := by
    have hcomm : d4[m + 1] ||| shl data[m] (8 - s) = shl data[m] (8 - s) ||| d4[m + 1] :=
      UInt8.or_comm _ _
    rw [hcomm, byteBits_merge _ _ s (by omega), hsh, hb4]
    · clear hset' hb4 hsh
      bits
    · rw [hsh]
      clear hset' hb4 hsh
      bits
    · rw [hb4]
      clear hset' hb4 hsh
      bits
  refine ⟨l, d3, d3[m + 1], d4, d4.set (m + 1) (d4[m + 1] ||| shl data[m] (8 - s)), h10, h13,
    hdn, by rw [setByte_spec _ _ _ (by omega), hd4], ?_, by simp; omega,
    ((bytesBits dst).drop (8 * (m + 1) + s)).take (8 - s),
    ⟨by simp; omega, .inr ?_⟩, ?_⟩
  · simp only [orByte, hd4n, Option.bind_eq_bind, Option.bind_some]
    rw [setByte_spec _ _ _ (by omega)]
  · rw [show p + s + w = 8 * (m + 1) + s by omega, List.length_take, List.length_drop,
      bytesBits_length]
    congr 1
    omega
  · rw [bytesBits_set _ _ _ (by omega), hor, hset', hnb, show (p + s + w + 7) / 8 = m + 2 by omega,
      show 8 * (m + 1) - w = p by omega]
    clear hor hset' hb4 hsh
    bits

theorem genericDeparse_spec (data dst : Bytes) (w o : Nat) (ho : o < 8)
    (hdata : data.length = (w + 7) / 8)
    (hpad : (bytesBits data).take (8 * data.length - w) = List.replicate (8 * data.length - w) false)
    (hdst : (o + w + 7) / 8 ≤ dst.length) :
    ∃ dst', genericDeparse data w dst o = some dst' ∧ Deparsed data dst dst' w o := by
  unfold genericDeparse
  dsimp only
  by_cases h0 : w = 0
  · rw [if_pos h0]
    subst h0
    have : data = [] := List.length_eq_zero_iff.1 (by omega)
    subst this
    refine ⟨dst, rfl, rfl, ((bytesBits dst).drop o).take (8 * ((o + 0 + 7) / 8) - (o + 0)),
      ⟨by simp; omega, .inr ?_⟩, ?_⟩
    · rw [List.length_take, List.length_drop, bytesBits_length]
      congr 1
      simp only [bytesBits_nil, List.length_nil] at *
      omega
    simp only [bytesBits_nil]
    bits
  rw [if_neg h0]
  by_cases h1 : o = 0 ∧ w % 8 = 0
  · rw [if_pos h1]
    simp only [copyOf, if_pos (show (w + 7) / 8 ≤ data.length by omega), Option.bind_eq_bind,
      Option.bind_some]
    exact deparse_aligned data dst w o ho h0 _ rfl hdata hdst h1
  rw [if_neg h1]
  obtain ⟨d1, h2, h3, h4⟩ := clear0_spec dst o (by omega) (by omega)
  have hd0 : data[0]? = some data[0] := List.getElem?_eq_getElem (by omega)
  have hlast : data[data.length - 1]? = some data[data.length - 1] :=
    List.getElem?_eq_getElem (by omega)
  simp only [h2, Option.bind_eq_bind, Option.bind_some, ← hdata, hd0]
  by_cases h5 : 8 * data.length - w = o
  · rw [if_pos h5]
    obtain ⟨d2, d3, h6, h7, h8⟩ := deparse_same data dst w o ho h0 _ rfl hdata hpad hdst h5 d1 h3 h4
    have hhb : (o + w + 7) / 8 = data.length := by omega
    simp only [copyOf, hhb, le_refl, if_true, Option.bind_some, List.take_length, h6, h7]
    exact ⟨d3, rfl, h8⟩
  rw [if_neg h5]
  obtain ⟨m, hm⟩ : ∃ m, data.length = m + 1 := ⟨data.length - 1, by omega⟩
  by_cases h6 : 8 * data.length - w > o
  · rw [if_pos h6]
    obtain ⟨s, hs⟩ : ∃ s, 8 * data.length - w = o + s := ⟨8 * data.length - w - o, by omega⟩
    rw [hs] at hpad
    obtain ⟨d2, l, d3, d4, h7, h8, h9, h10, h11⟩ :=
      deparse_left data dst w o s m (by omega) (by omega) hm (by omega) hpad (by omega) d1 h3 h4
    have hhb : (o + w + 7) / 8 = m + 1 := by omega
    simp only [hm] at hlast hs
    simp only [hhb, hm, hs, Nat.add_sub_cancel, Nat.add_sub_cancel_left] at *
    simp only [h7, h8, h9, hlast, h10, Option.bind_some]
    exact ⟨d4, rfl, h11⟩
  · rw [if_neg h6]
    obtain ⟨p, hp⟩ : ∃ p, 8 * data.length - w = p := ⟨_, rfl⟩
    obtain ⟨s, hs⟩ : ∃ s, o = p + s := ⟨o - p, by omega⟩
    subst hs
    rw [hp] at hpad
    obtain ⟨d2, h7, h8, h9⟩ := deparse_right data dst w p s m (by omega) (by omega) hm (by omega) hpad
      (by omega) d1 h3 h4
    have hhb : (p + s + w + 7) / 8 = m + 2 := by omega
    have hsh : p + s - p = s := by omega
    simp only [hp, hsh, h7, Option.bind_some]
    by_cases hn : data.length = 1
    · rw [if_pos hn]
      exact deparse_right_one data dst w p s ho (by omega) hn (by omega) (by omega) d2 h8 h9
    · rw [if_neg hn]
      obtain ⟨l, d3, x, d4, d5, h10, h11, h12, h13, h14, h15⟩ :=
        deparse_right_more data dst w p s m ho (by omega) hm (by omega) (by omega) (by omega) d2 h8 h9
      have e1 : 8 * (m + 2) - (p + s + w) = 8 - s := by omega
      have e2 : m + 2 - 2 = m := by omega
      have e3 : m + 2 - 1 = m + 1 := by omega
      simp only [hm, Nat.add_sub_cancel] at hlast
      simp only [hhb, e1, e2, e3, hm, Nat.add_sub_cancel, h10, h11, h12, h13, hlast, h14,
        Option.bind_some]
      exact ⟨d5, rfl, h15⟩

end Bm.Extract
