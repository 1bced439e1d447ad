import Verif.Model.Calc
import Verif.Lemmas.Header

/-!
# Lemmas on `BufBuilder`
-/

namespace Bm.Calc

open Bm.Spec Bm.Extract Bm.Field Bm.Header

/-- The bits an entry contributes: those of a field, of a constant, or of all visible fields of a
header; nothing if the header is not valid. -/
def Entry.bits (hdrs : List Header) : Entry → List Bool
  | .field h i =>
    match hdrs[h]? with
    | none => []
    | some hd => if hd.isValid then (hd.fields[i]?.map fieldBits).getD [] else []
  | .const v n => (bytesBits v).drop (8 * v.length - n)
  | .header h =>
    match hdrs[h]? with
    | none => []
    | some hd => if hd.isValid then (visible hd.fields).flatMap fieldBits else []

/-- What an entry needs. -/
def Entry.Ok (hdrs : List Header) : Entry → Prop
  | .field h i => ∃ hd f, hdrs[h]? = some hd ∧ hd.fields[i]? = some f ∧ Padded f
  | .const v n => v ≠ [] ∧ v.length = (n + 7) / 8 ∧
      (bytesBits v).take (8 * v.length - n) = List.replicate (8 * v.length - n) false
  | .header h => ∃ hd, hdrs[h]? = some hd ∧ (∀ f ∈ visible hd.fields, Padded f) ∧
      total hd.fields = 8 * hd.nbytesPacket

/-- The state after writing `bits`. -/
structure Inv (s : St) (bits : List Bool) : Prop where
  nbits : s.nbits = bits.length
  len : s.buf.length = (bits.length + 7) / 8
  eq : bytesBits s.buf = bits ++ List.replicate (8 * s.buf.length - bits.length) false

theorem bytesBits_replicate (m : Nat) : bytesBits (List.replicate m (0 : UInt8)) = List.replicate (8 * m) false := by
  induction m with
  | zero => rfl
  | succ k ih =>
    rw [List.replicate_succ, bytesBits_cons, ih, show byteBits 0 = List.replicate 8 false by decide,
      List.replicate_append_replicate]
    congr 1
    omega

theorem resize_spec {s : St} {bits : List Bool} (h : Inv s bits) (w : Nat) :
    (resize s.buf ((s.nbits + w + 7) / 8)).length = (bits.length + w + 7) / 8 ∧
    bytesBits (resize s.buf ((s.nbits + w + 7) / 8))
      = bits ++ List.replicate (8 * ((bits.length + w + 7) / 8) - bits.length) false := by
  obtain ⟨h1, h2, h3⟩ := h
  unfold resize
  rw [h1, List.take_of_length_le (by omega)]
  refine ⟨by simp; omega, ?_⟩
  rw [bytesBits_append, h3, bytesBits_replicate, List.append_assoc, List.replicate_append_replicate]
  congr 2
  omega

/-- Appending a bit string with `generic_deparse`. -/
theorem deparse_step {s : St} {bits : List Bool} (h : Inv s bits) (v : Bytes) (w : Nat)
    (hv : v.length = (w + 7) / 8)
    (hpad : (bytesBits v).take (8 * v.length - w) = List.replicate (8 * v.length - w) false) :
    ∃ s', writeAt (extend s w).1 (extend s w).2 (fun d => genericDeparse v w d (s.nbits % 8)) = some s' ∧
      Inv s' (bits ++ (bytesBits v).drop (8 * v.length - w)) := by
  obtain ⟨r1, r2⟩ := resize_spec h w
  unfold extend writeAt
  dsimp only
  generalize resize s.buf ((s.nbits + w + 7) / 8) = R at *
  obtain ⟨h1, h2, h3⟩ := h
  rw [h1]
  obtain ⟨d, e1, e2, z, ⟨e3, e4⟩, e5⟩ := genericDeparse_spec v (R.drop (bits.length / 8)) w (bits.length % 8)
    (by omega) hv hpad (by rw [List.length_drop]; omega)
  refine ⟨_, by rw [e1]; rfl, ?_⟩
  have hfl : ((bytesBits v).drop (8 * v.length - w)).length = w := by
    rw [List.length_drop, bytesBits_length]; omega
  have hdst : bytesBits (R.drop (bits.length / 8)) = bits.drop (8 * (bits.length / 8))
      ++ List.replicate (8 * ((bits.length + w + 7) / 8) - bits.length) false := by
    rw [bytesBits_drop, r2, List.drop_append_of_le_length (by omega)]
  have hz : z = List.replicate z.length false := by
    rcases e4 with e4 | e4
    · exact e4
    · rw [hdst, List.drop_append, List.drop_eq_nil_of_le (by rw [List.length_drop]; omega), List.nil_append,
        List.drop_replicate, List.take_replicate] at e4
      have := congrArg List.length e4
      rw [List.length_replicate] at this
      rw [← this] at e4
      exact e4
  have hbuf : bytesBits (R.take (bits.length / 8) ++ d) = bits ++ ((bytesBits v).drop (8 * v.length - w)
      ++ List.replicate z.length false) := by
    have p1 : (bytesBits (R.drop (bits.length / 8))).take (bits.length % 8)
        = bits.drop (8 * (bits.length / 8)) := by
      rw [hdst]
      exact List.take_left' (by rw [List.length_drop]; omega)
    have p2 : (bytesBits (R.drop (bits.length / 8))).drop (8 * ((bits.length % 8 + w + 7) / 8)) = [] := by
      rw [List.drop_eq_nil_iff, hdst, List.length_append, List.length_drop, List.length_replicate]
      omega
    rw [bytesBits_append, bytesBits_take, r2, List.take_append_of_le_length (by omega), e5, ← hz, p1, p2,
      List.append_nil, ← List.append_assoc, List.take_append_drop]
  have hlen : (R.take (bits.length / 8) ++ d).length = (bits.length + w + 7) / 8 := by
    rw [List.length_append, List.length_take, e2, List.length_drop]; omega
  refine ⟨?_, ?_, ?_⟩
  · rw [List.length_append, hfl]
  · dsimp only; rw [hlen, List.length_append, hfl]
  · rw [hbuf, List.append_assoc]
    congr 3
    dsimp only
    rw [hlen, e3, List.length_append, hfl]
    omega

theorem step_spec {hdrs : List Header} {s : St} {bits : List Bool} (h : Inv s bits) (e : Entry)
    (he : e.Ok hdrs) (ha : (∃ h, e = .header h) → bits.length % 8 = 0) :
    ∃ s', step hdrs s e = some s' ∧ Inv s' (bits ++ e.bits hdrs) := by
  cases e with
  | field hd i =>
    obtain ⟨hdr, f, h1, h2, h3⟩ := he
    unfold step Entry.bits
    simp only [h1, h2, Option.bind_eq_bind, Option.bind_some, Option.map_some, Option.getD_some]
    by_cases hv : hdr.isValid = true
    · rw [if_neg (by simp [hv]), if_pos hv]
      exact deparse_step h f.bytes f.nbits (by rw [h3.shape.len, h3.shape.nbytes]) h3.pad
    · rw [if_pos (by simp [hv]), if_neg hv]
      exact ⟨s, rfl, by simpa using h⟩
  | const v n =>
    obtain ⟨h0, h1, h2⟩ := he
    unfold step Entry.bits
    simp only [if_neg h0]
    exact deparse_step h v n h1 h2
  | header hd =>
    obtain ⟨hdr, h1, h2, h3⟩ := he
    have ha := ha ⟨_, rfl⟩
    unfold step Entry.bits
    simp only [h.nbits, ha, ne_eq, not_true, if_false, h1, Option.bind_eq_bind, Option.bind_some]
    by_cases hv : hdr.isValid = true
    · rw [if_pos hv, if_pos hv]
      obtain ⟨r1, r2⟩ := resize_spec h (hdr.nbytesPacket * 8)
      unfold extend writeAt
      dsimp only
      generalize resize s.buf ((s.nbits + hdr.nbytesPacket * 8 + 7) / 8) = R at *
      rw [h.nbits]
      obtain ⟨r, d1, d2, d3, d4⟩ := Header.deparse_spec h2 h3 (R.drop (bits.length / 8))
        (by rw [List.length_drop]; omega)
      refine ⟨_, by rw [d1]; rfl, ?_⟩
      have hwl : (wire hdr.fields).length = 8 * hdr.nbytesPacket := by
        rw [wire_length (fun f hf => (h2 f hf).shape), h3]
      rw [List.length_drop, r1] at d2
      have hr : r.take hdr.nbytesPacket = r := List.take_of_length_le (by omega)
      rw [hr] at d3
      have hlen : (R.take (bits.length / 8) ++ r).length = bits.length / 8 + hdr.nbytesPacket := by
        rw [List.length_append, List.length_take, d2]; omega
      change Inv _ (bits ++ wire hdr.fields)
      refine ⟨?_, ?_, ?_⟩
      · dsimp only; rw [List.length_append, hwl]; omega
      · dsimp only; rw [hlen, List.length_append, hwl]; omega
      · dsimp only
        rw [hlen, bytesBits_append, bytesBits_take, r2, d3, List.take_append_of_le_length (by omega),
          List.take_of_length_le (by omega), List.length_append, hwl,
          show 8 * (bits.length / 8 + hdr.nbytesPacket) - (bits.length + 8 * hdr.nbytesPacket) = 0 by omega]
        simp
    · rw [if_neg hv, if_neg hv]
      exact ⟨s, rfl, by simpa using h⟩

/-- Every header entry starts at a byte boundary. -/
def Aligned (hdrs : List Header) : Nat → List Entry → Prop
  | _, [] => True
  | n, e :: es => ((∃ h, e = .header h) → n % 8 = 0) ∧ Aligned hdrs (n + (e.bits hdrs).length) es

theorem run_spec {hdrs : List Header} (es : List Entry) : ∀ {s : St} {bits : List Bool}, Inv s bits →
    (∀ e ∈ es, e.Ok hdrs) → Aligned hdrs bits.length es →
    ∃ s', es.foldlM (step hdrs) s = some s' ∧ Inv s' (bits ++ es.flatMap (Entry.bits hdrs)) := by
  induction es with
  | nil => intro s bits h _ _; exact ⟨s, rfl, by simpa using h⟩
  | cons e es ih =>
    intro s bits h hok ha
    obtain ⟨s1, h1, h2⟩ := step_spec h e (hok e (by simp)) ha.1
    obtain ⟨s2, h3, h4⟩ := ih h2 (fun x hx => hok x (by simp [hx]))
      (by rw [List.length_append]; exact ha.2)
    refine ⟨s2, ?_, ?_⟩
    · rw [List.foldlM_cons, h1]; exact h3
    · rw [List.flatMap_cons, ← List.append_assoc]; exact h4

end Bm.Calc
