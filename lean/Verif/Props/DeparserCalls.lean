import Verif.Model.PacketBuffer
import Verif.Props.Deparser

/-!
# C83: deparsers with method calls
-/

namespace Bm.PBuf

open Bm.Spec Bm.Parse Bm.Header

/-- The bits of the valid headers, in the order of the deparser. -/
def headerBits (p : Phv) (order : List Nat) : List Bool :=
  order.flatMap fun h =>
    match p.headers[h]? with
    | some x => if x.isValid then (visible x.fields).flatMap fieldBits else []
    | none => []

/-- Headers that can be written: the fields have their padding, and a whole number of bytes. -/
def Writable (p : Phv) (order : List Nat) : Prop :=
  ∀ h ∈ order, ∃ x, p.headers[h]? = some x ∧ (x.isValid = true →
    (∀ f ∈ visible x.fields, Padded f) ∧ total x.fields = 8 * x.nbytesPacket)

theorem fieldBits_length {f : Field} (h : Padded f) : (fieldBits f).length = f.nbits := by
  have h1 := h.shape.len
  have h2 := h.shape.nbytes
  unfold fieldBits
  rw [List.length_drop, bytesBits_length, h1, h2]
  omega

theorem wire_length {fs : List Field} (h : ∀ f ∈ visible fs, Padded f) :
    ((visible fs).flatMap fieldBits).length = total fs := by
  unfold total
  revert h
  generalize visible fs = l
  intro h
  induction l with
  | nil => rfl
  | cons f l ih =>
    rw [List.flatMap_cons, List.length_append, List.map_cons, List.sum_cons,
      fieldBits_length (h f (by simp)), ih (fun g hg => h g (by simp [hg]))]

/-- Writing the valid headers in front of a buffer. -/
theorem emit_bits {p : Phv} : ∀ (order : List Nat), Writable p order →
    ∃ n, headersSize p order = some n ∧ (headerBits p order).length = 8 * n ∧
      ∀ buf : Bytes, n ≤ buf.length → ∃ out, emit p order buf = some (out ++ buf.drop n) ∧
        bytesBits out = headerBits p order ∧ out.length = n
  | [], _ => ⟨0, rfl, rfl, fun buf _ => ⟨[], by simp [emit], by simp [headerBits, bytesBits], rfl⟩⟩
  | h :: hs, hw => by
    obtain ⟨x, hx, hv⟩ := hw h (by simp)
    obtain ⟨n, e1, e2, e3⟩ := emit_bits hs (fun g hg => hw g (by simp [hg]))
    cases hval : x.isValid with
    | false =>
      refine ⟨n, ?_, ?_, fun buf hb => ?_⟩
      · simp [headersSize, hx, e1, hval]
      · simp only [headerBits, List.flatMap_cons, hx, hval] at e2 ⊢
        simpa using e2
      · obtain ⟨out, o1, o2, o3⟩ := e3 buf hb
        refine ⟨out, ?_, ?_, o3⟩
        · simp [emit, hx, hval, o1]
        · simp only [headerBits, List.flatMap_cons, hx, hval] at o2 ⊢
          simpa using o2
    | true =>
      obtain ⟨hp, ht⟩ := hv hval
      have hwl := wire_length hp
      refine ⟨x.nbytesPacket + n, ?_, ?_, fun buf hb => ?_⟩
      · simp [headersSize, hx, e1, hval]
      · simp only [headerBits, List.flatMap_cons, hx, hval, if_true, List.length_append] at e2 ⊢
        omega
      · obtain ⟨r, r1, r2, r3, r4⟩ := deparse_spec hp ht buf (by omega)
        obtain ⟨out, o1, o2, o3⟩ := e3 (r.drop x.nbytesPacket) (by rw [List.length_drop]; omega)
        refine ⟨r.take x.nbytesPacket ++ out, ?_, ?_, ?_⟩
        · simp only [emit, hx, hval, r1, o1, Option.bind_eq_bind, Option.bind_some, if_true]
          show some _ = some _
          rw [r4, List.drop_drop, List.append_assoc]
        · simp only [headerBits, List.flatMap_cons, hx, hval, if_true] at o2 ⊢
          rw [bytesBits_append, r3, o2]
          rfl
        · rw [List.length_append, List.length_take, o3]
          omega

/-- **C83**, for every header vector, method calls, order, payload and content `room` of the free part of the
buffer: the packet begins with the bits of the headers that are valid after the method calls.  What follows is
the payload behind the space `n` made for the headers that were valid before. -/
theorem C83_deparse {calls : Phv → Option Phv} {p p' : Phv} (hc : calls p = some p') {order : List Nat}
    (hw : Writable p' order) {n m : Nat} (hn : headersSize p order = some n)
    (hm : (headerBits p' order).length = 8 * m) {room payload : Bytes} (hr : n ≤ room.length)
    (hfit : m ≤ n + payload.length) :
    ∃ out rest, deparseCalls calls p order room payload = some (p', out ++ rest) ∧
      bytesBits out = headerBits p' order ∧
      rest = (room.drop (room.length - n) ++ payload).drop m := by
  obtain ⟨k, e1, e2, e3⟩ := emit_bits order hw
  have hk : k = m := by omega
  subst hk
  obtain ⟨out, o1, o2, o3⟩ := e3 (room.drop (room.length - n) ++ payload) (by
    rw [List.length_append, List.length_drop]; omega)
  refine ⟨out, _, ?_, o2, rfl⟩
  simp only [deparseCalls, hn, hc, Option.bind_eq_bind, Option.bind_some]
  rw [if_pos hr, o1]
  rfl

/-- **C83** (partial): if the method calls change the size of the valid headers by nothing, the packet is the
valid headers, then the payload.  Missing: method calls that make headers valid or invalid, see
`C83_refuted_gap`, `C83_refuted_lost` and `C83_refuted_overflow`. -/
theorem C83_partial {calls : Phv → Option Phv} {p p' : Phv} (hc : calls p = some p') {order : List Nat}
    (hw : Writable p' order) {n : Nat} (hn : headersSize p order = some n)
    (hm : headersSize p' order = some n) {room payload : Bytes} (hr : n ≤ room.length) :
    ∃ out, deparseCalls calls p order room payload = some (p', out ++ payload) ∧
      bytesBits out = headerBits p' order := by
  obtain ⟨k, e1, e2, _⟩ := emit_bits order hw
  rw [hm] at e1
  cases e1
  obtain ⟨out, rest, d1, d2, d3⟩ := C83_deparse hc hw hn e2 hr (by omega : n ≤ n + payload.length)
  refine ⟨out, ?_, d2⟩
  rw [d1, d3, List.drop_left' (by rw [List.length_drop]; omega)]

/-- Without method calls the packet is the valid headers, then the payload. -/
theorem C83_no_calls {p : Phv} {order : List Nat} (hw : Writable p order) {n : Nat}
    (hn : headersSize p order = some n) {room payload : Bytes} (hr : n ≤ room.length) :
    ∃ out, deparseCalls some p order room payload = some (p, out ++ payload) ∧
      Parse.deparse p order room payload = some (out ++ payload) ∧
      bytesBits out = headerBits p order := by
  obtain ⟨out, h1, h2⟩ := C83_partial (calls := some) rfl hw hn hn hr
  refine ⟨out, h1, ?_, h2⟩
  simp only [deparseCalls, Parse.deparse, hn, Option.bind_eq_bind, Option.bind_some] at h1 ⊢
  rw [if_pos hr] at h1 ⊢
  obtain ⟨x, hx, h1⟩ := Option.bind_eq_some_iff.1 h1
  cases h1
  exact hx

namespace Ex

/-- Headers of two bytes and of one byte, the first one valid. -/
def v1 : Phv := (exPhv.extract 0 [1, 2] 0).get (by decide +kernel)

/-- Both valid. -/
def v2 : Phv := (v1.extract 1 [3] 0).get (by decide +kernel)

/-- Checks on the fields of the examples. -/
def okField (f : Field) : Bool :=
  decide (f.nbytes = (f.nbits + 7) / 8 ∧ f.bytes.length = f.nbytes ∧ f.mask = 2 ^ f.nbits - 1 ∧
    f.max = f.kind.highest ∧ f.min = f.kind.lowest ∧ f.isSigned = false ∧ f.nbits % 8 = 0)

theorem padded_of {f : Field} (h : okField f = true) : Padded f := by
  obtain ⟨h1, h2, h3, h4, h5, h6, h7⟩ := of_decide_eq_true h
  exact ⟨⟨h1, h2, h3, h4, h5, fun h => by rw [h6] at h; cases h⟩, by
    rw [h2, h1, show 8 * ((f.nbits + 7) / 8) - f.nbits = 0 by omega]; rfl⟩

theorem writable (p : Phv) (order : List Nat)
    (h : order.all (fun h => match p.headers[h]? with
      | some x => (visible x.fields).all okField && decide (total x.fields = 8 * x.nbytesPacket)
      | none => false) = true) : Writable p order := by
  intro g hg
  have := List.all_eq_true.1 h g hg
  cases hx : p.headers[g]? with
  | none => rw [hx] at this; cases this
  | some x =>
    rw [hx] at this
    simp only [Bool.and_eq_true, decide_eq_true_eq, List.all_eq_true] at this
    exact ⟨x, rfl, fun _ => ⟨fun f hf => padded_of (this.1 f hf), this.2⟩⟩

/-- A method call that writes a field. -/
def setByte (p : Phv) : Option Phv := p.extract 1 [9] 0

/-- The hypotheses of `C83_partial` hold: a method call changes the second header. -/
example : ∃ p', setByte v2 = some p' ∧ Writable p' [0, 1] ∧ headersSize v2 [0, 1] = some 3 ∧
    headersSize p' [0, 1] = some 3 ∧
    (deparseCalls setByte v2 [0, 1] [0xaa, 0xbb, 0xcc, 0xdd] [7, 8]).map (·.2) =
      some [1, 2, 9, 7, 8] := by
  refine ⟨(setByte v2).get (by decide +kernel), ?_, writable _ _ ?_, ?_, ?_, ?_⟩ <;> decide +kernel

/-- **C83 is refuted** for method calls that make a header invalid: a byte of the memory of the buffer is sent
between the headers and the payload. -/
theorem C83_refuted_gap : ∃ p', v2.markInvalid 1 = some p' ∧ headersSize p' [0, 1] = some 2 ∧
    (deparseCalls (·.markInvalid 1) v2 [0, 1] [0xaa, 0xbb, 0xcc, 0xdd] [7, 8]).map (·.2) =
      some [1, 2, 0xdd, 7, 8] := by
  refine ⟨(v2.markInvalid 1).get (by decide +kernel), ?_, ?_, ?_⟩ <;> decide +kernel

/-- **C83 is refuted** for method calls that make a header valid: it is written over the payload. -/
theorem C83_refuted_lost : ∃ p', v1.markValid 1 = some p' ∧ headersSize p' [0, 1] = some 3 ∧
    (deparseCalls (·.markValid 1) v1 [0, 1] [0xaa, 0xbb, 0xcc, 0xdd] [7, 8]).map (·.2) =
      some [1, 2, 0, 8] := by
  refine ⟨(v1.markValid 1).get (by decide +kernel), ?_, ?_, ?_⟩ <;> decide +kernel

/-- If the payload is too short, it is written behind the end of the buffer (undefined behaviour). -/
theorem C83_refuted_overflow : (v1.markValid 1).isSome = true ∧
    deparseCalls (·.markValid 1) v1 [0, 1] [0xaa, 0xbb, 0xcc, 0xdd] [] = none := by
  refine ⟨?_, ?_⟩ <;> decide +kernel

end Ex

end Bm.PBuf
