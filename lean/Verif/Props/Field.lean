import Verif.Lemmas.Header

/-!
# C31: a field's number and its bytes always agree
-/

namespace Bm.Field

open Bm.Spec Bm.Data

/-- Ways to change a field. -/
inductive Op where
  /-- an assignment (every arithmetic operation ends in one) -/
  | set (v : Int)
  /-- `set_bytes` -/
  | bytes (l : Bytes)
  /-- extraction from a packet -/
  | extract (data : Bytes) (o : Nat)

/-- One operation. -/
def step (f : Field) : Op → Option Field
  | .set v => f.set false v
  | .bytes l => f.setBytes l
  | .extract data o => f.extract data o

/-- Several. -/
def run (f : Field) : List Op → Option Field
  | [] => some f
  | op :: ops => (f.step op).bind (·.run ops)

/-- What the callers guarantee: `set_bytes` gets bytes with zero padding, and the packet is long
enough. -/
def Op.Ok (w : Nat) : Op → Prop
  | .set _ => True
  | .bytes l => ∃ v, IsBytesOf w v l
  | .extract data o => o < 8 ∧ (o = 0 ∨ w ≠ 0) ∧ (o + w + 7) / 8 ≤ data.length

/-- An assignment of a value that a signed field leaves alone though it does not fit. -/
def Op.IsOdd (f : Field) : Op → Prop
  | .set v => f.Odd v
  | _ => False

/-- Bytes are the two's complement form of the number. -/
structure Agrees (f : Field) : Prop where
  shape : f.Shape
  bytes : IsBytesOf f.nbits f.value f.bytes

theorem step_agrees {f : Field} (hf : f.Shape) (ha : f.arith = true) (op : Op) (ho : op.Ok f.nbits) :
    ∃ f', f.step op = some f' ∧ f'.Agrees ∧ f'.kind = f.kind ∧ f'.arith = true ∧
      (¬ op.IsOdd f → f.kind.Fits f'.value) := by
  cases op with
  | set v =>
    obtain ⟨f', h1, h2, h3, h4, _, _, h7, _, _, h10, _⟩ := set_spec hf v
    refine ⟨f', h1, ⟨h2, ?_⟩, h3, by rw [h4, ha], fun h => (h10 h).1⟩
    rw [show f'.nbits = f.nbits from congrArg Kind.w h3]
    exact h7
  | bytes l =>
    obtain ⟨v, hv⟩ := ho
    have hs : ({ f with bytes := l } : Field).Shape :=
      ⟨hf.nbytes, by rw [hf.nbytes]; exact hv.1, hf.mask, hf.max, hf.min, hf.sgn⟩
    have := sync_spec hs (intBits f.nbits v) (by simp [intBits])
      (by rw [show ({ f with bytes := l } : Field).nbytes = l.length from hs.len.symm]; exact hv.2)
    refine ⟨({ f with bytes := l } : Field).syncValue, ?_, ⟨syncValue_shape hs, this.2⟩, rfl, ha,
      fun _ => this.1⟩
    simp only [step, setBytes]
    rw [if_pos (by rw [hf.nbytes]; exact hv.1), if_pos ha]
  | extract data o =>
    obtain ⟨h1, h2, h3⟩ := ho
    obtain ⟨f', g1, g2, g3, g4, _, _, _, g8⟩ := extract_spec hf.shape0 data o h1 h2 h3
    have hn : f'.nbits = f.nbits := congrArg Kind.w g3
    exact ⟨f', g1, ⟨g2, by rw [hn]; exact (g8 ha).2⟩, g3, by rw [g4, ha], fun _ => (g8 ha).1⟩

/-- **C31**, agreement: for every width and kind of (arithmetic) field, after any sequence of
assignments, byte copies and extractions the bytes of the field are the two's complement form of its
number; and no step fails. -/
theorem C31_agree {n : Nat} {s hid vl sat : Bool} {f : Field} (hf : mk' n true s hid vl sat = some f)
    (ops : List Op) (hops : ∀ op ∈ ops, op.Ok n) :
    ∃ f', f.run ops = some f' ∧ f'.kind = ⟨n, s, sat⟩ ∧ IsBytesOf n f'.value f'.bytes := by
  obtain ⟨h1, h2, h3, h4, h5, _, h7, h8⟩ := mk'_shape hf
  have hk : f.kind = ⟨n, s, sat⟩ := by unfold kind; rw [h2, h3, h4]
  have hA : f.Agrees := by
    refine ⟨h1, by rw [h8, List.length_replicate, h2], ?_⟩
    rw [h7, h8, h2]
    have e : bytesBits (List.replicate ((n + 7) / 8) (0 : UInt8))
        = List.replicate (8 * ((n + 7) / 8)) false := by
      have := bytesBits_zero (List.replicate ((n + 7) / 8) (0 : UInt8))
      simpa using this
    rw [e]
    simp only [intBits, Int.zero_emod, Int.toNat_zero, natBits_zero, List.length_replicate,
      List.replicate_append_replicate]
    congr 1; omega
  clear hf h2 h3 h4 h7 h8 h1
  have : ∀ ops : List Op, (∀ op ∈ ops, op.Ok n) → ∀ f : Field, f.Agrees → f.arith = true →
      f.kind = ⟨n, s, sat⟩ →
      ∃ f', f.run ops = some f' ∧ f'.kind = ⟨n, s, sat⟩ ∧ IsBytesOf n f'.value f'.bytes := by
    intro ops
    induction ops with
    | nil =>
      intro _ f hA _ hk
      have hn : f.nbits = n := congrArg Kind.w hk
      exact ⟨f, rfl, hk, hn ▸ hA.bytes⟩
    | cons op ops ih =>
      intro ho f hA ha hk
      have hn : f.nbits = n := congrArg Kind.w hk
      obtain ⟨f', g1, g2, g3, g4, _⟩ := step_agrees hA.shape ha op (by rw [hn]; exact ho op (by simp))
      obtain ⟨f'', e1, e2⟩ := ih (fun o h => ho o (by simp [h])) f' g2 g4 (g3.trans hk)
      exact ⟨f'', by simp [run, g1, e1], e2⟩
  exact this ops hops f hA h5 hk

/-- **C31**, the number: an assignment to a field in any reachable state leaves the number that the
kind of field calls for: reduced modulo `2 ^ w` if unsigned, clamped if saturating, wrapped if signed.
Not covered, because it is false (`C31_refuted`): a value between `2 ^ (w - 1)` and `2 ^ w - 1` assigned
to a signed field that does not saturate. -/
theorem C31_partial {n : Nat} {s hid vl sat : Bool} {f : Field} (hf : mk' n true s hid vl sat = some f)
    (ops : List Op) (hops : ∀ op ∈ ops, op.Ok n) (v : Int)
    (hv : s = true → sat = false → ¬ (2 ^ (n - 1) ≤ v ∧ v < 2 ^ n)) :
    ∃ f', f.run (ops ++ [.set v]) = some f' ∧ (Kind.mk n s sat).Assigned v f'.value ∧
      (Kind.mk n s sat).Fits f'.value := by
  obtain ⟨h1, h2, h3, h4, h5, _⟩ := mk'_shape hf
  have hk : f.kind = ⟨n, s, sat⟩ := by unfold kind; rw [h2, h3, h4]
  clear hf h2 h3 h4
  have : ∀ ops : List Op, (∀ op ∈ ops, op.Ok n) → ∀ f : Field, f.Shape → f.arith = true →
      f.kind = ⟨n, s, sat⟩ →
      ∃ f', f.run (ops ++ [.set v]) = some f' ∧ (Kind.mk n s sat).Assigned v f'.value ∧
      (Kind.mk n s sat).Fits f'.value := by
    intro ops
    induction ops with
    | nil =>
      intro _ f hA _ hk
      obtain ⟨f', g1, _, _, _, _, _, _, _, _, g10, _⟩ := set_spec hA v
      have hodd : ¬ f.Odd v := by
        rintro ⟨o1, o2, o3, o4⟩
        have e1 : f.nbits = n := congrArg Kind.w hk
        have e2 : f.isSigned = s := congrArg Kind.signed hk
        have e3 : f.isSaturating = sat := congrArg Kind.saturating hk
        rw [e1] at o3 o4
        exact hv (e2 ▸ o1) (e3 ▸ o2) ⟨o3, o4⟩
      have := g10 hodd
      rw [hk] at this
      exact ⟨f', by simp [run, step, g1], this.2, this.1⟩
    | cons op ops ih =>
      intro ho f hA ha hk
      have hn : f.nbits = n := congrArg Kind.w hk
      obtain ⟨f', g1, g2, g3, g4, _⟩ := step_agrees hA ha op (by rw [hn]; exact ho op (by simp))
      obtain ⟨f'', e1, e2⟩ := ih (fun o h => ho o (by simp [h])) f' g2.shape g4 (g3.trans hk)
      exact ⟨f'', by simp [run, g1, e1], e2⟩
  exact this ops hops f h1 h5 hk

/-- In the case left out the number is not wrapped at all: it stays out of range. -/
theorem C31_unwrapped {f : Field} (hf : f.Shape) (hs : f.isSigned = true)
    (hsat : f.isSaturating = false) (v : Int) (h1 : 2 ^ (f.nbits - 1) ≤ v) (h2 : v < 2 ^ f.nbits) :
    ∃ f', f.set false v = some f' ∧ f'.value = v ∧ ¬ f.kind.Fits f'.value := by
  obtain ⟨f', g1, _, _, _, _, _, _, _, _, _, g11⟩ := set_spec hf v
  have := g11 ⟨hs, hsat, h1, h2⟩
  refine ⟨f', g1, this, ?_⟩
  rw [this]
  rintro ⟨_, h⟩
  simp only [kind, Kind.highest, hs, if_true] at h
  omega

/-- The full claim fails: 200 assigned to an `int<8>` stays 200, although its byte is that of -56. -/
theorem C31_refuted : ∃ f f' : Field, mk' 8 true true false false false = some f ∧
    f.set false 200 = some f' ∧ f'.value = 200 ∧ f'.bytes = [200] ∧
    (∃ f'', f'.setBytes f'.bytes = some f'' ∧ f''.value = -56) := by
  refine ⟨_, _, rfl, rfl, ?_, ?_, _, rfl, ?_⟩ <;> decide +kernel

/-- With `--ret-zero-on-invalid-hdr-read`, assigning to a field of an invalid header stores the number
but zero bytes. -/
theorem C31_refuted_invalid : ∃ f f' : Field, mk' 16 true false false false false = some f ∧
    f.set true 258 = some f' ∧ f'.value = 258 ∧ f'.bytes = [0, 0] := by
  refine ⟨_, _, rfl, rfl, ?_, ?_⟩ <;> decide +kernel

/-- Unsigned: 300 becomes 44 in 8 bits. -/
example : ((mk' 8 true false false false false).bind (·.set false 300)).map (fun f => (f.value, f.bytes))
    = some (44, [44]) := by decide +kernel

/-- Unsigned: -1 becomes 4095 in 12 bits. -/
example : ((mk' 12 true false false false false).bind (·.set false (-1))).map
    (fun f => (f.value, f.bytes)) = some (4095, [15, 255]) := by decide +kernel

/-- Signed: 700 becomes 700 - 768 = -68 in 8 bits. -/
example : ((mk' 8 true true false false false).bind (·.set false 700)).map (fun f => (f.value, f.bytes))
    = some (-68, [188]) := by decide +kernel

/-- Saturating and signed: -700 becomes -128. -/
example : ((mk' 8 true true false false true).bind (·.set false (-700))).map
    (fun f => (f.value, f.bytes)) = some (-128, [128]) := by decide +kernel

end Bm.Field
