import Verif.Lemmas.Parser

/-!
# C37: parsing never reads outside the packet
-/

namespace Bm.Parse

open Bm.Extract Bm.Header

/-- **C37**, for programs whose select keys have no look-ahead, whose `set` operations look ahead within
the bytes checked and which extract variable-length headers with `extract_VL` only (for the others see
`C37_refuted_key`, `C37_refuted_set` and `C37_refuted_extract`): parsing a packet of `size` bytes gives
the same result whatever is behind the packet in memory, and the same as when there is no memory behind
the packet, where every read outside the packet is undefined behaviour.  The number of bytes parsed
never exceeds the size of the packet. -/
theorem C37_partial {rz : Bool} {states : List PState} {phv : Phv} (hs : ∀ s ∈ states, s.Safe (cfg phv))
    (hz : AllSized phv) (mem : Bytes) (size : Nat) (hl : size ≤ mem.length) (fuel : Nat)
    (init : Option Nat) :
    loop rz states ⟨mem, size⟩ fuel init ⟨phv, 0, []⟩ =
        loop rz states ⟨mem.take size, size⟩ fuel init ⟨phv, 0, []⟩ ∧
      ∀ r, loop rz states ⟨mem, size⟩ fuel init ⟨phv, 0, []⟩ = some (some r) → r.1.pos ≤ size := by
  have h := loop_step (rz := rz) (x := mem.drop size) (data := mem.take size) (size := size) hs
    (by simp [hl]) fuel init (st := ⟨phv, 0, []⟩) ⟨rfl, hz, Nat.zero_le _⟩
  rw [List.take_append_drop] at h
  exact ⟨h.1, fun r hr => (h.2 r (h.1 ▸ hr)).pos⟩

/-- The same with two memories that agree on the packet. -/
theorem C37_same {rz : Bool} {states : List PState} {phv : Phv} (hs : ∀ s ∈ states, s.Safe (cfg phv))
    (hz : AllSized phv) (mem mem' : Bytes) (size : Nat) (hl : size ≤ mem.length) (hl' : size ≤ mem'.length)
    (e : mem.take size = mem'.take size) (fuel : Nat) (init : Option Nat) :
    loop rz states ⟨mem, size⟩ fuel init ⟨phv, 0, []⟩ =
      loop rz states ⟨mem', size⟩ fuel init ⟨phv, 0, []⟩ := by
  rw [(C37_partial hs hz mem size hl fuel init).1, (C37_partial hs hz mem' size hl' fuel init).1, e]

/-- The part left in the packet by `parse` is what follows the bytes parsed, and all of the packet is
there: nothing underflows. -/
theorem C37_parse {rz : Bool} {states : List PState} {phv : Phv} (hs : ∀ s ∈ states, s.Safe (cfg phv))
    (hz : AllSized phv) (data : Bytes) (trunc fuel : Nat) (init : Option Nat) (r : Res)
    (e : loop rz states ⟨data, min data.length trunc⟩ fuel init ⟨phv, 0, []⟩ = some (some r)) :
    parse rz states init data trunc fuel phv = some (some (r, data.drop r.1.pos)) := by
  have h := (C37_partial hs hz data (min data.length trunc) (Nat.min_le_left _ _) fuel init).2 r e
  obtain ⟨st, er⟩ := r
  simp only [parse, e, Option.bind_eq_bind, Option.bind_some]
  rw [if_pos (by simp only at h; omega)]
  rfl

/-- **C37**, packets that are too short: with fewer bytes left than needed, the operations raise
`PacketTooShort` and change nothing. -/
theorem C37_short (rz : Bool) (pkt : Pkt) (st : St) (hp : st.pos ≤ pkt.size) :
    (∀ h len hd, st.phv.headers[h]? = some hd → pkt.size - st.pos < hd.nbytesPacket →
      (Op.extract h len).exec rz pkt st = some (st, some .packetTooShort)) ∧
    (∀ h len max hd (n : Int), st.phv.headers[h]? = some hd → len st.phv = some n → n % 8 = 0 → 0 ≤ n →
      (hd.nbytesPacket : Int) + n / 8 < 2 ^ 31 → pkt.size - st.pos < hd.nbytesPacket + (n / 8).toNat →
      (Op.extractVL h len max).exec rz pkt st = some (st, some .packetTooShort)) ∧
    (∀ s stk h hd len, st.phv.hstacks[s]? = some stk → stk.next < stk.elements.length →
      stk.elements[stk.next]? = some h → st.phv.headers[h]? = some hd →
      pkt.size - st.pos < hd.nbytesPacket →
      (Op.extractStack s len 0).exec rz pkt st = some (st, some .packetTooShort)) ∧
    (∀ h f l, pkt.size - st.pos < l.nbytes →
      (Op.setLookahead h f l).exec rz pkt st = some (st, some .packetTooShort)) ∧
    (∀ n, pkt.size - st.pos < n → (Op.shift n).exec rz pkt st = some (st, some .packetTooShort)) ∧
    (∀ bits n, bits st.phv = some n → n % 8 = 0 → pkt.size - st.pos < n / 8 →
      (Op.advance bits).exec rz pkt st = some (st, some .packetTooShort)) := by
  refine ⟨?_, ?_, ?_, ?_, ?_, ?_⟩
  · intro h len hd h1 h2
    simp [Op.exec, extractFixed, nbytes, left_eq hp, h1, h2]
  · intro h len max hd n h1 h2 h3 h4 h5 h6
    have : toSize ((hd.nbytesPacket : Int) + n / 8) = some (hd.nbytesPacket + (n / 8).toNat) := by
      unfold toSize
      rw [if_neg (by omega), if_neg (by omega)]
      congr 1
      omega
    simp [Op.exec, extractVar, nbytes, left_eq hp, h1, h2, h3, this, h6]
  · intro s stk h hd len h1 h2 h3 h4 h5
    simp only [Op.exec, h1, h3, Option.bind_eq_bind, Option.bind_some]
    rw [if_neg (by omega)]
    simp [extractNext, extractFixed, nbytes, left_eq hp, h4, h5, pushStack]
  · intro h f l h1
    simp [Op.exec, opSetLookahead, left_eq hp, h1]
  · intro n h1
    simp [Op.exec, opShift, left_eq hp, h1]
  · intro bits n h1 h2 h3
    simp [Op.exec, opAdvance, left_eq hp, h1, h2, h3]

/-- **C37**, the converse: with enough bytes left there is no such error. -/
theorem C37_enough (rz : Bool) (pkt : Pkt) (st : St) (hp : st.pos ≤ pkt.size) :
    (∀ h len hd r, st.phv.headers[h]? = some hd → hd.vlOffset = none →
      hd.nbytesPacket ≤ pkt.size - st.pos → (Op.extract h len).exec rz pkt st = some r →
      r.2 = none ∧ r.1.pos = st.pos + hd.nbytesPacket) ∧
    (∀ h len max hd (n : Int) r, st.phv.headers[h]? = some hd → len st.phv = some n → n % 8 = 0 → 0 ≤ n →
      hd.nbytesPacket + (n / 8).toNat ≤ pkt.size - st.pos →
      (max = 0 ∨ hd.nbytesPacket + (n / 8).toNat ≤ max) →
      (Op.extractVL h len max).exec rz pkt st = some r → r.2 = none) ∧
    (∀ h f l r, l.nbytes ≤ pkt.size - st.pos → (Op.setLookahead h f l).exec rz pkt st = some r →
      r.2 = none ∧ r.1.pos = st.pos) ∧
    (∀ n, n ≤ pkt.size - st.pos → (Op.shift n).exec rz pkt st = some ({ st with pos := st.pos + n }, none)) ∧
    (∀ bits n, bits st.phv = some n → n % 8 = 0 → n / 8 ≤ pkt.size - st.pos →
      (Op.advance bits).exec rz pkt st = some ({ st with pos := st.pos + n / 8 }, none)) := by
  refine ⟨?_, ?_, ?_, ?_, ?_⟩
  · intro h len hd r h1 h0 h2 e
    simp only [Op.exec, extractFixed, nbytes, left_eq hp, h1, Option.bind_eq_bind, Option.bind_some,
      Option.pure_def, if_neg (Nat.not_lt.2 h2)] at e
    obtain ⟨q, hq, e⟩ := Option.bind_eq_some_iff.1 e
    obtain ⟨m, hm, e⟩ := Option.bind_eq_some_iff.1 e
    cases e
    unfold extractHdr at hq
    simp only [h1, h0, Option.bind_eq_bind, Option.bind_some] at hq
    obtain ⟨_, x, hx, m', hm', hf, _⟩ := phvExtract_keeps hq
    rw [h1] at hx
    cases hx
    simp only [nbytes, Option.bind_eq_bind, Option.pure_def] at hm'
    rw [hm] at hm'
    cases hm'
    exact ⟨rfl, by simp [hf h0]⟩
  · intro h len max hd n r h1 h2 h3 h4 h5 h6 e
    simp only [Op.exec, extractVar, nbytes, left_eq hp, h1, h2, Option.bind_eq_bind, Option.bind_some,
      Option.pure_def] at e
    rw [if_neg (by omega)] at e
    obtain ⟨t, ht, e⟩ := Option.bind_eq_some_iff.1 e
    have : t = hd.nbytesPacket + (n / 8).toNat := by
      unfold toSize at ht
      split at ht
      · cases ht
      · rw [if_neg (by omega)] at ht
        cases ht
        omega
    rw [if_neg (by omega), if_neg (by omega), if_neg (by omega)] at e
    obtain ⟨q, hq, e⟩ := Option.bind_eq_some_iff.1 e
    obtain ⟨m, hm, e⟩ := Option.bind_eq_some_iff.1 e
    cases e
    rfl
  · intro h f l r h1 e
    simp only [Op.exec, opSetLookahead, left_eq hp, if_neg (Nat.not_lt.2 h1), Option.bind_eq_bind,
      Option.pure_def] at e
    obtain ⟨q, hq, e⟩ := Option.bind_eq_some_iff.1 e
    cases e
    exact ⟨rfl, rfl⟩
  · intro n h1
    simp [Op.exec, opShift, left_eq hp, Nat.not_lt.2 h1]
  · intro bits n h1 h2 h3
    simp [Op.exec, opAdvance, left_eq hp, h1, h2, Nat.not_lt.2 h3]

/-- An error ends the parsing: no further operation or state is looked at. -/
theorem C37_error_stops {rz : Bool} {states : List PState} {pkt : Pkt} {fuel s : Nat} {st st' : St}
    {er : Err} {ps : PState} {pre post : List Op} {op : Op} {st1 : St} (h1 : states[s]? = some ps)
    (h2 : ps.ops = pre ++ op :: post) (h3 : execOps rz pkt st pre = some (st1, none))
    (h4 : op.exec rz pkt st1 = some (st', some er)) :
    loop rz states pkt (fuel + 1) (some s) st = some (some (st', some er)) := by
  have : ∀ (pre : List Op) (st : St), execOps rz pkt st pre = some (st1, none) →
      execOps rz pkt st (pre ++ op :: post) = some (st', some er) := by
    intro pre
    induction pre with
    | nil =>
      intro st h
      cases h
      simp only [List.nil_append, execOps, h4]
      rfl
    | cons o pre ih =>
      intro st h
      simp only [execOps, List.cons_append, Option.bind_eq_bind] at h ⊢
      obtain ⟨⟨a, b⟩, h5, h6⟩ := Option.bind_eq_some_iff.1 h
      rw [h5]
      cases b with
      | none => exact ih a h6
      | some b => cases h6
  simp only [loop, h1, PState.next, h2, this pre st h3, Option.bind_eq_bind, Option.bind_some]
  rfl

/-! ## Concrete programs -/

/-- A header with a visible field of `w` bits. -/
def exHdr (w : Nat) (m : Bool) : Header :=
  (mk' 0 none [⟨w, false, false, false, false, true⟩, validInfo true] m).getD ⟨0, none, [], false, m, 0⟩

/-- A header with a field of 8 bits and a variable-length one. -/
def exVL : Header :=
  (mk' 1 (some 1) [⟨8, false, false, false, false, true⟩, ⟨0, false, false, true, false, true⟩,
    validInfo true] false).getD ⟨0, none, [], false, false, 0⟩

/-- Two packet headers, a metadata header, a header with a variable-length field. -/
def exPhv : Phv := ⟨[exHdr 16 false, exHdr 8 false, exHdr 8 true, exVL], [none, none, none, none], [], [], []⟩

/-- Extract the first header, look ahead, select on a field of the first; then extract the second and the
one with a variable-length field of 8 bits. -/
def exStates : List PState :=
  [⟨[.extract 0 (fun _ => none), .setLookahead 2 0 (.make 0 8)],
      some ([.field 0 0], [.const [1, 2] (some 1)]), none⟩,
   ⟨[.extract 1 (fun _ => none), .extractVL 3 (fun _ => some 8) 0], none, none⟩]

theorem exStates_safe : ∀ s ∈ exStates, s.Safe (cfg exPhv) := by
  intro s hs
  simp only [exStates, List.mem_cons, List.not_mem_nil, or_false] at hs
  have hc : (cfg exPhv).vl = [none, none, none, some 1] := by decide +kernel
  rcases hs with rfl | rfl
  · refine ⟨?_, ?_⟩
    · intro op hop
      simp only [List.mem_cons, List.not_mem_nil, or_false] at hop
      rcases hop with rfl | rfl
      · simp [Op.Safe, hc]
      · simp [Op.Safe, LookAhead.make]
    · intro es cs h e he
      cases h
      simp only [List.mem_cons, List.not_mem_nil, or_false] at he
      subst he
      trivial
  · refine ⟨?_, fun es cs h => by cases h⟩
    intro op hop
    simp only [List.mem_cons, List.not_mem_nil, or_false] at hop
    rcases hop with rfl | rfl <;> simp [Op.Safe, hc]

theorem exPhv_sized : AllSized exPhv := by
  unfold AllSized Sized
  decide +kernel

/-- The hypotheses of `C37_partial` hold for a program that extracts, looks ahead and selects; the packet
is accepted with five bytes, and is too short with four. -/
example : (∀ s ∈ exStates, s.Safe (cfg exPhv)) ∧ AllSized exPhv ∧
    ((loop true exStates ⟨[1, 2, 3, 4, 5, 6, 7], 6⟩ 10 (some 0) ⟨exPhv, 0, []⟩).bind fun r =>
      r.map fun r => (r.1.pos, r.1.trace, r.2)) = some (5, [0, 1, 3], none) ∧
    ((loop true exStates ⟨[1, 2, 3, 4, 5, 6, 7], 4⟩ 10 (some 0) ⟨exPhv, 0, []⟩).bind fun r =>
      r.map fun r => (r.1.pos, r.1.trace, r.2)) = some (3, [0, 1], some .packetTooShort) :=
  ⟨exStates_safe, exPhv_sized, by decide +kernel, by decide +kernel⟩

/-- **C37 fails** for a select on a look-ahead: no check at all; one byte is read from an empty packet.
The next state depends on memory behind the packet. -/
theorem C37_refuted_key : ∃ (s : PState) (phv : Phv) (a b : Bytes), AllSized phv ∧
    s.next true ⟨[], 0⟩ ⟨phv, 0, []⟩ = none ∧
    (s.next true ⟨a, 0⟩ ⟨phv, 0, []⟩).map (·.2) = some (some 1) ∧
    (s.next true ⟨b, 0⟩ ⟨phv, 0, []⟩).map (·.2) = some none :=
  ⟨⟨[], some ([.lookahead (.make 0 8)], [.const [5] (some 1)]), none⟩, exPhv, [5], [6], exPhv_sized,
    by decide +kernel, by decide +kernel, by decide +kernel⟩

/-- **C37 fails** for `set` from a look-ahead with an offset: only the width is checked; with a packet of
one byte and the offset of one byte, the second byte is read and put into a field. -/
theorem C37_refuted_set : ∃ (op : Op) (phv : Phv) (a b : Bytes), AllSized phv ∧
    op.exec true ⟨a.take 1, 1⟩ ⟨phv, 0, []⟩ = none ∧ a.take 1 = b.take 1 ∧
    (op.exec true ⟨a, 1⟩ ⟨phv, 0, []⟩).bind (fun r => fieldBytes r.1.phv 2 0) = some [8] ∧
    (op.exec true ⟨b, 1⟩ ⟨phv, 0, []⟩).bind (fun r => fieldBytes r.1.phv 2 0) = some [9] :=
  ⟨.setLookahead 2 0 (.make 8 8), exPhv, [7, 8], [7, 9], exPhv_sized,
    by decide +kernel, rfl, by decide +kernel, by decide +kernel⟩

/-- **C37 fails** for `extract` of a header with a length expression: the variable-length field counts as
empty in the check; from a packet of one byte, two are extracted.  After that the number of bytes left
wraps around, so that no later extraction is refused. -/
theorem C37_refuted_extract : ∃ (op : Op) (phv : Phv) (a : Bytes), AllSized phv ∧
    op.exec true ⟨a.take 1, 1⟩ ⟨phv, 0, []⟩ = none ∧
    (op.exec true ⟨a, 1⟩ ⟨phv, 0, []⟩).map (fun r => (r.1.pos, r.2)) = some (2, none) ∧
    left 1 2 = 2 ^ 64 - 1 :=
  ⟨.extract 3 (fun _ => some 8), exPhv, [7, 8], exPhv_sized,
    by decide +kernel, by decide +kernel, by decide +kernel⟩

/-- The documented error is not always the right one: a header that is extracted a second time with
`extract_VL` is counted with its former length too, and the packet is said to be too short although it
has all the bytes needed. -/
theorem C37_refuted_again : ∃ (op : Op) (phv : Phv) (data : Bytes), AllSized phv ∧
    (execOps true ⟨data, 4⟩ ⟨phv, 0, []⟩ [op]).map (fun r => (r.1.pos, r.2)) = some (2, none) ∧
    (execOps true ⟨data, 4⟩ ⟨phv, 0, []⟩ [op, op]).map (fun r => (r.1.pos, r.2)) =
      some (2, some .packetTooShort) :=
  ⟨.extractVL 3 (fun _ => some 8) 0, exPhv, [1, 2, 3, 4], exPhv_sized,
    by decide +kernel, by decide +kernel⟩

/-- A negative length is not refused: the exception of `Field::extract_VL` is caught by nothing. -/
theorem C37_negative : ∃ (op : Op) (phv : Phv) (data : Bytes), AllSized phv ∧
    op.exec true ⟨data, 4⟩ ⟨phv, 0, []⟩ = none :=
  ⟨.extractVL 3 (fun _ => some (-8)) 0, exPhv, [1, 2, 3, 4], exPhv_sized, by decide +kernel⟩

end Bm.Parse
