import Verif.Lemmas.ParserStep
import Verif.Props.Deparser
import Mathlib.Tactic.IntervalCases

/-!
# C52: the next parse state; C53: what extraction does, and the documented errors
-/

namespace Bm.Parse

open Bm.Extract Bm.Header Bm.Spec

/-- **C52**: when the operations of a state end without error in `st'`, and the parts of the key are
`parts`, taken from the fields as they are now and from the packet after the bytes parsed now, then the
next state is that of the first case hit by the key, and the default if all cases are missed. -/
theorem C52 {rz : Bool} {pkt : Pkt} {st st' : St} {s : PState} {es : List KeyEntry} {cs : List Case}
    {parts : List Bytes} (h1 : execOps rz pkt st s.ops = some (st', none)) (h2 : s.sel = some (es, cs))
    (h3 : List.Forall₂ (KeyPart pkt st') es parts) :
    (∀ (i : Nat) (c : Case), cs[i]? = some c → c.Hit parts.flatten true →
      (∀ (j : Nat) (c' : Case), j < i → cs[j]? = some c' → c'.Hit parts.flatten false) →
      s.next rz pkt st = some ((st', none), c.next)) ∧
    ((∀ c ∈ cs, c.Hit parts.flatten false) → s.next rz pkt st = some ((st', none), s.default)) := by
  have hk : buildKey st'.phv (pkt.mem.drop st'.pos) es = some parts.flatten := by
    simp [buildKey, mapM_parts (h3.imp fun _ _ h => keyPart_bytes h)]
  constructor
  · intro i c hc h4 h5
    simp only [PState.next, h1, h2, hk, choose_first hc h4 h5, Option.bind_eq_bind, Option.bind_some]
    rfl
  · intro h4
    simp only [PState.next, h1, h2, hk, choose_default h4, Option.bind_eq_bind, Option.bind_some]
    rfl

/-- A state without a select goes to its default. -/
theorem C52_no_select {rz : Bool} {pkt : Pkt} {st st' : St} {s : PState}
    (h1 : execOps rz pkt st s.ops = some (st', none)) (h2 : s.sel = none) :
    s.next rz pkt st = some ((st', none), s.default) := by
  simp only [PState.next, h1, h2, Option.bind_eq_bind, Option.bind_some]
  rfl

/-- The program: run the states until there is no next one. -/
theorem C52_loop {rz : Bool} {states : List PState} {pkt : Pkt} {fuel k : Nat} {st st' : St} {s : PState}
    {n : Option Nat} (h1 : states[k]? = some s) (h2 : s.next rz pkt st = some ((st', none), n)) :
    loop rz states pkt (fuel + 1) (some k) st = loop rz states pkt fuel n st' ∧
    loop rz states pkt fuel none st' = some (some (st', none)) := by
  constructor
  · simp only [loop, h1, h2, Option.bind_eq_bind, Option.bind_some]
  · cases fuel <;> rfl

/-- **C53**, `extract` of a header without variable-length field: if there is no error, every field has
the bits of the packet at its place. -/
theorem C53_extract {rz : Bool} {pkt : Pkt} {st st' : St} (rd : Ready pkt st) {h : Nat}
    {len : Phv → Option Int} {x : Header} (hx : st.phv.headers[h]? = some x) (hm : x.metadata = false)
    (hr : Regular x) (hv : x.vlOffset = none) (e : (Op.extract h len).exec rz pkt st = some (st', none)) :
    ∃ y, Got pkt st st' h ((visible x.fields).map (·.nbits)) y := by
  obtain ⟨y, hy, _⟩ := extractFixed_got rd hx hm hr hv e
  refine ⟨y, ?_⟩
  have : x.widths 0 = (visible x.fields).map (·.nbits) := by simp [Header.widths, hv]
  rwa [← this]

/-- **C53**, `extract_VL`: the variable-length field has the number of bits given by the expression. -/
theorem C53_extractVL {rz : Bool} {pkt : Pkt} {st st' : St} (rd : Ready pkt st) {h k max : Nat}
    {len : Phv → Option Int} {x : Header} (hx : st.phv.headers[h]? = some x) (hm : x.metadata = false)
    (hr : Regular x) (hv : x.vlOffset = some k)
    (e : (Op.extractVL h len max).exec rz pkt st = some (st', none)) :
    ∃ (n : Int) (y : Header), len st.phv = some n ∧ 0 ≤ n ∧
      Got pkt st st' h (((visible x.fields).map (·.nbits)).set k n.toNat) y := by
  obtain ⟨n, y, h1, h2, hy, _⟩ := extractVar_got rd hx hm hr e
  refine ⟨n, y, h1, h2, ?_⟩
  have : x.widths n = ((visible x.fields).map (·.nbits)).set k n.toNat := by simp [Header.widths, hv]
  rwa [← this]

/-- **C53**, extraction to a stack: the next free element is extracted, and the stack grows by one.  The
operation has a maximum for elements with a variable-length field, which then has the number of bits given
by the expression. -/
theorem C53_stack {rz : Bool} {pkt : Pkt} {st st' : St} (rd : Ready pkt st) {s h max : Nat} {stk : Stack}
    {len : Phv → Option Int} {x : Header} (hs : st.phv.hstacks[s]? = some stk)
    (hlt : stk.next < stk.elements.length) (hh : stk.elements[stk.next]? = some h)
    (hx : st.phv.headers[h]? = some x) (hm : x.metadata = false) (hr : Regular x)
    (hv : max = 0 → x.vlOffset = none)
    (e : (Op.extractStack s len max).exec rz pkt st = some (st', none)) :
    (∃ (n : Int) (y : Header), (max ≠ 0 → len st.phv = some n ∧ 0 ≤ n) ∧ Got pkt st st' h (x.widths n) y) ∧
    st'.phv.hstacks[s]? = some { stk with next := stk.next + 1 } ∧
    ∀ t, t ≠ s → st'.phv.hstacks[t]? = st.phv.hstacks[t]? := by
  simp only [Op.exec, hs, hh, Option.bind_eq_bind, Option.bind_some, if_neg (Nat.ne_of_lt hlt)] at e
  obtain ⟨⟨st1, er⟩, h1, e⟩ := Option.bind_eq_some_iff.1 e
  cases er with
  | some er => simp [pushStack] at e
  | none =>
    obtain ⟨n, y, hn, hy, hi, hw, hst, _⟩ := extractNext_got rd hx hm hr hv h1
    obtain ⟨z, hz, _, hst2⟩ := pushStack_got (by rw [hst]; exact hs) hlt hh hi hw hy e
    have hl := (List.getElem?_eq_some_iff.1 hs).1
    refine ⟨⟨n, z, hn, hz⟩, ?_, fun t ht => ?_⟩
    · rw [hst2, hst]
      simp [hl]
    · rw [hst2, hst, List.getElem?_set_ne (Ne.symm ht)]

/-- **C53**, extraction to a stack of unions: member `i` of the next free union is extracted, and the stack
grows by one. -/
theorem C53_unionStack {rz : Bool} {pkt : Pkt} {st st' : St} (rd : Ready pkt st) {s u i h max : Nat}
    {stk : Stack} {un : HUnion} {len : Phv → Option Int} {x : Header}
    (hs : st.phv.unionStacks[s]? = some stk) (hlt : stk.next < stk.elements.length)
    (hu : stk.elements[stk.next]? = some u) (hun : st.phv.unions[u]? = some un)
    (hh : un.members[i]? = some h) (hx : st.phv.headers[h]? = some x) (hm : x.metadata = false)
    (hr : Regular x) (hv : max = 0 → x.vlOffset = none)
    (e : (Op.extractUnionStack s i len max).exec rz pkt st = some (st', none)) :
    (∃ (n : Int) (y : Header), (max ≠ 0 → len st.phv = some n ∧ 0 ≤ n) ∧ Got pkt st st' h (x.widths n) y) ∧
    st'.phv.unionStacks[s]? = some { stk with next := stk.next + 1 } ∧
    ∀ t, t ≠ s → st'.phv.unionStacks[t]? = st.phv.unionStacks[t]? := by
  simp only [Op.exec, hs, hu, hun, hh, Option.bind_eq_bind, Option.bind_some,
    if_neg (Nat.ne_of_lt hlt)] at e
  obtain ⟨⟨st1, er⟩, h1, e⟩ := Option.bind_eq_some_iff.1 e
  cases er with
  | some er => simp [pushUnionStack] at e
  | none =>
    obtain ⟨n, y, hn, hy, hi, hw, _, hst⟩ := extractNext_got rd hx hm hr hv h1
    simp only [pushUnionStack, hst, hs, Stack.pushBack, if_neg (Nat.ne_of_lt hlt), hu, Option.bind_eq_bind,
      Option.bind_some, Phv.unionOps] at e
    cases e
    have hl := (List.getElem?_eq_some_iff.1 hs).1
    refine ⟨⟨n, y, hn, hy.found, hy.valid, hy.nometa, hy.pos, hy.widths, hy.bits, hy.value⟩, ?_,
      fun t ht => ?_⟩
    · simp [hst, hl]
    · simp only [hst]
      rw [List.getElem?_set_ne (Ne.symm ht)]

/-- **C53**, the documented errors; nothing is changed when one is raised.  (Packets that are too short:
`C37_short`.)  A full stack: `StackOutOfBounds`.  A length or an advance that is not a multiple of 8 bits:
`ParserInvalidArgument`.  A header longer than the maximum: `HeaderTooShort`.  A condition that does not
hold: the error given by the program. -/
theorem C53_errors (rz : Bool) (pkt : Pkt) (st : St) :
    (∀ s stk len max, st.phv.hstacks[s]? = some stk → stk.next = stk.elements.length →
      (Op.extractStack s len max).exec rz pkt st = some (st, some .stackOutOfBounds)) ∧
    (∀ s i stk len max, st.phv.unionStacks[s]? = some stk → stk.next = stk.elements.length →
      (Op.extractUnionStack s i len max).exec rz pkt st = some (st, some .stackOutOfBounds)) ∧
    (∀ h len max (n : Int), len st.phv = some n → n % 8 ≠ 0 →
      (Op.extractVL h len max).exec rz pkt st = some (st, some .invalidArgument)) ∧
    (∀ bits n, bits st.phv = some n → n % 8 ≠ 0 →
      (Op.advance bits).exec rz pkt st = some (st, some .invalidArgument)) ∧
    (∀ h len max hd (n : Int), st.phv.headers[h]? = some hd → len st.phv = some n → n % 8 = 0 → 0 ≤ n →
      (hd.nbytesPacket : Int) + n / 8 < 2 ^ 31 → st.pos ≤ pkt.size →
      hd.nbytesPacket + (n / 8).toNat ≤ pkt.size - st.pos → 0 < max → max < hd.nbytesPacket + (n / 8).toNat →
      (Op.extractVL h len max).exec rz pkt st = some (st, some .headerTooShort)) ∧
    (∀ cond err b code, cond st.phv = some b → err st.phv = some code →
      (Op.verify cond err).exec rz pkt st = some (st, if b then none else some (.arch code))) := by
  refine ⟨?_, ?_, ?_, ?_, ?_, ?_⟩
  · intro s stk len max h1 h2
    simp [Op.exec, h1, h2]
  · intro s i stk len max h1 h2
    simp [Op.exec, h1, h2]
  · intro h len max n h1 h2
    simp [Op.exec, extractVar, h1, h2]
  · intro bits n h1 h2
    simp [Op.exec, opAdvance, h1, h2]
  · intro h len max hd n h1 h2 h3 h4 h5 h6 h7 h8 h9
    have : toSize ((hd.nbytesPacket : Int) + n / 8) = some (hd.nbytesPacket + (n / 8).toNat) := by
      unfold toSize
      rw [if_neg (by omega), if_neg (by omega)]
      congr 1
      omega
    simp only [Op.exec, extractVar, nbytes, left_eq h6, h1, h2, this, Option.bind_eq_bind,
      Option.bind_some, Option.pure_def]
    rw [if_neg (by omega), if_neg (by omega), if_pos ⟨by omega, h9⟩]
  · intro cond err b code h1 h2
    cases b <;> simp [Op.exec, opVerify, h1, h2]

/-- **C53**, `set` from a look-ahead: the field gets the packet bits; the position stays. -/
theorem C53_lookahead {rz : Bool} {pkt : Pkt} {st st' : St} (hp : st.pos ≤ pkt.size) {h f off w : Nat}
    {x : Header} {fd : Field} (hx : st.phv.headers[h]? = some x) (hf : x.fields[f]? = some fd)
    (hw : fd.nbits = w) (h0 : 0 < w) (hl : 8 * st.pos + off + w ≤ 8 * pkt.mem.length)
    (e : (Op.setLookahead h f (.make off w)).exec rz pkt st = some (st', none)) :
    st'.pos = st.pos ∧ ∃ y fd', st'.phv.headers[h]? = some y ∧ y.fields[f]? = some fd' ∧
      bitsOf fd' = bitsAt pkt st.pos off w ∧ fd'.nbits = w := by
  simp only [Op.exec, opSetLookahead, left_eq hp, Option.bind_eq_bind, Option.pure_def] at e
  split at e
  · cases e
  · obtain ⟨q, hq, e⟩ := Option.bind_eq_some_iff.1 e
    cases e
    refine ⟨rfl, ?_⟩
    unfold updField Phv.updHeader at hq
    simp only [hx, hf, Option.bind_eq_bind, Option.bind_some, Option.pure_def, LookAhead.make, hw, if_true] at hq
    obtain ⟨y, hy, hq⟩ := Option.bind_eq_some_iff.1 hq
    cases hq
    obtain ⟨fd', hfd, hy⟩ := Option.bind_eq_some_iff.1 hy
    cases hy
    have hlt := (List.getElem?_eq_some_iff.1 hx).1
    have hlf := (List.getElem?_eq_some_iff.1 hf).1
    refine ⟨{ x with fields := x.fields.set f fd' }, fd', by simp [hlt], by simp [hlf], ?_⟩
    obtain ⟨dst, h1, h2, h3⟩ := genericExtract_spec ((pkt.mem.drop st.pos).drop (off / 8)) (off % 8) w
      (Nat.mod_lt _ (by omega)) (.inr (by omega)) (by simp only [List.length_drop]; omega)
    have hb : fd'.bytes = dst ∧ fd'.nbits = w := by
      unfold Field.extract at hfd
      rw [hw, h1] at hfd
      simp only [Option.bind_eq_bind, Option.bind_some] at hfd
      cases hfd
      split <;> exact ⟨rfl, rfl⟩
    refine ⟨?_, hb.2⟩
    unfold bitsOf
    rw [hb.1, hb.2, h3, h2, List.drop_left' (by simp), bitsAt, bytesBits_drop, bytesBits_drop, List.drop_drop,
      List.drop_drop]
    congr 2
    omega

/-- **C53**, `set` from a look-ahead of another width than that of the field: the field is set to the number
that the packet bits stand for (see C31 for `set`). -/
theorem C53_lookahead_other {rz : Bool} {pkt : Pkt} {st st' : St} (hp : st.pos ≤ pkt.size) {h f off w : Nat}
    {x : Header} {fd : Field} (hx : st.phv.headers[h]? = some x) (hf : x.fields[f]? = some fd)
    (hw : w ≠ fd.nbits) (h0 : 0 < w) (hl : 8 * st.pos + off + w ≤ 8 * pkt.mem.length)
    (e : (Op.setLookahead h f (.make off w)).exec rz pkt st = some (st', none)) :
    st'.pos = st.pos ∧ ∃ y fd', st'.phv.headers[h]? = some y ∧ y.fields[f]? = some fd' ∧
      fd.set (rz && !x.isValid && !fd.hidden) (bitsNat (bitsAt pkt st.pos off w) : Nat) = some fd' := by
  simp only [Op.exec, opSetLookahead, left_eq hp, Option.bind_eq_bind, Option.pure_def] at e
  split at e
  · cases e
  · obtain ⟨q, hq, e⟩ := Option.bind_eq_some_iff.1 e
    cases e
    refine ⟨rfl, ?_⟩
    obtain ⟨dst, h1, h2, h3⟩ := genericExtract_spec ((pkt.mem.drop st.pos).drop (off / 8)) (off % 8) w
      (Nat.mod_lt _ (by omega)) (.inr (by omega)) (by simp only [List.length_drop]; omega)
    unfold updField Phv.updHeader at hq
    simp only [hx, hf, Option.bind_eq_bind, Option.bind_some, Option.pure_def, LookAhead.peek, LookAhead.make,
      if_neg hw, h1] at hq
    obtain ⟨y, hy, hq⟩ := Option.bind_eq_some_iff.1 hq
    cases hq
    obtain ⟨fd', hfd, hy⟩ := Option.bind_eq_some_iff.1 hy
    cases hy
    have hlt := (List.getElem?_eq_some_iff.1 hx).1
    have hlf := (List.getElem?_eq_some_iff.1 hf).1
    refine ⟨{ x with fields := x.fields.set f fd' }, fd', by simp [hlt], by simp [hlf], ?_⟩
    rw [← hfd, Data.importBytes_eq, h3, Field.bitsNat_pad, bitsAt, bytesBits_drop, bytesBits_drop,
      List.drop_drop, List.drop_drop]
    have : off % 8 + 8 * (off / 8) = off := by omega
    congr 6
    omega

/-! ## Examples -/

/-- The example of `C37_partial` meets the hypotheses of the theorems on extraction. -/
theorem exPhv_ready : Ready ⟨[1, 2, 3, 4, 5, 6, 7], 6⟩ ⟨exPhv, 0, []⟩ := by
  refine ⟨⟨⟨?_, ?_, ?_, ?_⟩, ?_, ?_, ?_⟩, ?_, by simp, by simp⟩
  · intro u x i h hu; simp [exPhv] at hu
  · intro h u i hh
    have : h < 4 := by
      have := (List.getElem?_eq_some_iff.1 hh).1
      simpa [exPhv] using this
    interval_cases h <;> simp [exPhv] at hh
  · intro st hst; simp [exPhv] at hst
  · intro st hst; simp [exPhv] at hst
  · intro u x i h b hu; simp [exPhv] at hu
  · intro u x hu; simp [exPhv] at hu
  · intro u x i h hu; simp [exPhv] at hu
  · exact fun h x hx _ => (exPhv_regular x (List.mem_of_getElem? hx)).wf

example : (∃ x, exPhv.headers[0]? = some x ∧ x.metadata = false ∧ Regular x ∧ x.vlOffset = none) ∧
    ((Op.extract 0 fun _ => none).exec true ⟨[1, 2, 3, 4, 5, 6, 7], 6⟩ ⟨exPhv, 0, []⟩).map (·.2) = some none :=
  ⟨⟨exHdr 16 false, by decide +kernel, by decide +kernel,
    exPhv_regular _ (List.mem_of_getElem? (i := 0) (by decide +kernel)), by decide +kernel⟩, by decide +kernel⟩

/-- A select on a field that was extracted and on the next byte of the packet. -/
def exSel : PState :=
  ⟨[.extract 0 (fun _ => none)],
    some ([.field 0 0, .lookahead (.make 4 8)], [.const [1, 2, 3] (some 1), .masked [1, 2, 0x30] [255, 255, 0xf0] (some 2)]),
    none⟩

/-- The key is made of the field and of the bits after the two bytes extracted; the first case is missed,
the second is hit. -/
example : (exSel.next true ⟨[1, 2, 3, 4, 5, 6, 7], 6⟩ ⟨exPhv, 0, []⟩).map (fun r => (r.1.2, r.2)) =
      some (none, some 2) ∧
    KeyPart ⟨[1, 2, 3, 4], 4⟩ ⟨exPhv, 2, []⟩ (.lookahead (.make 4 8)) [0x30] ∧
    (Case.const [1, 2, 3] (some 1)).Hit [1, 2, 0x30] false ∧
    (Case.masked [1, 2, 0x30] [255, 255, 0xf0] (some 2)).Hit [1, 2, 0x30] true :=
  ⟨by decide +kernel, .lookahead 4 8 [0x30] (by decide) (by decide) rfl (by decide), .ne _ _ (by decide),
    .eqMask _ _ _ rfl rfl (fun _ _ => rfl)⟩

/-- A stack of two headers of one byte. -/
def exStk : Phv := ⟨[exHdr 8 false, exHdr 8 false], [none, none], [], [⟨[0, 1], 0⟩], []⟩

/-- Three extractions to the stack. -/
def exRun : Option Res :=
  execOps true ⟨[5, 6, 7], 3⟩ ⟨exStk, 0, []⟩ (List.replicate 3 (.extractStack 0 (fun _ => none) 0))

/-- Two elements, then the error. -/
example : exRun.isSome = true ∧ ∀ r, exRun = some r → r.1.phv.hstacks.map (·.next) = [2] ∧ r.1.pos = 2 ∧
    fieldBytes r.1.phv 0 0 = some [5] ∧ fieldBytes r.1.phv 1 0 = some [6] ∧
    r.2 = some Err.stackOutOfBounds := by decide +kernel

end Bm.Parse
