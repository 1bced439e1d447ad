import Verif.Lemmas.PiEntry
import Verif.Props.KeyBuilder

/-!
# C90: table entries written and read through PI

`fs` are the match fields in the order of the table, `vs` the matches in terms of numbers, `l` the
byte string PI passes for them.  Hypotheses throughout: fields of at least one bit (and fewer than
2^31), and canonical matches (numbers within the width, ignored bits zero), which is what P4Runtime
allows.
-/

namespace Bm.PiEntry
open Bm.Spec Bm.PiEntry.Spec

/-- Sensible widths. -/
def Widths (fs : List PiF) : Prop := ∀ f ∈ fs, 1 ≤ f.bitwidth ∧ f.bitwidth < 2 ^ 31

/-- **C90**, writing: a request with a priority up to the limit reaches bmv2 with parameters that
fit the table and are met by exactly the packets that meet the matches; it reaches it with the
inverted priority if some field needs a priority and with 0 otherwise.  A larger priority is
refused. -/
theorem C90_write (fs : List PiF) (hw : Widths fs) (vs : List Val) (l : Bytes)
    (he : Encodes fs vs l) (hc : AllCanonical fs vs) (prio : Nat) :
    (prio ≤ 2147483647 → ∃ ps q, addReq fs l prio = some (.call ps q) ∧
      ParamsOk (fs.map declared) ps ∧
      (∀ vals, ValuesOk (fs.map declared) vals →
        (AllMatch (fun w => w) (fs.map declared) ps vals ↔ AllMeet fs vs vals)) ∧
      ((∃ f ∈ fs, f.type = .ternary ∨ f.type = .optional ∨ f.type = .range) →
        q = 2147483647 - (prio : Int)) ∧
      ((∀ f ∈ fs, f.type = .valid ∨ f.type = .exact ∨ f.type = .lpm) → q = 0)) ∧
    (2147483647 < prio → addReq fs l prio = some .unsupportedPriority) := by
  obtain ⟨ps, h⟩ := standsAll he (fun f hf => (hw f hf).2) hc
  have hmax : bmMaxPriority = 2147483647 := rfl
  constructor
  · intro hp
    refine ⟨ps, toBm fs prio 0, ?_, h.ok, h.meets, ?_, ?_⟩
    · unfold addReq buildKey
      rw [if_neg (by omega), h.build prio (by omega)]; rfl
    · rintro ⟨f, hf, ht⟩
      have : fs.any PiF.usesPriority = true := by
        rw [List.any_eq_true]
        refine ⟨f, hf, ?_⟩
        rcases ht with e | e | e <;> simp [PiF.usesPriority, e]
      unfold toBm
      rw [if_pos this]
      omega
    · intro hall
      have : ¬ fs.any PiF.usesPriority = true := by
        rw [List.any_eq_true]
        rintro ⟨f, hf, hu⟩
        rcases hall f hf with e | e | e <;> simp [PiF.usesPriority, e] at hu
      unfold toBm
      rw [if_neg this]
  · intro hp
    unfold addReq
    rw [if_pos (by omega)]

/-- **C90**, reading by key (partial): with a priority up to the limit the look-up by key is made
with the same parameters and priority as the addition.  Full statement: any other priority is
refused; false, see `Ex.C90_refuted_priority`. -/
theorem C90_fetch_partial (fs : List PiF) (l : Bytes) (prio : Nat) (hp : prio ≤ 2147483647) :
    fetchReq fs l prio = addReq fs l prio := by
  have hmax : bmMaxPriority = 2147483647 := rfl
  unfold fetchReq addReq
  rw [if_neg (by omega)]

/-- **C90**, exact tables: what is written is read back byte for byte. -/
theorem C90_exact (fs : List PiF) (hw : Widths fs) (vs : List Val) (l : Bytes)
    (he : Encodes fs vs l) (hc : AllCanonical fs vs)
    (hk : ∀ f ∈ fs, f.type = .valid ∨ f.type = .exact) (prio : Nat) (hp : prio ≤ 2147483647) :
    ∃ ps kb key ps', addReq fs l prio = some (.call ps 0) ∧
      KeyB.build (fs.map declared) = some kb ∧ kb.buildExact ps = some (some key) ∧
      kb.fromExact key = some ps' ∧ emitMatchKey ps' = l := by
  obtain ⟨ps, h⟩ := standsAll he (fun f hf => (hw f hf).2) hc
  have hk' : ∀ f ∈ fs.map declared, f.mtype = .exact ∨ f.mtype = .valid := by
    intro g hg
    obtain ⟨f, hf, rfl⟩ := List.mem_map.mp hg
    rcases hk f hf with e | e <;> simp [declared, e]
  obtain ⟨kb, key, ps', e1, e2, e3, hb⟩ := C10_exact _ (fieldsOk (fun f hf => (hw f hf).1)) hk' ps h.ok
  have hmax : bmMaxPriority = 2147483647 := rfl
  have hno : ¬ fs.any PiF.usesPriority = true := by
    rw [List.any_eq_true]
    rintro ⟨f, hf, hu⟩
    rcases hk f hf with e | e <;> simp [PiF.usesPriority, e] at hu
  refine ⟨ps, kb, key, ps', ?_, e1, e2, e3, ?_⟩
  · unfold addReq buildKey
    rw [if_neg (by omega), h.build prio (by omega)]
    unfold toBm
    rw [if_neg hno]; rfl
  · rw [h.back true ps' (by simp) (by simpa using hb.1) hb.2, h.emit]

/-- **C90**, LPM tables: one prefix field anywhere among exact and validity matches. -/
theorem C90_lpm (fs : List PiF) (hw : Widths fs) (vs : List Val) (l : Bytes)
    (he : Encodes fs vs l) (hc : AllCanonical fs vs) (j : Nat) (fj : PiF) (hj : fs[j]? = some fj)
    (hjt : fj.type = .lpm)
    (hk : ∀ i f, fs[i]? = some f → i ≠ j → f.type = .valid ∨ f.type = .exact)
    (prio : Nat) (hp : prio ≤ 2147483647) :
    ∃ ps kb key ps', addReq fs l prio = some (.call ps 0) ∧
      KeyB.build (fs.map declared) = some kb ∧ kb.buildLpm ps = some (some key) ∧
      kb.fromLpm key = some ps' ∧ emitMatchKey ps' = l := by
  obtain ⟨ps, h⟩ := standsAll he (fun f hf => (hw f hf).2) hc
  have hjl : j < fs.length := by
    by_contra hcon
    rw [List.getElem?_eq_none (by omega)] at hj; simp at hj
  have hl : LpmLayout (fs.map declared) j := by
    refine ⟨by simpa using hjl, ?_, ?_⟩
    · simp [fAt, hj, declared, hjt]
    · intro i hi hij
      have hi' : i < fs.length := by simpa using hi
      have := hk i fs[i] (by simp [hi']) hij
      simp only [fAt, List.getElem?_map, List.getElem?_eq_getElem hi', Option.map_some,
        Option.getD_some]
      rcases this with e | e <;> simp [declared, e]
  obtain ⟨kb, key, ps', e1, e2, e3, hb⟩ :=
    C10_lpm _ (fieldsOk (fun f hf => (hw f hf).1)) (validOk fs) j hl ps h.ok
  have hmax : bmMaxPriority = 2147483647 := rfl
  have hno : ¬ fs.any PiF.usesPriority = true := by
    rw [List.any_eq_true]
    rintro ⟨f, hf, hu⟩
    obtain ⟨i, hi⟩ := List.mem_iff_getElem?.mp hf
    by_cases hij : i = j
    · subst hij
      rw [hj] at hi
      simp only [Option.some.injEq] at hi
      subst hi
      simp [PiF.usesPriority, hjt] at hu
    · rcases hk i f hi hij with e | e <;> simp [PiF.usesPriority, e] at hu
  refine ⟨ps, kb, key, ps', ?_, e1, e2, e3, ?_⟩
  · unfold addReq buildKey
    rw [if_neg (by omega), h.build prio (by omega)]
    unfold toBm
    rw [if_neg hno]; rfl
  · rw [h.back true ps' (by simp) (by simpa using hb.1) hb.2, h.emit]

/-- The priority written comes back. -/
theorem emit_toBm {fs : List PiF} (hany : ∃ f ∈ fs, f.type = .ternary ∨ f.type = .optional ∨
    f.type = .range) {prio : Nat} (hp : prio ≤ 2147483647) (acc : Int) :
    emitPriority (toBm fs prio acc) = some prio := by
  obtain ⟨f, hf, ht⟩ := hany
  have : fs.any PiF.usesPriority = true := by
    rw [List.any_eq_true]
    refine ⟨f, hf, ?_⟩
    rcases ht with e | e | e <;> simp [PiF.usesPriority, e]
  have hmax : bmMaxPriority = 2147483647 := rfl
  unfold toBm emitPriority bmToPi
  rw [if_pos this, if_neg (by omega), if_pos (by omega), Option.some.injEq]
  omega

/-- **C90**, ternary tables (partial): key and priority are read back as written, if prefix fields
in such a table are a whole number of bytes wide.  Full statement: the same for all widths; false,
see `Ex.C90_refuted_width`. -/
theorem C90_ternary_partial (fs : List PiF) (hw : Widths fs) (vs : List Val) (l : Bytes)
    (he : Encodes fs vs l) (hc : AllCanonical fs vs)
    (h8 : ∀ f ∈ fs, f.type = .lpm → f.bitwidth % 8 = 0)
    (hk : ∀ f ∈ fs, f.type ≠ .range) (ht : ∃ f ∈ fs, f.type = .ternary ∨ f.type = .optional)
    (prio : Nat) (hp : prio ≤ 2147483647) :
    ∃ ps q kb key ps', addReq fs l prio = some (.call ps q) ∧
      KeyB.build (fs.map declared) = some kb ∧ kb.buildTern ps q = some (some key) ∧
      kb.fromTern key.data key.mask = some ps' ∧ emitMatchKey ps' = l ∧
      emitPriority key.priority = some prio := by
  obtain ⟨ps, h⟩ := standsAll he (fun f hf => (hw f hf).2) hc
  have hk' : ∀ f ∈ fs.map declared, f.mtype ≠ .range := by
    intro g hg
    obtain ⟨f, hf, rfl⟩ := List.mem_map.mp hg
    have := hk f hf
    cases e : f.type <;> simp_all [declared]
  obtain ⟨kb, key, ps', e1, e2, e3, e4, hb⟩ := C10_ternary _ (fieldsOk (fun f hf => (hw f hf).1))
    (validOk fs) hk' ps h.ok (toBm fs prio 0)
  have hmax : bmMaxPriority = 2147483647 := rfl
  refine ⟨ps, toBm fs prio 0, kb, key, ps', ?_, e1, e2, e4, ?_, ?_⟩
  · unfold addReq buildKey
    rw [if_neg (by omega), h.build prio (by omega)]; rfl
  · rw [h.back false ps' (fun _ => h8) (by simpa using hb.1) hb.2, h.emit]
  · rw [e3]
    obtain ⟨f, hf, ht⟩ := ht
    exact emit_toBm ⟨f, hf, ht.elim .inl (fun e => .inr (.inl e))⟩ hp 0

/-- **C90**, range tables (partial, as for ternary tables). -/
theorem C90_range_partial (fs : List PiF) (hw : Widths fs) (vs : List Val) (l : Bytes)
    (he : Encodes fs vs l) (hc : AllCanonical fs vs)
    (h8 : ∀ f ∈ fs, f.type = .lpm → f.bitwidth % 8 = 0) (ht : ∃ f ∈ fs, f.type = .range)
    (prio : Nat) (hp : prio ≤ 2147483647) :
    ∃ ps q kb key ps', addReq fs l prio = some (.call ps q) ∧
      KeyB.build (fs.map declared) = some kb ∧ kb.buildRange ps q = some (some key) ∧
      kb.fromTern key.data key.mask = some ps' ∧ emitMatchKey ps' = l ∧
      emitPriority key.priority = some prio := by
  obtain ⟨ps, h⟩ := standsAll he (fun f hf => (hw f hf).2) hc
  obtain ⟨kb, key, ps', e1, e2, e3, e4, hb⟩ := C10_range _ (fieldsOk (fun f hf => (hw f hf).1))
    (validOk fs) ps h.ok (toBm fs prio 0)
  have hmax : bmMaxPriority = 2147483647 := rfl
  refine ⟨ps, toBm fs prio 0, kb, key, ps', ?_, e1, e2, e4, ?_, ?_⟩
  · unfold addReq buildKey
    rw [if_neg (by omega), h.build prio (by omega)]; rfl
  · rw [h.back false ps' (fun _ => h8) (by simpa using hb.1) hb.2, h.emit]
  · rw [e3]
    obtain ⟨f, hf, ht⟩ := ht
    exact emit_toBm ⟨f, hf, .inr (.inr ht)⟩ hp 0

/-- **C90**, matching (partial, same restriction): the entry that a range table stores for a
request matches the key of a packet iff the packet meets the matches of the request. -/
theorem C90_matches_partial (fs : List PiF) (hw : Widths fs) (vs : List Val) (l : Bytes)
    (he : Encodes fs vs l) (hc : AllCanonical fs vs)
    (h8 : ∀ f ∈ fs, f.type = .lpm → f.bitwidth % 8 = 0) (prio : Nat) (hp : prio ≤ 2147483647)
    (vals : List Bytes) (hval : ValuesOk (fs.map declared) vals) (cache : Bool) :
    ∃ ps q kb key pk, addReq fs l prio = some (.call ps q) ∧
      KeyB.build (fs.map declared) = some kb ∧ kb.buildRange ps q = some (some key) ∧
      kb.packetKey vals = some pk ∧
      ((TableKind.range kb.nbytesKey cache).spec.m pk key ↔ AllMeet fs vs vals) := by
  obtain ⟨ps, h⟩ := standsAll he (fun f hf => (hw f hf).2) hc
  obtain ⟨kb, key, pk, e1, e2, e3, _, _, hm⟩ := C49_range _ (fieldsOk (fun f hf => (hw f hf).1))
    (validOk fs) ps h.ok (toBm fs prio 0) vals hval cache
  have h8' : ∀ f ∈ fs.map declared, f.mtype = .lpm → f.nbits % 8 = 0 := by
    intro g hg
    obtain ⟨f, hf, rfl⟩ := List.mem_map.mp hg
    have := h8 f hf
    cases e : f.type <;> simp_all [declared]
  have hmax : bmMaxPriority = 2147483647 := rfl
  refine ⟨ps, toBm fs prio 0, kb, key, pk, ?_, e1, e2, e3, ?_⟩
  · unfold addReq buildKey
    rw [if_neg (by omega), h.build prio (by omega)]; rfl
  · rw [hm, C11_whole_bytes_partial _ h8', h.meets vals hval]

/-- **C90**, priorities: up to the limit they are inverted without loss, so that the larger PI
priority is the smaller (preferred) bmv2 priority; tables without priorities report 0. -/
theorem C90_priority (p q : Nat) (hp : p ≤ 2147483647) (hq : q ≤ 2147483647) :
    ∃ a b, piToBm p = some a ∧ piToBm q = some b ∧ 0 ≤ a ∧ a ≤ 2147483647 ∧
      (p < q ↔ b < a) ∧ bmToPi a = some p ∧ emitPriority a = some p ∧
      emitPriority (-1) = some 0 := by
  have hmax : bmMaxPriority = 2147483647 := rfl
  refine ⟨((bmMaxPriority - p : Nat) : Int), ((bmMaxPriority - q : Nat) : Int), ?_, ?_, ?_, ?_, ?_,
    ?_, ?_, rfl⟩
  · unfold piToBm; rw [if_pos (by omega)]
  · unfold piToBm; rw [if_pos (by omega)]
  · omega
  · omega
  · omega
  · unfold bmToPi; rw [if_pos (by omega), Option.some.injEq]; omega
  · unfold emitPriority bmToPi
    rw [if_neg (by omega), if_pos (by omega), Option.some.injEq]; omega

/-- **C90**, action data: what is written for an action is read back byte for byte, whatever the
values. -/
theorem C90_action_data (bws : List Nat) (hbw : ∀ b ∈ bws, 1 ≤ b) (l : Bytes)
    (hl : l.length = (bws.map fun b => (b + 7) / 8).sum) :
    ∃ ds, buildActionData bws l = some ds ∧ ds.length = bws.length ∧
      dumpActionData bws ds = some l := by
  induction bws generalizing l with
  | nil =>
    have : l = [] := List.length_eq_zero_iff.mp (by simpa using hl)
    subst this
    exact ⟨[], rfl, rfl, rfl⟩
  | cons b bws ih =>
    simp only [List.map_cons, List.sum_cons] at hl
    obtain ⟨ds, e1, e2, e3⟩ := ih (fun x hx => hbw x (List.mem_cons_of_mem _ hx))
      (l.drop ((b + 7) / 8)) (by rw [List.length_drop, hl]; omega)
    have ht : take ((b + 7) / 8) l = some (l.take ((b + 7) / 8), l.drop ((b + 7) / 8)) := by
      unfold take; rw [if_pos (by omega)]
    have hd := dumpOne_import (bw := b) (a := l.take ((b + 7) / 8)) (hbw b (List.mem_cons_self ..))
      (by rw [List.length_take]; omega)
    refine ⟨Data.importBytes (l.take ((b + 7) / 8)) :: ds, ?_, by simp [e2], ?_⟩
    · simp only [buildActionData, ht, Option.bind_eq_bind, Option.bind_some, e1]
    · simp only [dumpActionData, hd, Option.bind_eq_bind, Option.bind_some, e3,
        List.take_append_drop]

/-- The number an action parameter gets is the big-endian value of its bytes. -/
theorem C90_action_value (bw : Nat) (bws : List Nat) (a l : Bytes) (x : Nat)
    (ha : IsNum bw x a) (ds : List Int) (h : buildActionData bws l = some ds) :
    buildActionData (bw :: bws) (a ++ l) = some ((x : Int) :: ds) := by
  simp only [buildActionData, take_append ha.1, Option.bind_eq_bind, Option.bind_some, h,
    import_nat, ha.2]

/-- **C90**, handles: a 32-bit group handle, marked, is recognised as a group and given back; a
member handle is not.  The entry reports the handle it was made with (bmv2 handles are below the
largest 32-bit number, which stands for "none"). -/
theorem C90_handles (h : UInt32) (hh : h ≠ 0xffffffff) :
    targetOf (makeGrpH h.toUInt64) = .group h ∧ targetOf h.toUInt64 = .member h ∧
      emitWs (wsEntry (.group h)) = makeGrpH h.toUInt64 ∧
      emitWs (wsEntry (.member h)) = h.toUInt64 ∧
      targetOf (emitWs (wsEntry (.group h))) = .group h ∧
      targetOf (emitWs (wsEntry (.member h))) = .member h := by
  have hn : h.toNat ≠ 4294967295 := by
    intro e; apply hh; apply UInt32.toNat_inj.mp; rw [e]; rfl
  have hlt : h.toNat < 4294967296 := h.toNat_lt
  have h64 : h.toUInt64.toNat = h.toNat := rfl
  have hc : clearGrpH (makeGrpH h.toUInt64) = h.toUInt64 := by
    apply UInt64.toNat_inj.mp
    unfold clearGrpH makeGrpH
    apply Nat.eq_of_testBit_eq
    intro i
    have hm : (~~~ (0x8000000000000000 : UInt64)).toNat = 2 ^ 63 - 1 := by decide
    rw [UInt64.toNat_and, UInt64.toNat_or, hm, Nat.testBit_and, Nat.testBit_or,
      Nat.testBit_two_pow_sub_one, show ((0x8000000000000000 : UInt64)).toNat = 2 ^ 63 from by decide,
      Nat.testBit_two_pow]
    by_cases hi : i < 63
    · have : ¬ (63 = i) := by omega
      simp [hi, this]
    · have : h.toUInt64.toNat.testBit i = false :=
        Nat.testBit_lt_two_pow (lt_of_lt_of_le (by rw [h64]; exact hlt)
          (show 2 ^ 32 ≤ 2 ^ i from Nat.pow_le_pow_right (by decide) (by omega)))
      rw [this]; simp [hi]
  have hg : isGrpH (makeGrpH h.toUInt64) = true := by
    unfold isGrpH makeGrpH
    rw [bne_iff_ne]
    intro e
    have e' := congrArg (fun x => x.toNat.testBit 63) e
    simp only [UInt64.toNat_and, UInt64.toNat_or, Nat.testBit_and, Nat.testBit_or,
      show ((0x8000000000000000 : UInt64)).toNat = 2 ^ 63 from by decide,
      Nat.testBit_two_pow] at e'
    simp at e'
  have hm : isGrpH h.toUInt64 = false := by
    unfold isGrpH
    rw [bne_eq_false_iff_eq]
    apply UInt64.toNat_inj.mp
    rw [UInt64.toNat_and, show ((0x8000000000000000 : UInt64)).toNat = 2 ^ 63 from by decide, h64]
    apply Nat.eq_of_testBit_eq
    intro i
    rw [Nat.testBit_and, Nat.testBit_two_pow]
    by_cases hi : 63 = i
    · have : h.toNat.testBit i = false :=
        Nat.testBit_lt_two_pow (lt_of_lt_of_le hlt
          (show 2 ^ 32 ≤ 2 ^ i from Nat.pow_le_pow_right (by decide) (by omega)))
      rw [this]; simp
    · simp [hi]
  have hr : h.toUInt64.toUInt32 = h := by
    apply UInt32.toNat_inj.mp
    simp
  have t1 : targetOf (makeGrpH h.toUInt64) = .group h := by
    unfold targetOf
    rw [hg, hc, hr]; rfl
  have t2 : targetOf h.toUInt64 = .member h := by
    unfold targetOf
    rw [hm, hr]; rfl
  have w1 : emitWs (wsEntry (.group h)) = makeGrpH h.toUInt64 := by
    unfold emitWs wsEntry
    have : ¬ ((0xffffffff : UInt32) < h) := by
      rw [UInt32.lt_iff_toNat_lt]
      show ¬ (4294967295 < h.toNat)
      omega
    simp only [if_neg this]
  have w2 : emitWs (wsEntry (.member h)) = h.toUInt64 := by
    unfold emitWs wsEntry
    have : h < (0xffffffff : UInt32) := by
      rw [UInt32.lt_iff_toNat_lt]
      show h.toNat < 4294967295
      omega
    simp only [if_pos this]
  exact ⟨t1, t2, w1, w2, by rw [w1, t1], by rw [w2, t2]⟩

namespace Ex

/-- A table on an optional 12-bit field, a prefix, a range, a validity bit and an exact field. -/
def fs : List PiF := [⟨.optional, 12⟩, ⟨.lpm, 16⟩, ⟨.range, 9⟩, ⟨.valid, 1⟩, ⟨.exact, 3⟩]

def vs : List Val := [.ternary 0x120 0xff0, .lpm 0xabc0 12, .range 5 300, .valid true, .exact 6]

def l : Bytes := [0x01, 0x20, 0x0f, 0xf0, 0xab, 0xc0, 12, 0, 0, 0, 0, 5, 1, 44, 1, 6]

theorem l_encodes : Encodes fs vs l :=
  .cons (a := [0x01, 0x20, 0x0f, 0xf0])
    ⟨[0x01, 0x20], [0x0f, 0xf0], rfl, ⟨rfl, by decide⟩, ⟨rfl, by decide⟩⟩ <|
  .cons (a := [0xab, 0xc0, 12, 0, 0, 0])
    ⟨[0xab, 0xc0], [12, 0, 0, 0], rfl, ⟨rfl, by decide⟩, rfl, by decide⟩ <|
  .cons (a := [0, 5, 1, 44]) ⟨[0, 5], [1, 44], rfl, ⟨rfl, by decide⟩, ⟨rfl, by decide⟩⟩ <|
  .cons (a := [1]) (by show _ = _; rfl) <|
  .cons (a := [6]) (l := []) ⟨rfl, by decide⟩ .nil

theorem vs_canonical : AllCanonical fs vs := by
  intro i f v h1 h2
  match i with
  | 0 => cases h1; cases h2; show _ ∧ _ ∧ _; decide
  | 1 => cases h1; cases h2; refine ⟨by decide, by decide, ⟨0xabc, by decide⟩⟩
  | 2 => cases h1; cases h2; show _ ∧ _; decide
  | 3 => cases h1; cases h2; trivial
  | 4 => cases h1; cases h2; show _ < _; decide
  | i + 5 => simp [fs] at h1

/-- The hypotheses of `C90_range_partial` are met by a table with every kind of match. -/
theorem C90_case : Widths fs ∧ Encodes fs vs l ∧ AllCanonical fs vs ∧
    (∀ f ∈ fs, f.type = .lpm → f.bitwidth % 8 = 0) ∧ (∃ f ∈ fs, f.type = .range) ∧
    addReq fs l 10 = some (.call
      [{ type := .ternary, key := [0x01, 0x20], mask := [0x0f, 0xf0] },
       { type := .lpm, key := [0xab, 0xc0], prefixLength := 12 },
       { type := .range, key := [0, 5], mask := [1, 44] },
       { type := .valid, key := [1] }, { type := .exact, key := [6] }] 2147483637) := by
  refine ⟨?_, l_encodes, vs_canonical, ?_, ⟨⟨.range, 9⟩, by decide, rfl⟩, by decide⟩
  · intro f hf
    simp only [fs, List.mem_cons, List.not_mem_nil, or_false] at hf
    rcases hf with rfl | rfl | rfl | rfl | rfl <;> decide
  · intro f hf
    simp only [fs, List.mem_cons, List.not_mem_nil, or_false] at hf
    rcases hf with rfl | rfl | rfl | rfl | rfl <;> decide

/-- Zero bytes in front of action data survive. -/
theorem C90_case_action : buildActionData [16, 9, 8] [0, 7, 1, 0, 0] = some [7, 256, 0] ∧
    dumpActionData [16, 9, 8] [7, 256, 0] = some [0, 7, 1, 0, 0] := by decide

/-- The code violates C90: a prefix match on a 12-bit field that is part of a ternary table is read
back with its four low bits cleared. -/
theorem C90_refuted_width :
    ∃ ps q kb key ps', addReq [⟨.lpm, 12⟩, ⟨.ternary, 8⟩] [0x01, 0x23, 12, 0, 0, 0, 1, 0xff] 1
        = some (.call ps q) ∧
      KeyB.build ([⟨.lpm, 12⟩, ⟨.ternary, 8⟩].map declared) = some kb ∧
      kb.buildTern ps q = some (some key) ∧
      kb.fromTern key.data key.mask = some ps' ∧
      emitMatchKey ps' = [0x01, 0x20, 12, 0, 0, 0, 1, 0xff] := by
  refine ⟨[{ type := .lpm, key := [0x01, 0x23], prefixLength := 12 },
    { type := .ternary, key := [1], mask := [0xff] }], 2147483646, _, _, _, by decide, rfl, rfl, rfl,
    by decide⟩

/-- The code violates C90: reading by key does not check the priority, so a priority that adding,
modifying and deleting refuse makes the server fail an assertion. -/
theorem C90_refuted_priority :
    addReq [⟨.ternary, 8⟩] [1, 0xff] 2147483648 = some .unsupportedPriority ∧
    fetchReq [⟨.ternary, 8⟩] [1, 0xff] 2147483648 = none := by decide

end Ex

end Bm.PiEntry
