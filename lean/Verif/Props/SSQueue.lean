import Verif.Props.SSEgress

/-!
# C64: queueing metadata

The metadata a packet has when the egress pipeline starts on it, in terms of what was true when it was put into the
queue and when it was taken out of it.
-/

namespace Bm.SSwitch
open Bm.Spec

variable {c : Cfg} {p0 : Phv}

/-- The fields that the start of egress writes. -/
def startRefs (c : Cfg) : List Ref :=
  c.names.egressTs.toList ++
    (match c.names.queueing with
     | none => []
     | some (_, _, dtd, dqd) => [dtd, dqd] ++ c.names.qid.toList) ++
    [c.names.egressPort, c.names.egressSpec, c.names.packetLength]

/-- What the metadata `md'` at the start of egress have to be, for a packet with metadata `md` taken from the queue
`prio` at time `ts`, when there were `depth` packets left. -/
structure Started (c : Cfg) (p0 : Phv) (ts : Int) (depth port prio : Nat) (md md' : Md) : Prop where
  egressTs : ∀ x, c.names.egressTs = some x → md' x = some (stored p0 x ts)
  delta : ∀ ets eqd dtd dqd, c.names.queueing = some (ets, eqd, dtd, dqd) →
    ∃ t, md ets = some t ∧ md' dtd = some (stored p0 dtd (ts - t))
  depth : ∀ ets eqd dtd dqd, c.names.queueing = some (ets, eqd, dtd, dqd) → md' dqd = some (stored p0 dqd depth)
  qid : ∀ x, c.names.queueing.isSome = true → c.names.qid = some x → md' x = some (stored p0 x prio)
  port : md' c.names.egressPort = some (stored p0 c.names.egressPort port)
  other : ∀ r, r ∉ startRefs c → md' r = md r

/-- `setOpt` as an assignment. -/
theorem setOpt_md (hc : Std c p0) {p p' : Phv} (m : Made p0 p) {r : Option Ref} (hr : ∀ x, r = some x → x ∈ c.names.all)
    {v : Int} (e : setOpt c.rz p r v = some p') :
    Made p0 p' ∧ ∀ x, mval p' x = if r = some x then some (stored p0 x v) else mval p x := by
  cases r with
  | none => cases e; exact ⟨m, fun x => by simp⟩
  | some r =>
    obtain ⟨a1, -, a3⟩ := setF_plain m (hc.plain _ (hr r rfl)) e
    refine ⟨a1, fun x => ?_⟩
    rw [a3]
    by_cases hx : x = r
    · subst hx; simp
    · rw [if_neg hx, if_neg (by simpa using fun h => hx h.symm)]

theorem egressStart_md (hc : Std c p0) {w : World} {port prio : Nat} {p q : Pkt} (m : Made p0 p.phv)
    (e : egressStart c w port prio p = some q) :
    Started c p0 w.ts w.depth port prio (mval p.phv) (mval q.phv) := by
  simp only [egressStart, Option.bind_eq_bind] at e
  obtain ⟨q1, h1, e1⟩ := Option.bind_eq_some_iff.1 e
  obtain ⟨q2, h2, e2⟩ := Option.bind_eq_some_iff.1 e1
  obtain ⟨q3, h3, e3⟩ := Option.bind_eq_some_iff.1 e2
  obtain ⟨q4, h4, e4⟩ := Option.bind_eq_some_iff.1 e3
  obtain ⟨q5, h5, e5⟩ := Option.bind_eq_some_iff.1 e4
  clear e e1 e2 e3 e4
  cases e5
  obtain ⟨a1, a2⟩ := setOpt_md hc m (fun x hx => by unfold Names.all; simp [hx]) h1
  obtain ⟨b1, -⟩ := deqStamp_spec hc a1 h2
  obtain ⟨d1, d2, d3⟩ := setF_plain b1 (hc.plain _ mem_all.2.2.2.2) h3
  obtain ⟨f1, f2, f3⟩ := setF_plain d1 (hc.plain _ mem_all.2.2.2.1) h4
  obtain ⟨g1, g2, g3⟩ := setF_plain f1 (hc.plain _ mem_all.2.1) h5
  have hn := hc.apart
  unfold Names.all at hn
  unfold deqStamp at h2
  have hfin : ∀ r, r ≠ c.names.egressPort → r ≠ c.names.egressSpec → r ≠ c.names.packetLength →
      mval q5 r = mval q2 r := by
    intro r r1 r2 r3
    rw [g3, if_neg r3, f3, if_neg r2, d3, if_neg r1]
  have hport : mval q5 c.names.egressPort = some (stored p0 c.names.egressPort port) := by
    simp only [List.cons_append, List.nodup_cons, List.mem_cons, not_or] at hn
    obtain ⟨_, ⟨_, _, k2, _⟩, _, ⟨k3, _⟩, _⟩ := hn
    rw [g3, if_neg (fun h => k2 h.symm), f3, if_neg (fun h => k3 h.symm), d3, if_pos rfl]
  cases hq : c.names.queueing with
  | none =>
    rw [hq] at h2 hn
    cases h2
    refine ⟨fun x hx => ?_, fun _ _ _ _ h => by simp [hq] at h, fun _ _ _ _ h => by simp [hq] at h,
      fun _ h => by simp [hq] at h, hport, fun r hr => ?_⟩
    · rw [hx] at hn
      simp only [List.cons_append, List.nodup_cons, List.mem_cons, List.mem_append, not_or, Option.toList_some,
        List.nil_append] at hn
      rw [hfin x (by grind) (by grind) (by grind), a2, if_pos hx]
    · unfold startRefs at hr
      rw [hq] at hr
      simp only [List.append_nil, List.mem_append, Option.mem_toList, List.mem_cons, List.not_mem_nil, or_false,
        not_or, Option.mem_def] at hr
      obtain ⟨r0, r1, r2, r3⟩ := hr
      rw [hfin r r1 r2 r3, a2, if_neg r0]
  | some tt =>
    obtain ⟨ets, eqd, dtd, dqd⟩ := tt
    rw [hq] at h2 hn
    simp only [Option.bind_eq_bind] at h2
    obtain ⟨t, j1, e1⟩ := Option.bind_eq_some_iff.1 h2
    obtain ⟨p2, j2, e2⟩ := Option.bind_eq_some_iff.1 e1
    obtain ⟨p3, j3, e3⟩ := Option.bind_eq_some_iff.1 e2
    obtain ⟨me, _, md, mf⟩ := mem_queueing hq
    rw [getF_name hc a1 me] at j1
    obtain ⟨k1, -, k3⟩ := setF_plain a1 (hc.plain _ md) j2
    obtain ⟨l1, -, l3⟩ := setF_plain k1 (hc.plain _ mf) j3
    obtain ⟨n1, n3⟩ := setOpt_md hc l1 (fun x hx => by unfold Names.all; simp [hx]) e3
    simp only [List.cons_append, List.nodup_cons, List.mem_cons, List.mem_append, not_or, List.nil_append,
      List.nodup_append, Option.mem_toList, Option.mem_def] at hn
    have w1 : ∀ x, c.names.egressTs = some x → x ≠ ets ∧ x ≠ dtd ∧ x ≠ dqd := by
      intro x hx
      refine ⟨?_, ?_, ?_⟩ <;> rintro rfl <;> grind
    have w2 : ∀ x, c.names.qid = some x → x ≠ ets ∧ x ≠ dtd ∧ x ≠ dqd ∧ c.names.egressTs ≠ some x := by
      intro x hx
      refine ⟨?_, ?_, ?_, ?_⟩
      · rintro rfl; grind
      · rintro rfl; grind
      · rintro rfl; grind
      · intro h; grind
    have w3 : ∀ x, x = dtd ∨ x = dqd ∨ c.names.qid = some x ∨ c.names.egressTs = some x →
        x ≠ c.names.egressPort ∧ x ≠ c.names.egressSpec ∧ x ≠ c.names.packetLength := by
      intro x hx
      rcases hx with rfl | rfl | hx | hx
      · refine ⟨?_, ?_, ?_⟩ <;> intro h <;> grind
      · refine ⟨?_, ?_, ?_⟩ <;> intro h <;> grind
      · refine ⟨?_, ?_, ?_⟩ <;> intro h <;> grind
      · refine ⟨?_, ?_, ?_⟩ <;> intro h <;> grind
    have w4 : dtd ≠ dqd := by rintro rfl; grind
    have hfin' : ∀ x, x = dtd ∨ x = dqd ∨ c.names.qid = some x ∨ c.names.egressTs = some x →
        mval q5 x = mval q2 x := fun x hx => hfin x (w3 x hx).1 (w3 x hx).2.1 (w3 x hx).2.2
    refine ⟨fun x hx => ?_, fun _ _ _ _ h => ?_, fun _ _ _ _ h => ?_, fun x _ hx => ?_, hport, fun r hr => ?_⟩
    · rw [hfin' x (.inr (.inr (.inr hx))), n3, if_neg (fun h => (w2 x h).2.2.2 hx), l3, if_neg (w1 x hx).2.2, k3,
        if_neg (w1 x hx).2.1, a2, if_pos hx]
    · rw [hq] at h
      cases h
      refine ⟨t, ?_, ?_⟩
      · rw [a2, if_neg (fun h => (w1 _ h).1 rfl)] at j1
        exact j1
      · rw [hfin' _ (.inl rfl), n3, if_neg (fun h => (w2 _ h).2.1 rfl), l3, if_neg w4, k3, if_pos rfl]
    · rw [hq] at h
      cases h
      rw [hfin' _ (.inr (.inl rfl)), n3, if_neg (fun h => (w2 _ h).2.2.1 rfl), l3, if_pos rfl]
    · rw [hfin' x (.inr (.inr (.inl hx))), n3, if_pos hx]
    · unfold startRefs at hr
      rw [hq] at hr
      simp only [List.mem_append, Option.mem_toList, List.mem_cons, List.not_mem_nil, or_false,
        not_or, Option.mem_def] at hr
      obtain ⟨⟨r0, ⟨r4, r5⟩, r6⟩, r1, r2, r3⟩ := hr
      rw [hfin r r1 r2 r3, n3, if_neg r6, l3, if_neg r5, k3, if_neg r4, a2, if_neg r0]

/-- What `enqueue` writes. -/
theorem enqueue_md (hc : Std c p0) {w : World} {port port' prio : Nat} {p q : Pkt} (m : Made p0 p.phv) {es : List Eff}
    (e : enqueue c w port p = some es) (hq : Eff.enqueue port' prio q ∈ es) :
    port' = port ∧ Made p0 q.phv ∧ PriorityIs c (mval p.phv) prio ∧
      (∀ ets eqd dtd dqd, c.names.queueing = some (ets, eqd, dtd, dqd) →
        mval q.phv ets = some (stored p0 ets w.ts) ∧ mval q.phv eqd = some (stored p0 eqd w.depth)) ∧
      ∀ r, r ∉ queueRefs c → mval q.phv r = mval p.phv r := by
  obtain ⟨prio', h1, h2, h3⟩ := enqueue_spec hc m e
  by_cases hp : c.nbQueues ≤ prio'
  · rw [h2 hp] at hq; cases hq
  obtain ⟨phv, rfl, a1, -, a3⟩ := h3 (by omega)
  simp only [List.mem_singleton, Eff.enqueue.injEq] at hq
  obtain ⟨rfl, rfl, rfl⟩ := hq
  refine ⟨rfl, a1, h1, ?_, a3⟩
  intro ets eqd dtd dqd hn
  simp only [enqueue, Option.bind_eq_bind] at e
  obtain ⟨prio2, h1', e⟩ := Option.bind_eq_some_iff.1 e
  by_cases hp2 : prio2 ≥ c.nbQueues
  · rw [if_pos hp2] at e; simp at e
  rw [if_neg hp2] at e
  obtain ⟨phv', k2, e⟩ := Option.bind_eq_some_iff.1 e
  simp only [pure, Option.some.injEq, List.cons.injEq, Eff.enqueue.injEq, Pkt.mk.injEq, and_true, true_and] at e
  have hphv : phv' = phv := by tauto
  subst hphv
  unfold stamp at k2
  rw [hn] at k2
  simp only at k2
  obtain ⟨phv1, k3, k4⟩ := Option.bind_eq_some_iff.1 k2
  obtain ⟨ma, mb, _, _⟩ := mem_queueing hn
  obtain ⟨b1, b2, b3⟩ := setF_plain m (hc.plain _ ma) k3
  obtain ⟨d1, d2, d3⟩ := setF_plain b1 (hc.plain _ mb) k4
  have hne : ets ≠ eqd := by
    have h := hc.apart
    unfold Names.all at h
    rw [hn] at h
    simp only [List.cons_append, List.nodup_cons, List.mem_cons, List.mem_append, not_or, List.nil_append,
      List.nodup_append, Option.mem_toList, Option.mem_def] at h
    rintro rfl
    grind
  exact ⟨by rw [d3, if_neg hne, b3, if_pos rfl], by rw [d3, if_pos rfl]⟩

/-- **C64.**  For a packet put into an egress queue in the world `w1` and taken out in the world `w2`, at the start of
the egress pipeline: `enq_qdepth` and `deq_qdepth` are the numbers of packets in the queue at the two moments,
`deq_timedelta` is the time between them (modulo its width, even if the timestamp has wrapped around, provided it is
not wider than `enq_timestamp`), `egress_port` is the port of the queue, `qid` is its priority, and this is the
priority the ingress pipeline asked for. -/
theorem C64_queueing_metadata (hc : Std c p0) {w1 w2 : World} {port port' prio : Nat} {p q r : Pkt} (m : Made p0 p.phv)
    {es : List Eff} (e : enqueue c w1 port p = some es) (hq : Eff.enqueue port' prio q ∈ es)
    (e2 : egressStart c w2 port' prio q = some r) :
    port' = port ∧ PriorityIs c (mval p.phv) prio ∧
    mval r.phv c.names.egressPort = some (stored p0 c.names.egressPort port) ∧
    (∀ x, c.names.egressTs = some x → mval r.phv x = some (stored p0 x w2.ts)) ∧
    (∀ x, c.names.queueing.isSome = true → c.names.qid = some x → mval r.phv x = some (stored p0 x prio)) ∧
    ∀ ets eqd dtd dqd, c.names.queueing = some (ets, eqd, dtd, dqd) →
      mval r.phv ets = some (stored p0 ets w1.ts) ∧
      mval r.phv eqd = some (stored p0 eqd w1.depth) ∧
      mval r.phv dqd = some (stored p0 dqd w2.depth) ∧
      (width p0 dtd ≤ width p0 ets → mval r.phv dtd = some (stored p0 dtd (w2.ts - w1.ts))) := by
  obtain ⟨rfl, m', h1, h2, -⟩ := enqueue_md hc m e hq
  have hs := egressStart_md hc m' e2
  refine ⟨rfl, h1, hs.port, hs.egressTs, hs.qid, fun ets eqd dtd dqd hn => ?_⟩
  obtain ⟨a1, a2⟩ := h2 ets eqd dtd dqd hn
  obtain ⟨t, b1, b2⟩ := hs.delta ets eqd dtd dqd hn
  rw [a1] at b1
  cases b1
  have hnot : ets ∉ startRefs c ∧ eqd ∉ startRefs c := by
    have h := hc.apart
    unfold Names.all at h
    rw [hn] at h
    simp only [List.cons_append, List.nodup_cons, List.mem_cons, List.mem_append, not_or, List.nil_append,
      List.nodup_append, Option.mem_toList, Option.mem_def] at h
    unfold startRefs
    rw [hn]
    simp only [List.mem_append, Option.mem_toList, List.mem_cons, List.not_mem_nil, or_false, not_or, Option.mem_def]
    grind
  refine ⟨by rw [hs.other _ hnot.1, a1], by rw [hs.other _ hnot.2, a2], hs.depth _ _ _ _ hn, fun hw => ?_⟩
  rw [b2]
  congr 1
  unfold stored
  rw [Int.sub_emod w2.ts, Int.emod_emod_of_dvd _ (pow_dvd_pow 2 hw), ← Int.sub_emod]

/-- **C64.**  In particular the time is exact if it fits the field. -/
theorem C64_exact (hc : Std c p0) {w1 w2 : World} {port port' prio : Nat} {p q r : Pkt} (m : Made p0 p.phv)
    {es : List Eff} (e : enqueue c w1 port p = some es) (hq : Eff.enqueue port' prio q ∈ es)
    (e2 : egressStart c w2 port' prio q = some r) {ets eqd dtd dqd : Ref}
    (hn : c.names.queueing = some (ets, eqd, dtd, dqd)) (hw : width p0 dtd ≤ width p0 ets) (h0 : w1.ts ≤ w2.ts)
    (hf : w2.ts - w1.ts < 2 ^ width p0 dtd) : mval r.phv dtd = some (w2.ts - w1.ts) := by
  rw [((C64_queueing_metadata hc m e hq e2).2.2.2.2.2 _ _ _ _ hn).2.2.2 hw]
  unfold stored
  rw [Int.emod_eq_of_lt (by omega) hf]

end Bm.SSwitch

namespace Bm.SSwitch.QEx
open Bm.Spec Ex

/-- Standard metadata, a priority and queueing metadata with 8-bit times. -/
def p0 : Phv :=
  { headers := [⟨0, none, [fld 9, fld 32, fld 32, fld 9, fld 9, fld 8, fld 8, fld 16, fld 8, fld 16, fld 8, fld 8], false, true, 0⟩],
    memb := [none], unions := [], hstacks := [], unionStacks := [] }

def names : Names :=
  { Ex.names with mcastGrp := none, egressRid := none, priority := some (0, 5), egressTs := some (0, 10),
                  queueing := some ((0, 6), (0, 7), (0, 8), (0, 9)), qid := some (0, 11) }

def c : Cfg := { Ex.c with names, nbQueues := 8, fieldLists := fun _ => none }

theorem std : Std c p0 := by
  refine ⟨?_, by decide, ?_, ?_, ?_⟩
  · have : ∀ r ∈ names.all, ((mfield p0 r).map fun f => (f.isSigned, f.isSaturating)) = some (false, false) := by
      decide +kernel
    intro r hr
    have := this r hr
    cases h : mfield p0 r with
    | none => rw [h] at this; cases this
    | some f =>
      rw [h] at this
      simp only [Option.map_some, Option.some.injEq, Prod.mk.injEq] at this
      exact ⟨f, rfl, this⟩
  · intro n l h
    cases h
  · intro d t p r m h
    cases h
    exact m
  · refine made_self fun hd hh hm f hf => ?_
    have : ∀ n ∈ [9, 32, 16, 8], Field.mk' n true false false false false = some (fld n) ∧
        (fld n).isSaturating = false := by decide +kernel
    have hfs : ∃ n ∈ [9, 32, 16, 8], f = fld n := by
      rcases List.mem_singleton.1 hh with rfl
      simp only [List.mem_cons, List.not_mem_nil, or_false] at hf
      rcases hf with rfl | rfl | rfl | rfl | rfl | rfl | rfl | rfl | rfl | rfl | rfl | rfl <;> simp
    obtain ⟨n, hn, rfl⟩ := hfs
    obtain ⟨h1, h2⟩ := this n hn
    exact ⟨n, true, false, false, by rw [h2]; exact h1⟩

/-- Priority 6; queued at time 250 as the fourth packet, taken out at time 260 with one packet left. -/
def run : Option (List (Option Int)) := do
  let phv ← setF false p0 (0, 5) 6
  let p : Pkt := { inPort := 2, ePort := 0, inLen := 3, data := [2, 3], trunc := noTrunc, phv, regs := fun _ => 0, exit := false }
  match ← enqueue c ⟨250, 3, p0, fun _ => 0⟩ 4 p with
  | [.enqueue port prio q] =>
    let r ← egressStart c ⟨260, 1, p0, fun _ => 0⟩ port prio q
    return [(0, 4), (0, 6), (0, 7), (0, 8), (0, 9), (0, 10), (0, 11)].map (mval r.phv)
  | _ => none

-- egress port, enqueue time and depth, time in the queue and depth, egress time (wrapped), queue
example : run = some [some 4, some 250, some 3, some 10, some 1, some 4, some 6] := by decide +kernel

example : width p0 (0, 8) ≤ width p0 (0, 6) := by decide +kernel

end Bm.SSwitch.QEx
