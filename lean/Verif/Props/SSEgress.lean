import Verif.Props.SimpleSwitch
import Verif.Spec.SSEgress

/-!
# C56: what happens to a packet at the end of egress
-/

namespace Bm.SSwitch
open Bm.Spec

variable {c : Cfg} {p0 : Phv}

theorem egressClone_spec (hc : Std c p0) {o : Oracle} {p p' : Pkt} {es : List Eff}
    (ho : ∀ i, Made p0 (o i).stale) (m : Made p0 p.phv) (e : egressClone c o p = some (p', es)) :
    EClones c p0 p es ∧ ∃ regs, p' = { p with regs } ∧ regs lenReg = p.regs lenReg ∧
      getFlag cloneSession regs = 0 ∧
      ∀ f ∈ flags, f ≠ cloneSession → f ≠ cloneList → getFlag f regs = getFlag f p.regs := by
  simp only [egressClone] at e
  split at e
  · rename_i h0
    cases e
    exact ⟨⟨fun _ => rfl, fun h => absurd h0 h, fun h => absurd h0 h⟩, p.regs, rfl, rfl, h0, fun _ _ _ _ => rfl⟩
  · rename_i h0
    have hregs : (setFlag cloneList (setFlag cloneSession p.regs 0) 0) lenReg = p.regs lenReg ∧
        getFlag cloneSession (setFlag cloneList (setFlag cloneSession p.regs 0) 0) = 0 ∧
        ∀ f ∈ flags, f ≠ cloneSession → f ≠ cloneList →
          getFlag f (setFlag cloneList (setFlag cloneSession p.regs 0) 0) = getFlag f p.regs := by
      have c1 : cloneSession ∈ flags := by decide
      have c2 : cloneList ∈ flags := by decide
      refine ⟨?_, ?_, fun f hf h1 h2 => ?_⟩
      · rw [setFlag_len c2, setFlag_len c1]
      · rw [setFlag_ne c2 c1 (by decide), setFlag_self c1]
      · rw [setFlag_ne c2 hf h2, setFlag_ne c1 hf h1]
    split at e
    · rename_i hs
      cases e
      exact ⟨⟨fun h => absurd h h0, fun _ _ => rfl, fun _ s h => by rw [hs] at h; cases h⟩, _, rfl, hregs⟩
    · rename_i s hs
      simp only [cloneResetMetadata, Option.bind_eq_bind] at e
      obtain ⟨q, h1, e⟩ := Option.bind_eq_some_iff.1 e
      obtain ⟨phv0, h1', h1⟩ := Option.bind_eq_some_iff.1 h1
      cases h1
      obtain ⟨l, h2, e⟩ := Option.bind_eq_some_iff.1 e
      obtain ⟨phv1, h3, e⟩ := Option.bind_eq_some_iff.1 e
      obtain ⟨phv2, h4, e⟩ := Option.bind_eq_some_iff.1 e
      obtain ⟨es', h5, e⟩ := Option.bind_eq_some_iff.1 e
      cases e
      obtain ⟨a1, a2, a3⟩ := copy_spec (rz := c.rz) (ho 0) m
      obtain ⟨b1, b2, b3⟩ := reset_spec (p := Phv.copyHeaders c.rz (o 0).stale p.phv) a1 h1'
      obtain ⟨d1, d2, d3⟩ := copyList_spec (src := p.phv) m (hc.lists _ l h2) b1 h3
      obtain ⟨g1, g2, g3⟩ := setF_plain d1 (hc.plain _ mem_all.2.2.1) h4
      refine ⟨⟨fun h => absurd h h0, fun _ h => (by rw [hs] at h; cases h), fun _ s' h => ?_⟩, _, rfl, hregs⟩
      rw [hs] at h
      cases h
      refine ⟨l, h2, sendClone_spec hc (fun i => ho (1 + i)) ?_ h5 ⟨rfl, rfl, rfl, ?_⟩ ?_ ?_ ?_ rfl⟩
      · exact g1
      · rw [← hregs.1]
        exact size_new (clearAll (o 0).regs) _
      · exact a2.trans (b2.trans (d2.trans g2))
      · intro r
        refine (g3 r).trans ?_
        unfold Md.put zeroBut
        rw [d3, b3]
        rfl
      · exact fun f hf => noFlags_new (o 0).regs _ f hf

theorem recirculate_spec (hc : Std c p0) {w : World} {p : Pkt} {flag : BitVec 16} {es : List Eff}
    (ho : Made p0 w.stale) (m : Made p0 p.phv) (e : recirculate c w p flag = some es) :
    ∃ list q, es = [.recirculate q] ∧ c.fieldLists flag.toNat = some list ∧ NoFlags q ∧ q.trunc = noTrunc ∧
      Has c q { inPort := p.inPort, inLen := min p.data.length noTrunc, data := p.data,
                size := BitVec.ofNat 64 (min p.data.length noTrunc), headers := w.stale,
                md := ((zeroBut p0 list (mval p.phv)).put p0 c.names.instanceType 4).put p0 c.names.packetLength
                  (min p.data.length noTrunc : Nat) } := by
  simp only [recirculate, Option.bind_eq_bind] at e
  obtain ⟨l, h1, e⟩ := Option.bind_eq_some_iff.1 e
  obtain ⟨phv0, h2, e⟩ := Option.bind_eq_some_iff.1 e
  obtain ⟨phv1, h3, e⟩ := Option.bind_eq_some_iff.1 e
  obtain ⟨phv2, h4, e⟩ := Option.bind_eq_some_iff.1 e
  obtain ⟨phv3, h5, e⟩ := Option.bind_eq_some_iff.1 e
  cases e
  obtain ⟨b1, b2, b3⟩ := reset_spec (p := w.stale) ho h2
  obtain ⟨d1, d2, d3⟩ := copyList_spec (src := p.phv) m (hc.lists _ l h1) b1 h3
  obtain ⟨g1, g2, g3⟩ := setF_plain d1 (hc.plain _ mem_all.2.2.1) h4
  obtain ⟨k1, k2, k3⟩ := setF_plain g1 (hc.plain _ mem_all.2.1) h5
  refine ⟨l, _, rfl, h1, fun f hf => noFlags_new w.regs _ f hf, rfl, rfl, rfl, rfl,
    size_new (clearAll w.regs) _, b2.trans (d2.trans (g2.trans k2)), fun r _ => ?_⟩
  refine (k3 r).trans ?_
  unfold Md.put zeroBut
  rw [g3, d3, b3]
  rfl

/-- **C56**.  At the end of egress there are clones (or none), then the fate of the packet: drop, recirculation
or transmission, in that order of precedence; what is transmitted is the port of the queue and the deparsed
bytes, cut to the truncated length. -/
theorem C56 (hc : Std c p0) (hd : ∀ p d q b, Made p0 p → c.deparser p d = some (q, b) → Made p0 q)
    {oc o : Oracle} (hoc : ∀ i, Made p0 (oc i).stale) (ho : ∀ i, Made p0 (o i).stale) {p : Pkt}
    (m : Made p0 p.phv) {es : List Eff} (e : egressEnd c oc o p = some es) :
    ∃ clones fate, es = clones ++ fate ∧ EClones c p0 p clones ∧ EFate c p0 p fate := by
  simp only [egressEnd, Option.bind_eq_bind] at e
  obtain ⟨⟨p', clones⟩, h1, e1⟩ := Option.bind_eq_some_iff.1 e
  clear e
  obtain ⟨sv, h2, e2⟩ := Option.bind_eq_some_iff.1 e1
  clear e1
  obtain ⟨spec, h3, e⟩ := Option.bind_eq_some_iff.1 e2
  clear e2
  obtain ⟨a1, regs, a2, a3, a4, a5⟩ := egressClone_spec hc hoc m h1
  subst a2
  have hsp := mem_all (n := c.names) |>.2.2.2.1
  obtain ⟨n, hn⟩ := mval_nat hc m hsp
  simp only at h2
  rw [getF_name hc m hsp, hn] at h2
  cases h2
  have := getUint_nat h3
  subst this
  have hfl : getFlag recirculateFlag regs = getFlag recirculateFlag p.regs :=
    a5 recirculateFlag (by decide) (by decide +kernel) (by decide +kernel)
  simp only at e
  by_cases h0 : spec = c.dropPort
  · rw [if_pos h0] at e
    cases e
    exact ⟨_, [], (List.append_nil _).symm, a1, .drop (by rw [hn, h0])⟩
  · rw [if_neg h0] at e
    have h0' : mval p.phv c.names.egressSpec ≠ some (c.dropPort : Int) := by
      rw [hn]
      intro h
      apply h0
      simpa using h
    obtain ⟨⟨phv, bytes⟩, h4, e⟩ := Option.bind_eq_some_iff.1 e
    simp only at e
    by_cases h5 : getFlag recirculateFlag regs ≠ 0
    · rw [if_pos h5] at e
      obtain ⟨es', h6, e⟩ := Option.bind_eq_some_iff.1 e
      cases e
      obtain ⟨l, q, k1, k2, k3, k4, k5⟩ := recirculate_spec hc (p := { p with regs, phv, data := bytes }) (ho 0)
        (hd _ _ _ _ m h4) h6
      subst k1
      rw [hfl] at h5 k2
      exact ⟨_, _, rfl, a1, .recirculate phv _ bytes l q h0' h4 h5 k2 (ho 0) k3 k4 k5⟩
    · rw [if_neg h5] at e
      cases e
      have h5 : getFlag recirculateFlag regs = 0 := by simpa using h5
      refine ⟨_, _, rfl, a1, .transmit phv bytes _ h0' h4 (hfl ▸ h5) ?_⟩
      unfold transmit Pkt.dataSize
      simp only [Prod.mk.injEq, true_and]
      rw [List.take_eq_take_iff]
      simp [Nat.min_comm]

theorem setOpt_spec (hc : Std c p0) {p p' : Phv} (m : Made p0 p) {r : Option Ref} (hr : ∀ x, r = some x → x ∈ c.names.all)
    {v : Int} (e : setOpt c.rz p r v = some p') : Made p0 p' ∧ SameHeaders p p' := by
  cases r with
  | none => cases e; exact ⟨m, .refl p⟩
  | some r =>
    obtain ⟨a1, a2, _⟩ := setF_plain m (hc.plain _ (hr r rfl)) e
    exact ⟨a1, a2⟩

theorem deqStamp_spec (hc : Std c p0) {w : World} {prio : Nat} {p p' : Phv} (m : Made p0 p)
    (e : deqStamp c w prio p = some p') : Made p0 p' ∧ SameHeaders p p' := by
  unfold deqStamp at e
  cases hq : c.names.queueing with
  | none => rw [hq] at e; cases e; exact ⟨m, .refl p⟩
  | some t =>
    obtain ⟨a, b, d, f⟩ := t
    rw [hq] at e
    simp only [Option.bind_eq_bind] at e
    obtain ⟨t, h1, e1⟩ := Option.bind_eq_some_iff.1 e
    obtain ⟨q1, h2, e2⟩ := Option.bind_eq_some_iff.1 e1
    obtain ⟨q2, h3, e3⟩ := Option.bind_eq_some_iff.1 e2
    obtain ⟨_, _, md, mf⟩ := mem_queueing hq
    obtain ⟨a1, a2, _⟩ := setF_plain m (hc.plain _ md) h2
    obtain ⟨b1, b2, _⟩ := setF_plain a1 (hc.plain _ mf) h3
    obtain ⟨d1, d2⟩ := setOpt_spec hc b1 (fun x hx => by unfold Names.all; simp [hx]) e3
    exact ⟨d1, a2.trans (b2.trans d2)⟩

/-- A packet whose `egress_spec` the egress pipeline leaves alone is not dropped, whatever the drop port and
the width of the field. -/
theorem C56_start (hc : Std c p0) {w : World} {port prio : Nat} {p q : Pkt} (m : Made p0 p.phv)
    (hw : 0 < width p0 c.names.egressSpec) (hd : c.dropPort < 2 ^ 32) (e : egressStart c w port prio p = some q) :
    Made p0 q.phv ∧ SameHeaders p.phv q.phv ∧ q.data = p.data ∧ q.regs = p.regs ∧ q.ePort = p.ePort ∧
    mval q.phv c.names.egressPort = some (stored p0 c.names.egressPort port) ∧
    mval q.phv c.names.packetLength = some (stored p0 c.names.packetLength (p.regs lenReg).toNat) ∧
    mval q.phv c.names.egressSpec ≠ some (c.dropPort : Int) := by
  simp only [egressStart, Option.bind_eq_bind] at e
  obtain ⟨q1, h1, e1⟩ := Option.bind_eq_some_iff.1 e
  obtain ⟨q2, h2, e2⟩ := Option.bind_eq_some_iff.1 e1
  obtain ⟨q3, h3, e3⟩ := Option.bind_eq_some_iff.1 e2
  obtain ⟨q4, h4, e4⟩ := Option.bind_eq_some_iff.1 e3
  obtain ⟨q5, h5, e5⟩ := Option.bind_eq_some_iff.1 e4
  clear e e1 e2 e3 e4
  cases e5
  obtain ⟨a1, a2⟩ := setOpt_spec hc m (fun x hx => by unfold Names.all; simp [hx]) h1
  obtain ⟨b1, b2⟩ := deqStamp_spec hc a1 h2
  obtain ⟨d1, d2, d3⟩ := setF_plain b1 (hc.plain _ mem_all.2.2.2.2) h3
  obtain ⟨f1, f2, f3⟩ := setF_plain d1 (hc.plain _ mem_all.2.2.2.1) h4
  obtain ⟨g1, g2, g3⟩ := setF_plain f1 (hc.plain _ mem_all.2.1) h5
  have hne : c.names.egressPort ≠ c.names.egressSpec ∧ c.names.egressPort ≠ c.names.packetLength ∧
      c.names.egressSpec ≠ c.names.packetLength := by
    have := hc.apart
    unfold Names.all at this
    simp only [List.cons_append, List.nodup_cons, List.mem_cons, not_or] at this
    obtain ⟨_, ⟨_, k1, k2, _⟩, _, ⟨k3, _⟩, _⟩ := this
    exact ⟨fun h => k3 h.symm, fun h => k2 h.symm, fun h => k1 h.symm⟩
  refine ⟨g1, a2.trans (b2.trans (d2.trans (f2.trans g2))), rfl, rfl, rfl, ?_, ?_, ?_⟩
  · rw [g3, if_neg hne.2.1, f3, if_neg hne.1, d3, if_pos rfl]
  · rw [g3, if_pos rfl]
  · rw [g3, if_neg hne.2.2, f3, if_pos rfl]
    unfold stored
    intro h
    simp only [Option.some.injEq] at h
    obtain ⟨k, hk⟩ : ∃ k, width p0 c.names.egressSpec = k + 1 := ⟨_, (Nat.succ_pred_eq_of_pos hw).symm⟩
    rw [hk] at h
    have h' : ((c.dropPort + 1) % 2 ^ 32) % 2 ^ (k + 1) = c.dropPort := by exact_mod_cast h
    have h2k : 2 ^ (k + 1) = 2 * 2 ^ k := by rw [pow_succ]; ring
    rw [h2k] at h'
    have hpos : 0 < 2 ^ k := Nat.two_pow_pos k
    generalize 2 ^ k = M at h' hpos
    have hlt := Nat.mod_lt ((c.dropPort + 1) % 2 ^ 32) (by omega : 0 < 2 * M)
    rw [h'] at hlt
    rcases Nat.lt_or_ge (c.dropPort + 1) (2 ^ 32) with hl | hl
    · rw [Nat.mod_eq_of_lt hl] at h'
      rcases Nat.lt_or_ge (c.dropPort + 1) (2 * M) with h3 | h3
      · rw [Nat.mod_eq_of_lt h3] at h'
        omega
      · have : c.dropPort + 1 = 2 * M := by omega
        rw [this, Nat.mod_self] at h'
        omega
    · have : c.dropPort + 1 = 2 ^ 32 := by omega
      rw [this, Nat.mod_self, Nat.zero_mod] at h'
      omega

end Bm.SSwitch

namespace Bm.SSwitch.Ex

/-- A packet after the egress pipeline: `egress_spec` `spec`, user field 9, truncated to one byte, flags of cloning
and recirculation (`f`). -/
def epkt (spec : Int) (f : BitVec 16) : Option Pkt := do
  let phv ← setF false p0 (0, 3) spec
  let phv ← setF false phv (0, 7) 9
  let regs : Regs := setReg (fun _ => 0) lenReg 3
  let regs := setFlag cloneSession regs (sessionValid ||| 5)
  let regs := setFlag cloneList regs 1
  let regs := setFlag recirculateFlag regs f
  return { inPort := 2, ePort := 6, inLen := 3, data := [2, 3], trunc := 1, phv, regs, exit := true }

/-- The end of egress for such a packet. -/
def erun (spec : Int) (f : BitVec 16) : Option (List Seen) := do
  return (← egressEnd c o o (← epkt spec f)).map sees

/-- Cloned and transmitted. -/
example : erun 0 0 = some [⟨0, 7, [some 2, some 0, some 9], [2, 3]⟩, ⟨4, 6, [], [2, 3]⟩] := by decide +kernel

/-- One byte is transmitted. -/
example : ((epkt 0 0).map transmit) = some (6, [2]) := by decide +kernel

/-- Cloned and dropped, though to be recirculated. -/
example : erun 511 1 = some [⟨0, 7, [some 2, some 0, some 9], [2, 3]⟩] := by decide +kernel

/-- Cloned and recirculated. -/
example : erun 0 1 = some [⟨0, 7, [some 2, some 0, some 9], [2, 3]⟩, ⟨3, 0, [some 4], [2, 3]⟩] := by decide +kernel

end Bm.SSwitch.Ex
