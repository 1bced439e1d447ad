import Verif.Lemmas.Targets
import Verif.Props.SimpleSwitch

/-!
# C87: the small targets

`l2_switch`, `simple_router` and `pna_nic` send a packet exactly to the ports that the program chooses, each copy with
the headers, payload and metadata of the packet, through the egress pipeline and the deparser; what they do depends
only on the packet received.

Not so in these cases, shown below:
* `l2_switch` and `simple_router` do not reset metadata: what earlier packets left is seen by the program, and decides
  where a packet goes for which the program does not say;
* a packet on which the program called `exit` in ingress does not get the egress pipeline;
* a group other than 1 makes `l2_switch` stop with a failed assertion;
* a copy made by `l2_switch` for a group has not its port in the egress pipeline.
-/

namespace Bm.Targets

open Bm.SSwitch Bm.Targets.Spec

/-- **C87** for `l2_switch`, after ingress: ports, contents of the packets, and what is learned.  Missing: packets on
which the program called `exit`, groups other than 1, the port in the metadata of copies. -/
theorem C87_l2_partial {g : Prog} {n : L2Names} {group : Nat → Option (List Nat)} {o : Oracle} {p0 : Phv} {p : Pkt}
    (hn : ∀ r ∈ [n.egressPort, n.learnId, n.mgid], Plain p0 r) (ho : ∀ i, Made p0 (o i).stale)
    (hp : Made p0 p.phv) (hx : p.exit = false) {learned : Option (Int × Pkt)} {qs : List Pkt}
    (e : l2End g n group o p = some (learned, qs)) :
    ∃ port list mgid ports, mval p.phv n.egressPort = some port ∧ mval p.phv n.learnId = some list ∧
      mval p.phv n.mgid = some mgid ∧ dests group p.inPort port mgid = some ports ∧
      learned = (if 0 < list then some (list, p) else none) ∧
      Delivers g.egress g.deparser p
        (putIf p0 (mgid ≠ 0) n.mgid 0 (putIf p0 (0 < list) n.learnId 0 (mval p.phv))) ports qs := by
  simp only [l2End, l2Read, Option.bind_eq_bind, Option.bind_eq_some_iff, Option.pure_def, Option.some.injEq] at e
  obtain ⟨⟨ei, li, mi⟩, ⟨e0, h1, ei', h2, l0, h3, li', h4, m0, h5, mi', h6, h7⟩, p', h8, qs', h9, h10⟩ := e
  cases h7
  cases h10
  rw [getF_plain hp (hn _ (by simp))] at h1 h3 h5
  obtain rfl := getInt_some h2
  obtain rfl := getInt_some h4
  have hm0 : m0 = (mi : Int) := by
    unfold Data.getUint at h6
    split at h6
    · cases h6; omega
    · cases h6
  -- the packet after learning
  have hl : ∃ phv, p' = { p with phv } ∧ Made p0 phv ∧ SameHeaders p.phv phv ∧
      ∀ r, mval phv r = putIf p0 (0 < li) n.learnId 0 (mval p.phv) r := by
    unfold l2Learn at h8
    unfold putIf
    split at h8
    · rename_i hpos
      simp only [Option.bind_eq_bind, Option.bind_eq_some_iff, Option.pure_def, Option.some.injEq] at h8
      obtain ⟨phv, k1, rfl⟩ := h8
      obtain ⟨k2, k3, k4⟩ := setF_plain hp (hn n.learnId (by simp)) k1
      exact ⟨phv, rfl, k2, k3, fun r => by rw [if_pos hpos]; exact k4 r⟩
    · rename_i hpos
      cases h8
      exact ⟨p.phv, rfl, hp, .refl _, fun r => by rw [if_neg hpos]⟩
  obtain ⟨phv, rfl, k1, k2, k3⟩ := hl
  refine ⟨ei, li, m0, ?_⟩
  simp only at h9
  unfold l2Out at h9
  unfold dests
  split at h9
  · -- drop
    rename_i hd
    cases h9
    refine ⟨[], h1, h3, h5, ?_, rfl, .nil⟩
    rw [if_pos (by omega), if_pos hd.1]
  split at h9
  · -- one port
    rename_i hd hz
    simp only [Option.bind_eq_bind, Option.bind_eq_some_iff, Option.pure_def, Option.some.injEq] at h9
    obtain ⟨q, h9, rfl⟩ := h9
    refine ⟨[ei.toNat], h1, h3, h5, ?_, rfl, .cons ⟨{ p with ePort := ei.toNat, phv }, ?_, finish_through hx h9⟩ .nil⟩
    · rw [if_pos (by omega), if_neg (by tauto)]
    · refine ⟨rfl, rfl, rfl, rfl, k2, fun r => ?_⟩
      rw [k3 r, putIf.eq_1 p0 (m0 ≠ 0), if_neg (by omega)]
  split at h9
  · -- a group
    rename_i hd hz h1'
    simp only [Option.bind_eq_bind, Option.bind_eq_some_iff] at h9
    obtain ⟨phv2, h9, l, h10, h11⟩ := h9
    obtain ⟨j1, j2, j3⟩ := setF_plain k1 (hn n.mgid (by simp)) h9
    refine ⟨l.filter fun x => x ≠ p.inPort, h1, h3, h5, ?_, rfl, ?_⟩
    · rw [if_neg (by omega), show m0.toNat = mi by omega, h10]
      rfl
    · have := copies_spec (p := { p with phv := phv2 }) j1 ho h11
      refine List.Forall₂.imp ?_ this
      rintro port q ⟨x, hc, ht⟩
      refine ⟨x, ⟨hc.ePort, hc.inPort, hc.inLen, hc.data, k2.trans (j2.trans hc.headers), fun r => ?_⟩, ht⟩
      rw [hc.md r]
      show mval phv2 r = _
      have : m0 ≠ 0 := by omega
      rw [putIf.eq_1 p0 (m0 ≠ 0), if_pos this, j3 r, k3 r]
      rfl
  · cases h9

/-- **C87** for `l2_switch`, before: the parser gets the bytes received, the metadata that were in the header vector
(see `C87_refuted_stale`) and the ingress port; the ingress pipeline gets what the parser makes of it. -/
theorem C87_l2_start {g : Prog} {n : L2Names} {group : Nat → Option (List Nat)} {w : World} {o : Oracle} {p0 : Phv}
    {port : Nat} {data : Bytes} (hn : Plain p0 n.ingressPort) (hw : Made p0 w.stale)
    {res : Option (Int × Pkt) × List Pkt} (e : l2 g n group w o port data = some res) :
    ∃ v r x y, SameHeaders w.stale v ∧ (∀ s, mval v s = Md.put (mval w.stale) p0 n.ingressPort port s) ∧
      Made p0 v ∧ g.parser data noTrunc v = some r ∧ x.phv = r.phv ∧ x.data = r.rest ∧ x.inPort = port ∧
      x.inLen = data.length ∧ x.exit = false ∧ g.ingress x = some y ∧ l2End g n group o y = some res := by
  simp only [l2, parseApply, apply, newPacket, Bool.false_eq_true, if_false, Option.bind_eq_bind,
    Option.bind_eq_some_iff] at e
  obtain ⟨v, h1, y, ⟨r, h2, h3⟩, h4⟩ := e
  obtain ⟨a1, a2, a3⟩ := setF_plain hw hn h1
  exact ⟨v, r, _, y, a2, a3, a1, h2, rfl, rfl, rfl, rfl, rfl, h3, h4⟩

/-- **C87** for `simple_router`, before. -/
theorem C87_router_start {g : Prog} {s t : Ref} {w : World} {port : Nat} {data : Bytes} {qs : List Pkt}
    (e : router g s t w port data = some qs) :
    ∃ r x y, g.parser data noTrunc w.stale = some r ∧ x.phv = r.phv ∧ x.data = r.rest ∧ x.inPort = port ∧
      x.inLen = data.length ∧ x.exit = false ∧ g.ingress x = some y ∧ routerEnd g s t y = some qs := by
  simp only [router, parseApply, apply, newPacket, Bool.false_eq_true, if_false, Option.bind_eq_bind,
    Option.bind_eq_some_iff] at e
  obtain ⟨y, ⟨r, h2, h3⟩, h4⟩ := e
  exact ⟨r, _, y, h2, rfl, rfl, rfl, rfl, rfl, h3, h4⟩

/-- **C87** for `simple_router`, after ingress.  Missing: packets on which the program called `exit`. -/
theorem C87_router_partial {g : Prog} {egressSpec egressPort : Ref} {p0 : Phv} {p : Pkt}
    (h1 : Plain p0 egressSpec) (h2 : Plain p0 egressPort) (hp : Made p0 p.phv) (hx : p.exit = false) {qs : List Pkt}
    (e : routerEnd g egressSpec egressPort p = some qs) :
    ∃ port, mval p.phv egressSpec = some port ∧
      Delivers g.egress g.deparser p (Md.put (mval p.phv) p0 egressPort port)
        (if port = 511 then [] else [port.toNat]) qs := by
  simp only [routerEnd, Option.bind_eq_bind, Option.bind_eq_some_iff, Option.pure_def] at e
  obtain ⟨e0, k1, ei, k2, e⟩ := e
  obtain rfl := getInt_some k2
  rw [getF_plain hp h1] at k1
  refine ⟨ei, k1, ?_⟩
  split at e
  · rename_i h
    cases e
    rw [if_pos h]
    exact .nil
  · rename_i h
    simp only [Option.bind_eq_some_iff, Option.some.injEq] at e
    obtain ⟨phv, k3, q, k4, rfl⟩ := e
    obtain ⟨j1, j2, j3⟩ := setF_plain hp h2 k3
    rw [if_neg h]
    exact .cons ⟨{ p with ePort := ei.toNat, phv }, ⟨rfl, rfl, rfl, rfl, j2, j3⟩, finish_through hx k4⟩ .nil

/-- **C87** for `pna_nic`: a packet received has only zeroes in metadata but for the port it came from; nothing of the
packet before is seen. -/
theorem C87_pna_receive {g : Prog} {n : PnaNames} {w : World} {p0 : Phv} {port : Nat} {data : Bytes} {p : Pkt}
    (hn : Plain p0 n.parserPort) (hn' : Plain p0 n.parserRecirculated) (hw : Made p0 w.stale) (e : pnaReceive g n w port data = some p) :
    p.inPort = port ∧ p.ePort = 0 ∧ p.data = data ∧ p.exit = false ∧ p.regs lenReg = BitVec.ofNat 64 data.length ∧
      Made p0 p.phv ∧ SameHeaders w.stale p.phv ∧
      ∀ r, mval p.phv r = (zeroBut p0 [] fun _ => none).put p0 n.parserPort port r := by
  simp only [pnaReceive, Option.bind_eq_bind, Option.bind_eq_some_iff, Option.pure_def, Option.some.injEq] at e
  obtain ⟨v1, h1, v2, h2, v3, h3, rfl⟩ := e
  obtain ⟨a1, a2, a3⟩ := reset_spec (show Made p0 (newPacket w port data).phv from hw) h1
  obtain ⟨b1, b2, b3⟩ := setF_plain a1 hn' h2
  obtain ⟨c1, c2, c3⟩ := setF_plain b1 hn h3
  refine ⟨rfl, rfl, rfl, rfl, ?_, c1, a2.trans (b2.trans c2), fun r => ?_⟩
  · show setReg w.regs lenReg _ lenReg = _
    simp [setReg]
  · rw [c3 r]
    unfold Md.put zeroBut
    split
    · rfl
    · rw [b3 r, a3 r]
      split
      · rename_i h
        obtain ⟨f, hf, _⟩ := hn'
        rw [h]
        simp [stored, mval, hf]
      · simp

/-- **C87** for `pna_nic`: every packet is sent once, to the port that the program chose (the egress port of the
packet after the main control), and the main control gets the parsed packet with the metadata that the architecture
says. -/
theorem C87_pna_main {g : Prog} {n : PnaNames} {p0 : Phv} {ts : Int} {p q : Pkt}
    (hn : ∀ r ∈ [n.timestamp, n.recirculated, n.parserError, n.classOfService, n.inputPort], Plain p0 r)
    (hr : Plain p0 n.parserRecirculated) (hr' : Plain p0 n.parserPort)
    (hd : n.parserPort ∉ [n.recirculated, n.parserError, n.classOfService])
    (hg : ∀ d t v r, Made p0 v → g.parser d t v = some r → Made p0 r.phv)
    (hp : Made p0 p.phv) (hx : p.exit = false) (e : pnaMain g n ts p = some q) :
    ∃ v r x y out port rec, Made p0 v ∧ SameHeaders p.phv v ∧
      (∀ s, mval v s = Md.put (mval p.phv) p0 n.timestamp ts s) ∧
      g.parser p.data p.trunc v = some r ∧
      mval r.phv n.parserPort = some port ∧ mval r.phv n.parserRecirculated = some rec ∧
      x.data = r.rest ∧ x.ePort = p.ePort ∧ x.inPort = p.inPort ∧ SameHeaders r.phv x.phv ∧
      (∀ s, mval x.phv s = Md.put (Md.put (Md.put (Md.put (mval r.phv) p0 n.recirculated rec) p0 n.parserError r.error)
        p0 n.classOfService 0) p0 n.inputPort port s) ∧
      g.ingress x = some y ∧ g.deparser y.phv y.data = some out ∧
      q = { y with phv := out.1, data := out.2, exit := false } := by
  simp only [pnaMain, pnaPass, apply, hx, Bool.false_eq_true, if_false, Option.bind_eq_bind, Option.bind_eq_some_iff,
    Option.pure_def, Option.some.injEq] at e
  obtain ⟨v, h1, r, h2, v5, ⟨rec, h3, v2, h4, v3, h5, v4, h6, port, h7, h8⟩, y, h9, out, h10, rfl⟩ := e
  obtain ⟨a1, a2, a3⟩ := setF_plain hp (hn _ (by simp)) h1
  have m := hg _ _ _ _ a1 h2
  obtain ⟨b1, b2, b3⟩ := setF_plain m (hn _ (by simp)) h4
  obtain ⟨c1, c2, c3⟩ := setF_plain b1 (hn _ (by simp)) h5
  obtain ⟨d1, d2, d3⟩ := setF_plain c1 (hn _ (by simp)) h6
  obtain ⟨e1, e2, e3⟩ := setF_plain d1 (hn _ (by simp)) h8
  rw [getF_plain m hr] at h3
  rw [getF_plain d1 hr'] at h7
  simp only [List.mem_cons, List.not_mem_nil, or_false, not_or] at hd
  refine ⟨v, r, { p with phv := v5, data := r.rest, exit := false }, y, out, port, rec, a1, a2, a3, h2, ?_, h3, rfl, rfl, rfl,
    b2.trans (c2.trans (d2.trans e2)), fun s => ?_, h9, h10, rfl⟩
  · rw [d3, if_neg hd.2.2, c3, if_neg hd.2.1, b3, if_neg hd.1] at h7
    exact h7
  · show mval v5 s = _
    unfold Md.put
    rw [e3 s, d3 s, c3 s, b3 s]

end Bm.Targets

namespace Bm.Targets.Ex

open Bm.SSwitch Bm.SSwitch.Ex Bm.Targets.Spec

/-- A program: the parser takes a byte; pipelines that are given. -/
def g (ingress egress : Pkt → Option Pkt) : Prog :=
  { rz := false, parser := fun d _ p => some ⟨p, 0, false, d.drop 1⟩, ingress, egress,
    deparser := fun p d => some (p, 7 :: d) }

/-- Fields of standard metadata of the example. -/
def n : L2Names := { ingressPort := (0, 0), egressPort := (0, 4), learnId := (0, 5), mgid := (0, 6) }

/-- Group 1 has ports 1, 2, 3. -/
def group (m : Nat) : Option (List Nat) := some (if m = 1 then [1, 2, 3] else [])

/-- A pipeline that writes a field. -/
def put (r : Ref) (v : Int) (p : Pkt) : Option Pkt := do return { p with phv := ← setF false p.phv r v }

/-- A pipeline that keeps in the user field which port the metadata name. -/
def mark (p : Pkt) : Option Pkt := do put (0, 7) (← getF false p.phv (0, 4)) p

/-- What is seen: port, bytes, user field. -/
def seen (q : Pkt) : Nat × Bytes × Option Int := (q.ePort, q.data, mval q.phv (0, 7))

/-- The world with a header vector in the pool. -/
def w (p : Phv) : World := ⟨0, 0, p, fun _ => 0⟩

/-- As `p0`, with 511 in `egress_port` and `egress_spec`: what a dropped packet leaves. -/
def used : Phv := ((setF false p0 (0, 4) 511).bind fun p => setF false p (0, 3) 511).getD p0

theorem plain {r : Ref} (h : r ∈ names.all) : Plain p0 r := std.plain r h

theorem made_used : Made p0 used := by
  unfold used
  cases h : setF false p0 (0, 4) 511 with
  | none => exact std.made
  | some p =>
    have h1 := (setF_plain std.made (plain (r := (0, 4)) (by decide)) h).1
    simp only [Option.bind_some]
    cases h' : setF false p (0, 3) 511 with
    | none => exact std.made
    | some p' => exact (setF_plain h1 (plain (r := (0, 3)) (by decide)) h').1

/-- The hypotheses of `C87_l2_partial` hold: a packet for group 1 from port 2, with something to learn, is learned and
goes to ports 1 and 3. -/
theorem C87_l2_case : (∀ r ∈ [n.egressPort, n.learnId, n.mgid], Plain p0 r) ∧ Made p0 used ∧
    (l2 (g (fun p => (put (0, 5) 4 p).bind (put (0, 6) 1)) some) n group (w p0) (fun _ => w used) 2 [8, 9]).map
      (fun r => (r.1.map (·.1), r.2.map seen)) =
      some (some 4, [(1, [7, 9], some 0), (3, [7, 9], some 0)]) ∧
    (l2 (g (put (0, 4) 6) some) n group (w p0) (fun _ => w used) 2 [8, 9]).map
      (fun r => (r.1.map (·.1), r.2.map seen)) = some (none, [(6, [7, 9], some 0)]) :=
  ⟨fun r hr => plain (by revert r; decide), made_used, by decide +kernel, by decide +kernel⟩

/-- The hypotheses of `C87_router_partial` hold, with a packet sent to port 6 whose number is in the metadata. -/
theorem C87_router_case : Plain p0 (0, 3) ∧ Plain p0 (0, 4) ∧
    (router (g (put (0, 3) 6) mark) (0, 3) (0, 4) (w p0) 2 [8, 9]).map (·.map seen) =
      some [(6, [7, 9], some 6)] ∧
    (router (g (put (0, 3) 511) mark) (0, 3) (0, 4) (w p0) 2 [8, 9]).map (·.map seen) = some [] :=
  ⟨plain (by decide), plain (by decide), by decide +kernel, by decide +kernel⟩

/-- Names for `pna_nic`. -/
def pn : PnaNames :=
  { parserRecirculated := (0, 0), parserPort := (0, 1), timestamp := (0, 2), recirculated := (0, 3),
    parserError := (0, 4), classOfService := (0, 5), inputPort := (0, 6) }

/-- The hypotheses of `C87_pna_receive` and `C87_pna_main` hold. -/
theorem C87_pna_case : (∀ r ∈ [pn.timestamp, pn.recirculated, pn.parserError, pn.classOfService, pn.inputPort,
      pn.parserPort, pn.parserRecirculated], Plain p0 r) ∧
      pn.parserPort ∉ [pn.recirculated, pn.parserError, pn.classOfService] ∧
    ((pnaReceive (g some some) pn (w used) 9 [1, 2, 3]).bind
      (pnaMain (g (fun p => some { p with ePort := 4, exit := true }) some) pn 77)).map
      (fun q => (q.ePort, q.data, q.exit, [0, 1, 2, 3, 4, 5, 6].map fun i => mval q.phv (0, i))) =
      some (4, [7, 2, 3], false, [some 0, some 9, some 77, some 0, some 0, some 0, some 9]) :=
  ⟨fun r hr => plain (by revert r; decide), by decide, by decide +kernel⟩

/-- `l2_switch` and `simple_router` do not depend only on the packet: the program below chooses no port; the packet is
sent or dropped according to what the packet before left in the metadata. -/
theorem C87_refuted_stale : Made p0 p0 ∧ Made p0 used ∧
    (l2 (g some some) n group (w p0) (fun _ => w p0) 2 [8, 9]).map (fun r => r.2.map seen) =
      some [(0, [7, 9], some 0)] ∧
    (l2 (g some some) n group (w used) (fun _ => w p0) 2 [8, 9]).map (fun r => r.2.map seen) = some [] ∧
    (router (g some some) (0, 3) (0, 4) (w p0) 2 [8, 9]).map (·.map seen) = some [(0, [7, 9], some 0)] ∧
    (router (g some some) (0, 3) (0, 4) (w used) 2 [8, 9]).map (·.map seen) = some [] :=
  ⟨std.made, made_used, by decide +kernel, by decide +kernel, by decide +kernel, by decide +kernel⟩

/-- A packet on which the program called `exit` in ingress is sent without the egress pipeline (here it would set the
user field to 5), but copies of it for a group get it. -/
theorem C87_refuted_exit :
    (l2 (g (fun p => some { p with exit := true }) (put (0, 7) 5)) n group (w p0) (fun _ => w p0) 2 [8, 9]).map
      (fun r => r.2.map seen) = some [(0, [7, 9], some 0)] ∧
    (l2 (g (fun p => put (0, 6) 1 { p with exit := true }) (put (0, 7) 5)) n group (w p0) (fun _ => w p0) 2 [8, 9]).map
      (fun r => r.2.map seen) = some [(1, [7, 9], some 5), (3, [7, 9], some 5)] ∧
    (router (g (fun p => some { p with exit := true }) (put (0, 7) 5)) (0, 3) (0, 4) (w p0) 2 [8, 9]).map (·.map seen) =
      some [(0, [7, 9], some 0)] :=
  ⟨by decide +kernel, by decide +kernel, by decide +kernel⟩

/-- A group other than 1 stops `l2_switch`, whatever the group has. -/
theorem C87_refuted_group (grp : Nat → Option (List Nat)) :
    l2 (g (put (0, 6) 2) some) n grp (w p0) (fun _ => w p0) 2 [8, 9] = none := by
  have h : ∀ p, l2Out (g (put (0, 6) 2) some) n grp (fun _ => w p0) 0 2 p = none := fun p => by
    simp [l2Out]
  have h2 : (((setF false p0 (0, 0) 2).bind fun v =>
      parseApply (g (put (0, 6) 2) some) { newPacket (w p0) 2 [8, 9] with phv := v }).bind fun p =>
        l2Read (g (put (0, 6) 2) some) n p.phv) = some (0, 0, 2) := by decide +kernel
  simp only [Option.bind_eq_some_iff] at h2
  obtain ⟨p, ⟨v, h3, h4⟩, h5⟩ := h2
  unfold l2
  have h3' : setF (g (put (0, 6) 2) some).rz (newPacket (w p0) 2 [8, 9]).phv n.ingressPort ((2 : Nat) : Int) = some v := h3
  simp only [Option.bind_eq_bind, h3', Option.bind_some, h4]
  unfold l2End
  simp only [Option.bind_eq_bind, h5, Option.bind_some, h]
  cases l2Learn (g (put (0, 6) 2) some) n 0 p <;> rfl

/-- In the egress pipeline the copies for a group do not have their port in `egress_port` (the pipeline copies it to
the user field). -/
theorem C87_refuted_port :
    (l2 (g (put (0, 6) 1) mark) n group (w p0) (fun _ => w p0) 2 [8, 9]).map (fun r => r.2.map seen) =
      some [(1, [7, 9], some 0), (3, [7, 9], some 0)] := by decide +kernel

/-- `pna_nic` sends a packet for which the program does not decide anything, to port 0. -/
theorem C87_pna_default :
    ((pnaReceive (g some some) pn (w p0) 9 [1, 2, 3]).bind (pnaMain (g some some) pn 77)).map
      (fun q => (q.ePort, q.data)) = some (0, [7, 2, 3]) := by decide +kernel

end Bm.Targets.Ex
