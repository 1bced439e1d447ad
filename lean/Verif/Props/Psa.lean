import Verif.Lemmas.Psa
import Verif.Props.SimpleSwitch

/-!
# The decisions of `psa_switch`
-/

namespace Bm.Psa
open Bm.SSwitch

variable {c : Cfg} {p0 : Phv}

/-- **C68**.  What becomes of a packet in ingress.  The parser sees the packet as queued, with the time.  The pipeline
sees the result of the parser, with port and path of the packet and the error of the parser; drop is set, and neither
clone nor resubmission nor a group nor a class of service.  Then: if the program asked for a clone and the session
exists, copies of the packet as before parsing, with metadata that are zero but for the path, leave for the group and
the port of the session, also when the packet is dropped; drop goes before resubmission, resubmission before the
group, the group before the port. -/
theorem C68 (hc : Std c p0) {pipe : Pkt → Option Pkt} (hp : Keeps p0 pipe) {w : World} {oc o : Oracle} {p : Pkt}
    (hoc : ∀ i, Made p0 (oc i).stale) (ho : ∀ i, Made p0 (o i).stale) (m : Made p0 p.phv) {es : List Eff}
    (e : ingress c pipe w oc o p = some es) :
    ∃ phv r phv' q clones rest, es = clones ++ rest ∧
      (SameHeaders p.phv phv ∧ mval phv = ingressParserMd c p0 w (mval p.phv)) ∧
      c.iParser p.data p.trunc phv = some r ∧
      (Made p0 phv' ∧ SameHeaders r.phv phv' ∧ mval phv' = ingressMd c p0 r.error (mval r.phv)) ∧
      pipe { p with phv := phv', data := r.rest } = some q ∧ Made p0 q.phv ∧
      Clones c p0 q.phv c.names.ioClone c.names.ioSession 3
        { inPort := q.inPort, inLen := q.inLen, data := p.data, size := p.regs lenReg, headers := (oc 0).stale,
          md := (zero p0).put p0 c.names.epPath 3 } clones ∧
      IFate c p0 q p.data rest := by
  simp only [ingress, Option.bind_eq_bind] at e
  obtain ⟨phv, h1, e⟩ := Option.bind_eq_some_iff.1 e
  obtain ⟨r, h2, e⟩ := Option.bind_eq_some_iff.1 e
  obtain ⟨phv', h3, e⟩ := Option.bind_eq_some_iff.1 e
  obtain ⟨q, h4, e⟩ := Option.bind_eq_some_iff.1 e
  obtain ⟨a1, a2, a3⟩ := put_name hc m (hc.at 4 rfl) h1
  obtain ⟨b1, b2, b3⟩ := ingressSetup_spec hc (hc.iParser _ _ _ _ a1 h2) h3
  obtain ⟨mq, _⟩ := hp _ _ b1 h4
  simp only [ingressEnd, Option.bind_eq_bind] at e
  obtain ⟨v, g1, e⟩ := Option.bind_eq_some_iff.1 e
  obtain ⟨cos, g2, e⟩ := Option.bind_eq_some_iff.1 e
  obtain ⟨clones, g3, e⟩ := Option.bind_eq_some_iff.1 e
  obtain ⟨rest, g4, e⟩ := Option.bind_eq_some_iff.1 e
  cases e
  have hcos := reads hc mq (hc.at 6 rfl) g1 g2
  have k1 := ingressClone_spec hc (p := { q with exit := false }) hoc mq g3
  have k2 := ingressRest_spec hc (p := { q with exit := false }) ho mq hcos g4
  refine ⟨phv, r, phv', q, clones, rest, rfl, ⟨a2, a3⟩, h2, ⟨b1, b2, b3⟩, h4, mq, k1, ?_⟩
  -- the exit flag is no matter
  cases k2 with
  | drop n x1 x2 => exact .drop n x1 x2
  | resubmit n y x1 x2 x3 x4 x5 => exact .resubmit n y x1 x2 x3 x4 x5
  | multicast phv bytes mgid cos outs _ x1 x2 x3 x4 x5 x6 x7 =>
    exact .multicast phv bytes mgid cos outs _ x1 x2 x3 x4 x5 x6 x7
  | unicast phv bytes port cos y x1 x2 x3 x4 x5 x6 x7 x8 x9 =>
    exact .unicast phv bytes port cos y x1 x2 x3 x4 x5 x6 x7 x8 x9

/-- **C68**, a program that decides nothing: the packet is dropped. -/
theorem C68_default (hc : Std c p0) (hw : 0 < width p0 c.names.ioDrop) {pipe : Pkt → Option Pkt}
    (hp : Keeps p0 pipe) (hn : ∀ q q', pipe q = some q' → mval q'.phv c.names.ioDrop = mval q.phv c.names.ioDrop ∧
      mval q'.phv c.names.ioClone = mval q.phv c.names.ioClone) {w : World} {oc o : Oracle} {p : Pkt}
    (hoc : ∀ i, Made p0 (oc i).stale) (ho : ∀ i, Made p0 (o i).stale) (m : Made p0 p.phv) {es : List Eff}
    (e : ingress c pipe w oc o p = some es) : es = [] := by
  obtain ⟨phv, r, phv', q, clones, rest, h1, _, _, ⟨_, _, h2⟩, h3, _, h4, h5⟩ := C68 hc hp hoc ho m e
  obtain ⟨k1, k2⟩ := hn _ _ h3
  simp only [h2] at k1 k2
  have hcl : clones = [] := h4.1 (by
    unfold Reads
    rw [k2]
    unfold ingressMd
    simp)
  have hs : stored p0 c.names.ioDrop 1 = 1 := by
    unfold stored
    refine Int.emod_eq_of_lt (by decide) ?_
    have : (2 : Int) ^ 1 ≤ 2 ^ width p0 c.names.ioDrop := by
      exact_mod_cast Nat.pow_le_pow_right (by decide) hw
    omega
  have hd : ¬ Reads q.phv c.names.ioDrop 0 := by
    unfold Reads
    rw [k1]
    unfold ingressMd
    have n1 : c.names.ioDrop ≠ c.names.ioCos := hc.ne 9 6 rfl rfl (by decide)
    have n2 : c.names.ioDrop ≠ c.names.ioClone := hc.ne 9 7 rfl rfl (by decide)
    have n3 : c.names.ioDrop ≠ c.names.ioResubmit := hc.ne 9 10 rfl rfl (by decide)
    have n4 : c.names.ioDrop ≠ c.names.ioGroup := hc.ne 9 11 rfl rfl (by decide)
    simp [n1, n2, n3, n4, hs]
  rw [h1, hcl]
  cases h5 with
  | drop => rfl
  | resubmit _ _ x => exact absurd x hd
  | multicast _ _ _ _ _ _ x => exact absurd x hd
  | unicast _ _ _ _ _ x => exact absurd x hd

/-- **C69**.  What becomes of a packet in egress.  The parser starts with no valid header, with the metadata that
ingress left, port and time.  The pipeline sees the result of the parser, with port and path of the packet and the
error of the parser, neither drop nor clone.  The packet is deparsed.  Then: if the program asked for a clone and the
session exists, copies of the packet as deparsed leave for the group and the port of the session, also when the packet
is dropped; drop goes before recirculation; a packet in the queue of the recirculation port goes back to ingress with a
clean header vector; all others are transmitted, on the port of the queue. -/
theorem C69 (hc : Std c p0) {pipe : Pkt → Option Pkt} (hp : Keeps p0 pipe) {w : World} {o : Oracle} {port : Nat}
    {p : Pkt} (ho : ∀ i, Made p0 (o i).stale) (m : Made p0 p.phv) {es : List Eff}
    (e : egress c pipe w o port p = some es) :
    ∃ phv r phv' q phv'' phvd bytes clones rest, es = clones ++ rest ∧
      (NoHeaders phv ∧ phv.hstacks = p.phv.hstacks ∧ phv.unionStacks = p.phv.unionStacks ∧
        MdIs p0 phv (egressParserMd c p0 w port (mval p.phv))) ∧
      c.eParser p.data p.trunc phv = some r ∧
      (SameHeaders r.phv phv' ∧ mval phv' = egressMd c p0 r.error (mval r.phv)) ∧
      pipe { p with phv := phv', data := r.rest } = some q ∧
      (SameHeaders q.phv phv'' ∧ mval phv'' = fun x => if x = c.names.edPort then
        (mval q.phv c.names.epPort).map (stored p0 c.names.edPort) else mval q.phv x) ∧
      c.eDeparser phv'' q.data = some (phvd, bytes) ∧ Made p0 phvd ∧
      Clones c p0 phvd c.names.eoClone c.names.eoSession 4
        { inPort := q.inPort, inLen := q.inLen, data := bytes, size := (o 0).regs lenReg, headers := (o 0).stale,
          md := (zero p0).put p0 c.names.epPath 4 } clones ∧
      EFate c p0 port q phvd bytes rest := by
  simp only [egress, Option.bind_eq_bind] at e
  obtain ⟨phv, h1, e⟩ := Option.bind_eq_some_iff.1 e
  obtain ⟨r, h2, e⟩ := Option.bind_eq_some_iff.1 e
  obtain ⟨phv', h3, e⟩ := Option.bind_eq_some_iff.1 e
  obtain ⟨q, h4, e⟩ := Option.bind_eq_some_iff.1 e
  obtain ⟨a1, a2⟩ := egressEnter_spec hc m h1
  obtain ⟨b1, b2, b3⟩ := egressSetup_spec hc (hc.eParser _ _ _ _ a1 h2) h3
  obtain ⟨mq, _⟩ := hp _ _ b1 h4
  simp only [egressEnd, Option.bind_eq_bind] at e
  obtain ⟨phv'', g1, e⟩ := Option.bind_eq_some_iff.1 e
  obtain ⟨⟨phvd, bytes⟩, g2, e⟩ := Option.bind_eq_some_iff.1 e
  obtain ⟨clones, g3, e⟩ := Option.bind_eq_some_iff.1 e
  obtain ⟨rest, g4, e⟩ := Option.bind_eq_some_iff.1 e
  cases e
  obtain ⟨d1, d2, d3⟩ := copyF_name hc mq (hc.at 24 rfl) (hc.at 13 rfl) g1
  have md := hc.eDeparser _ _ _ d1 g2
  have k1 := egressClone_spec hc (p := { q with phv := phvd, data := bytes, exit := false }) ho md g3
  have k2 := egressRest_spec hc (p := { q with phv := phvd, data := bytes, exit := false }) md g4
  refine ⟨phv, r, phv', q, phv'', phvd, bytes, clones, rest, rfl, a2, h2, ⟨b2, b3⟩, h4, ⟨d2, d3⟩, g2, md, k1, ?_⟩
  cases k2 with
  | drop n x1 x2 => exact .drop n x1 x2
  | recirculate y x1 x2 x3 x4 x5 => exact .recirculate y x1 x2 x3 x4 x5
  | transmit y x1 x2 x3 => exact .transmit y x1 x2 x3

/-! ## Clean starts -/

theorem receive_spec (hc : Std c p0) {w : World} {port : Nat} {data : Bytes} {p : Pkt} (m : Made p0 w.stale)
    (e : receive c w port data = some p) :
    p.trunc = noTrunc ∧ Is p0 p
      { inPort := port, inLen := data.length, data, size := BitVec.ofNat 64 data.length, headers := w.stale,
        md := ((zero p0).put p0 c.names.ipPath 0).put p0 c.names.ipPort (port : Nat) } := by
  simp only [receive, Option.bind_eq_bind] at e
  obtain ⟨q1, f1, e⟩ := Option.bind_eq_some_iff.1 e
  obtain ⟨q2, f2, e⟩ := Option.bind_eq_some_iff.1 e
  obtain ⟨q3, f3, e⟩ := Option.bind_eq_some_iff.1 e
  cases e
  obtain ⟨m1, s1, e1⟩ := reset_spec m f1
  obtain ⟨m2, s2, e2⟩ := put_name hc m1 (hc.at 1 rfl) f2
  obtain ⟨m3, s3, e3⟩ := put_name hc m2 (hc.at 0 rfl) f3
  refine ⟨rfl, rfl, rfl, rfl, size_new w.regs _, s1.trans (s2.trans s3), fun r _ => ?_, m3⟩
  simp only
  rw [e3, e2, funext e1]
  rfl

/-- What is so of all packets. -/
def Ok (c : Cfg) (p0 : Phv) (clean : Bool) (p : Pkt) : Option Nat → Prop
  | none => Made p0 p.phv ∧ (clean = true → Clean p.phv ∧
      ((mval p.phv c.names.ipPath = some (stored p0 c.names.ipPath 6) ∧
          mval p.phv c.names.ipPort = some (stored p0 c.names.ipPort (recirculatePort : Nat))) ∨
        ∃ k ∈ [(0 : Int), 5], mval p.phv c.names.ipPath = some (stored p0 c.names.ipPath k) ∧
          mval p.phv c.names.ipPort = some (stored p0 c.names.ipPort (p.inPort : Nat))))
  | some _ => Made p0 p.phv ∧ ∃ k ∈ [(1 : Int), 2, 3, 4], mval p.phv c.names.epPath = some (stored p0 c.names.epPath k)

theorem copyMd_path {cos rid : Nat} {path : Int} {m : Md} :
    copyMd c p0 cos rid path m c.names.epPath = some (stored p0 c.names.epPath path) := by
  unfold copyMd
  exact put_self

theorem Mirrors.goes (hc : Std c p0) {s : Session} {path : Int} {x : Content} {es : List Eff}
    (h : Mirrors c p0 s path x es) (hx : x.md c.names.epPath = some (stored p0 c.names.epPath path)) {e : Eff}
    (he : e ∈ es) : ∃ port q, e = .enqueue port q ∧ Made p0 q.phv ∧
      mval q.phv c.names.epPath = some (stored p0 c.names.epPath path) := by
  have hv := hc.visible _ (hc.at 14 rfl)
  obtain ⟨outs, em, eu, rfl, h1, h2, h3, h4⟩ := h
  rcases List.mem_append.1 he with he | he
  · cases hg : s.mgid with
    | none => rw [(h1 hg).2] at he; cases he
    | some g =>
      obtain ⟨_, k⟩ := h2 g hg
      obtain ⟨i, hi⟩ := List.mem_iff_getElem?.1 he
      obtain ⟨hlt, hi⟩ := List.getElem?_eq_some_iff.1 hi
      rw [List.forall₂_iff_get] at k
      obtain ⟨q, k1, k2, k3, k4⟩ := k.2 i (by rw [k.1]; exact hlt) hlt
      refine ⟨_, q, by rw [← hi]; exact k1, k4.made, ?_⟩
      rw [k4.md _ hv]
      exact copyMd_path
  · cases hp : s.port with
    | none => rw [h3 hp] at he; cases he
    | some port =>
      obtain ⟨q, k1, k2, k3, k4⟩ := h4 port hp
      rw [k1] at he
      refine ⟨port, q, List.mem_singleton.1 he, k4.made, ?_⟩
      rw [k4.md _ hv]
      simp only
      unfold leftMd
      cases outs.getLast? with
      | none => exact hx
      | some out => exact copyMd_path

theorem Clones.goes (hc : Std c p0) {p : Phv} {flag sess : Ref} {path : Int} {x : Content} {es : List Eff}
    (hf : ∃ n, Reads p flag n) (h : Clones c p0 p flag sess path x es)
    (hx : x.md c.names.epPath = some (stored p0 c.names.epPath path)) {e : Eff}
    (he : e ∈ es) : ∃ port q, e = .enqueue port q ∧ Made p0 q.phv ∧
      mval q.phv c.names.epPath = some (stored p0 c.names.epPath path) := by
  obtain ⟨n, hn⟩ := hf
  by_cases h0 : n = 0
  · subst h0
    rw [h.1 hn] at he
    cases he
  · obtain ⟨id, _, k1, k2⟩ := h.2 n h0 hn
    cases hs : c.session id with
    | none => rw [k1 hs] at he; cases he
    | some s => exact Mirrors.goes hc (k2 s hs) hx he

theorem inFlight_ok (hc : Std c p0) {IP : (Pkt → Option Pkt) → Prop} {b : Bool} (hip : ∀ pipe, IP pipe → Keeps p0 pipe)
    (hb : b = true → ∀ pipe, IP pipe → ∀ q q', Made p0 q.phv → pipe q = some q' →
      Reads q'.phv c.names.ioResubmit 0)
    {dst : Option Nat} {p : Pkt} (h : InFlight c p0 IP (Keeps p0) dst p) : Ok c p0 b p dst := by
  induction h with
  | @arrive w port data p hw e =>
    obtain ⟨_, k⟩ := receive_spec hc hw.1 e
    refine ⟨k.made, fun _ => ⟨hw.2.same hw.1 k.made k.headers, .inr ⟨0, by simp, ?_, ?_⟩⟩⟩
    · rw [k.md _ (hc.visible _ (hc.at 1 rfl))]
      simp only
      rw [put_ne (hc.ne 1 0 rfl rfl (by decide)), put_self]
    · rw [k.md _ (hc.visible _ (hc.at 0 rfl))]
      simp only
      rw [put_self, k.inPort]
  | @ingress p q pipe w oc o es e dst _ hp hoc ho e1 he hgo ih =>
    obtain ⟨phv, r, phv', y, clones, rest, rfl, ⟨s1, md1⟩, e2, ⟨mi, s2, md2⟩, e3, my, k1, k2⟩ :=
      C68 hc (hip _ hp) (fun i => (hoc i).1) (fun i => (ho i).1) ih.1 e1
    rcases List.mem_append.1 he with he | he
    · obtain ⟨port, q', rfl, mq, hq⟩ := Clones.goes hc (mval_nat hc my (hc.at 7 rfl)) k1 put_self he
      cases hgo
      exact ⟨mq, 3, by simp, hq⟩
    · cases k2 with
      | drop => cases he
      | resubmit n y' x1 x2 x3 x4 x5 =>
        rcases List.mem_singleton.1 he with rfl
        cases hgo
        refine ⟨x5.made, fun hbt => absurd (reads_inj x2 (hb hbt _ hp _ _ mi e3)) x3⟩
      | multicast phv bytes mgid cos outs _ x1 x2 x3 x4 x5 x6 x7 =>
        obtain ⟨_, k⟩ := x7
        obtain ⟨i, hi⟩ := List.mem_iff_getElem?.1 he
        obtain ⟨hlt, hi⟩ := List.getElem?_eq_some_iff.1 hi
        rw [List.forall₂_iff_get] at k
        obtain ⟨z, k1, k2, k3, k4⟩ := k.2 i (by rw [k.1]; exact hlt) hlt
        simp only [List.get_eq_getElem, hi] at k1
        subst k1
        cases hgo
        refine ⟨k4.made, 2, by simp, ?_⟩
        rw [k4.md _ (hc.visible _ (hc.at 14 rfl))]
        exact copyMd_path
      | unicast phv bytes port cos y' x1 x2 x3 x4 x5 x6 x7 x8 x9 =>
        rcases List.mem_singleton.1 he with rfl
        cases hgo
        refine ⟨x9.made, 1, by simp, ?_⟩
        rw [x9.md _ (hc.visible _ (hc.at 14 rfl))]
        exact copyMd_path
  | @egress p q port pipe w o es e dst _ hp ho e1 he hgo ih =>
    obtain ⟨phv, r, phv', y, phv'', phvd, bytes, clones, rest, rfl, _, e2, _, e3, _, e4, my, k1, k2⟩ :=
      C69 hc hp (fun i => (ho i).1) ih.1 e1
    rcases List.mem_append.1 he with he | he
    · obtain ⟨port, q', rfl, mq, hq⟩ := Clones.goes hc (mval_nat hc my (hc.at 21 rfl)) k1 put_self he
      cases hgo
      exact ⟨mq, 4, by simp, hq⟩
    · cases k2 with
      | drop => cases he
      | recirculate y' x1 x2 x3 x4 x5 =>
        rcases List.mem_singleton.1 he with rfl
        cases hgo
        refine ⟨x5.made, fun _ => ⟨x3, .inl ⟨?_, ?_⟩⟩⟩
        · rw [x5.md _ (hc.visible _ (hc.at 1 rfl))]
          simp only [content]
          rw [put_self]
        · rw [x5.md _ (hc.visible _ (hc.at 0 rfl))]
          simp only [content]
          rw [put_ne (hc.ne 0 1 rfl rfl (by decide)), put_self]
      | transmit y' x1 x2 x3 =>
        rcases List.mem_singleton.1 he with rfl
        cases hgo

/-- The ingress parser changes nothing before it starts. -/
theorem starts_none (hc : Std c p0) {p : Pkt} (h : Ok c p0 true p none) : Starts c p0 p none := by
  intro w phv e
  obtain ⟨m, h⟩ := h
  obtain ⟨hcl, h⟩ := h rfl
  obtain ⟨a1, a2, a3⟩ := put_name hc m (hc.at 4 rfl) e
  have n1 : mval phv c.names.ipPath = mval p.phv c.names.ipPath := by
    rw [a3, put_ne (hc.ne 1 4 rfl rfl (by decide))]
  have n2 : mval phv c.names.ipPort = mval p.phv c.names.ipPort := by
    rw [a3, put_ne (hc.ne 0 4 rfl rfl (by decide))]
  rw [n1, n2]
  exact ⟨hcl.same m a1 a2, h⟩

/-- What the egress parser finds, in all programs. -/
theorem starts_some (hc : Std c p0) {b : Bool} {p : Pkt} {port : Nat} (h : Ok c p0 b p (some port)) {w : World}
    {phv : Phv} (e : egressEnter c w port p = some phv) :
    Made p0 phv ∧ NoHeaders phv ∧ mval phv c.names.epPort = some (stored p0 c.names.epPort (port : Nat)) ∧
      ∃ k ∈ [(1 : Int), 2, 3, 4], mval phv c.names.epPath = some (stored p0 c.names.epPath k) := by
  obtain ⟨m, k, hk, h⟩ := h
  obtain ⟨a1, a2, _, _, a3⟩ := egressEnter_spec hc m e
  refine ⟨a1, a2, ?_, k, hk, ?_⟩
  · rw [a3 _ (hc.visible _ (hc.at 13 rfl))]
    unfold egressParserMd
    rw [put_ne (hc.ne 13 19 rfl rfl (by decide)), put_self]
  · rw [a3 _ (hc.visible _ (hc.at 14 rfl))]
    unfold egressParserMd
    rw [put_ne (hc.ne 14 19 rfl rfl (by decide)), put_ne (hc.ne 14 13 rfl rfl (by decide)), h]

/-- A program without stacks. -/
theorem no_stacks (h : p0.hstacks = [] ∧ p0.unionStacks = []) {p : Phv} (m : Made p0 p) :
    p.hstacks = [] ∧ p.unionStacks = [] := by
  have h1 := m.layout.hstacks
  have h2 := m.layout.unionStacks
  rw [h.1] at h1
  rw [h.2] at h2
  exact ⟨List.map_eq_nil_iff.1 h1, List.map_eq_nil_iff.1 h2⟩

/-- **C70** for programs without header stacks that do not resubmit.  In every run, each time a parser starts, no
header is valid; metadata tell the ingress parser the port on which the packet arrived, or that it was recirculated,
and the egress parser the port of the queue and one of the four ways to get there.

In full the claim is `CleanStarts false false`.  The code does not keep it: `C70_stacks`, `C70_resubmit`. -/
theorem C70_partial : CleanStarts true true := by
  intro c p0 hc hs dst p h
  have ok := inFlight_ok hc (b := true) (fun _ h => h.1) (fun _ _ h => h.2 rfl) h
  cases dst with
  | none => exact starts_none hc ok
  | some port =>
    intro w phv e
    obtain ⟨m, k1, k2, k3⟩ := starts_some hc ok e
    obtain ⟨s1, s2⟩ := no_stacks (hs rfl) m
    refine ⟨⟨k1, ?_, ?_⟩, k2, k3⟩
    · rw [s1]; intro s h; cases h
    · rw [s2]; intro s h; cases h

/-- **C70**, what holds in all programs: the egress parser starts with no valid header, and is told the port of the
queue and one of the four ways. -/
theorem C70_egress_partial (hc : Std c p0) {port : Nat} {p : Pkt}
    (h : InFlight c p0 (Keeps p0) (Keeps p0) (some port) p) {w : World} {phv : Phv}
    (e : egressEnter c w port p = some phv) :
    NoHeaders phv ∧ mval phv c.names.epPort = some (stored p0 c.names.epPort (port : Nat)) ∧
      ∃ k ∈ [(1 : Int), 2, 3, 4], mval phv c.names.epPath = some (stored p0 c.names.epPath k) :=
  (starts_some hc (inFlight_ok hc (b := false) (fun _ h => h) (fun h => by cases h) h) e).2

end Bm.Psa

namespace Bm.Psa.Ex
open Bm.SSwitch Bm.Spec

/-- A field of `n` bits. -/
def fld (n : Nat) : Field := (Field.mk' n true false false false false).getD ⟨0, 0, [], 0, false, false, false, false, false, 0, 0, 0⟩

/-- The hidden field of a header. -/
def hid : Field := (Field.mk' 1 true false true false false).getD ⟨0, 0, [], 0, false, false, false, false, false, 0, 0, 0⟩

/-- Metadata of the architecture; a header of the packet; a stack of it, if `s`. -/
def p0 (s : Bool) : Phv :=
  { headers := [⟨0, none, List.replicate 25 (fld 32) ++ [hid], false, true, 0⟩,
                ⟨1, none, [fld 8, hid], false, false, 1⟩],
    memb := [none, none], unions := [], hstacks := if s then [⟨[1], 0⟩] else [], unionStacks := [] }

/-- Where the metadata are. -/
def names : Names :=
  { ipPort := (0, 0), ipPath := (0, 1), iiPort := (0, 2), iiPath := (0, 3), iiTime := (0, 4), iiError := (0, 5),
    ioCos := (0, 6), ioClone := (0, 7), ioSession := (0, 8), ioDrop := (0, 9), ioResubmit := (0, 10),
    ioGroup := (0, 11), ioPort := (0, 12), epPort := (0, 13), epPath := (0, 14), eiCos := (0, 15), eiPort := (0, 16),
    eiPath := (0, 17), eiInstance := (0, 18), eiTime := (0, 19), eiError := (0, 20), eoClone := (0, 21),
    eoSession := (0, 22), eoDrop := (0, 23), edPort := (0, 24) }

/-- A parser that takes one byte: the header is valid, and the last of its stack. -/
def parse (d : Bytes) (_ : Nat) (p : Phv) : Option Parsed :=
  (p.updHeader 1 fun h => some { h with valid := true }).map fun p =>
    ⟨{ p with hstacks := p.hstacks.map fun s => { s with next := s.next + 1 } }, 0, false, d.drop 1⟩

/-- Session 5 mirrors to group 3 and to port 7; group 3 has two replicas. -/
def c : Cfg :=
  { rz := false, names, iParser := parse, eParser := parse, iDeparser := fun p d => some (p, 9 :: d),
    eDeparser := fun p d => some (p, 9 :: d),
    session := fun n => if n = 5 then some ⟨some 7, some 3⟩ else none,
    replicate := fun g => some (if g = 3 then [(1, 10), (2, 20)] else []) }

theorem made (s : Bool) : Made (p0 s) (p0 s) := by
  refine made_self fun hd hh hm f hf => ?_
  have h32 : Field.mk' 32 true false false false false = some (fld 32) := by decide +kernel
  have h1 : Field.mk' 1 true false true false false = some hid := by decide +kernel
  rcases List.mem_cons.1 hh with rfl | hh
  · rcases List.mem_append.1 hf with hf | hf
    · rw [List.eq_of_mem_replicate hf]
      exact ⟨32, true, false, false, h32⟩
    · rcases List.mem_singleton.1 hf with rfl
      exact ⟨1, true, false, true, h1⟩
  · rcases List.mem_singleton.1 hh with rfl
    cases hm

theorem made_parse {s : Bool} {d : Bytes} {t : Nat} {p : Phv} {r : Parsed} (m : Made (p0 s) p)
    (h : parse d t p = some r) : Made (p0 s) r.phv := by
  obtain ⟨p', h1, h2⟩ := Option.map_eq_some_iff.1 h
  cases h2
  simp only [Phv.updHeader, Option.bind_eq_bind] at h1
  obtain ⟨b, h3, h4⟩ := Option.bind_eq_some_iff.1 h1
  cases h4
  refine ⟨⟨m.layout.memb, m.layout.unions, ?_, m.layout.unionStacks⟩, by simpa using m.len, ?_⟩
  · rw [← m.layout.hstacks]
    simp [Function.comp_def]
  intro k a b' hk hb
  simp only [List.getElem?_set] at hb
  split at hb
  · rename_i hk1
    split at hb
    · cases hb
      subst hk1
      have g := m.headers 1 a b hk h3
      exact ⟨g.typeId, g.vlOffset, g.metadata, g.len, g.fields, g.ok⟩
    · cases hb
  · exact m.headers k a b' hk hb

theorem std (s : Bool) : Std c (p0 s) := by
  refine ⟨?_, ?_, by decide, fun _ t _ _ m h => made_parse (t := t) m h,
    fun _ t _ _ m h => made_parse (t := t) m h,
    fun p d q m h => by cases h; exact m, fun p d q m h => by cases h; exact m, made s⟩
  · have : ∀ s, ∀ r ∈ names.all, ((mfield (p0 s) r).map fun f => (f.isSigned, f.isSaturating)) =
        some (false, false) := by decide +kernel
    intro r hr
    have := this s r hr
    cases h : mfield (p0 s) r with
    | none => rw [h] at this; cases this
    | some f =>
      rw [h] at this
      simp only [Option.map_some, Option.some.injEq, Prod.mk.injEq] at this
      exact ⟨f, rfl, this⟩
  · have : ∀ s, ∀ r ∈ names.all, ((p0 s).headers[r.1]?).all (fun a => r.2 + 1 ≠ a.fields.length) = true := by
      decide +kernel
    intro r hr a ha
    have := this s r hr
    rw [ha] at this
    simpa using this

/-- A pipeline that writes fields. -/
def writes (l : List (Ref × Int)) (p : Pkt) : Option Pkt := do
  return { p with phv := ← l.foldlM (fun q x => setF false q x.1 x.2) p.phv }

theorem made_writes {s : Bool} : ∀ {l : List (Ref × Int)} {p p' : Phv}, (∀ x ∈ l, x.1 ∈ names.all) →
    Made (p0 s) p → l.foldlM (fun q x => setF false q x.1 x.2) p = some p' → Made (p0 s) p'
  | [], p, p', _, m, e => by cases e; exact m
  | x :: l, p, p', hl, m, e => by
    simp only [List.foldlM_cons, Option.bind_eq_bind] at e
    obtain ⟨p1, h2, h3⟩ := Option.bind_eq_some_iff.1 e
    exact made_writes (fun y hy => hl y (List.mem_cons_of_mem _ hy))
      (put_name (c := c) (std s) m (hl x List.mem_cons_self) h2).1 h3

theorem keeps (s : Bool) (l : List (Ref × Int)) (hl : ∀ x ∈ l, x.1 ∈ names.all) : Keeps (p0 s) (writes l) := by
  intro q q' m e
  simp only [writes, Option.bind_eq_bind] at e
  obtain ⟨phv, h1, e⟩ := Option.bind_eq_some_iff.1 e
  cases e
  exact ⟨made_writes hl m h1, rfl⟩

/-- What is written last is read. -/
theorem reads_last (s : Bool) (l : List (Ref × Int)) (hl : ∀ x ∈ l, x.1 ∈ names.all) {r : Ref} (hr : r ∈ names.all)
    {q q' : Pkt} (m : Made (p0 s) q.phv) (e : writes (l ++ [(r, 0)]) q = some q') : Reads q'.phv r 0 := by
  simp only [writes, Option.bind_eq_bind] at e
  obtain ⟨phv, h1, e⟩ := Option.bind_eq_some_iff.1 e
  cases e
  rw [List.foldlM_append] at h1
  obtain ⟨p1, h2, h3⟩ := Option.bind_eq_some_iff.1 h1
  simp only [List.foldlM_cons, List.foldlM_nil, bind_pure] at h3
  have := (put_name (c := c) (std s) (made_writes hl m h2) hr h3).2.2
  show mval phv r = some 0
  rw [this, put_self, stored_zero]

/-- The outside world. -/
def o (s : Bool) : Oracle := fun _ => ⟨0, 11, p0 s, fun _ => 0⟩

theorem pool (s : Bool) : Pool (p0 s) (p0 s) := by
  refine ⟨made s, fun h hh _ => ?_, fun x hx => ?_, fun x hx => by cases hx⟩
  · have : ∀ s, ∀ h ∈ (p0 s).headers, h.valid = false := by decide +kernel
    exact this s h hh
  · have : ∀ s, ∀ h ∈ (p0 s).hstacks, h.next = 0 := by decide +kernel
    exact this s x hx

/-- What one sees of an effect: kind, port, some metadata, data. -/
structure Seen where
  kind : Nat
  port : Nat
  md : List (Option Int)
  data : Bytes
  deriving DecidableEq

/-- For a packet in a queue: path, class of service, instance; in the input buffer: path and port. -/
def sees : Eff → Seen
  | .enqueue port q => ⟨0, port, [mval q.phv (0, 14), mval q.phv (0, 15), mval q.phv (0, 18)], q.data⟩
  | .resubmit q => ⟨1, 0, [mval q.phv (0, 1), mval q.phv (0, 0)], q.data⟩
  | .recirculate q => ⟨2, 0, [mval q.phv (0, 1), mval q.phv (0, 0)], q.data⟩
  | .transmit q => ⟨3, (transmit q).1, [], (transmit q).2⟩

/-- A packet that arrives on port 2, in ingress. -/
def run (l : List (Ref × Int)) : Option (List Seen) := do
  let p ← receive c (o false 0) 2 [1, 2, 3]
  return (← ingress c (writes l) (o false 0) (o false) (o false) p).map sees

/-- Nothing decided. -/
example : run [] = some [] := by decide +kernel

/-- Unicast with a class of service. -/
example : run [((0, 9), 0), ((0, 6), 4), ((0, 12), 6)] = some [⟨0, 6, [some 1, some 4, some 0], [9, 2, 3]⟩] := by
  decide +kernel

/-- Multicast, though there is a port. -/
example : run [((0, 9), 0), ((0, 11), 3), ((0, 12), 6)] = some [⟨0, 1, [some 2, some 0, some 10], [9, 2, 3]⟩,
    ⟨0, 2, [some 2, some 0, some 20], [9, 2, 3]⟩] := by decide +kernel

/-- Resubmission, though there is a group; the packet is as it arrived.  Its port is lost: 0, not 2. -/
example : run [((0, 9), 0), ((0, 10), 1), ((0, 11), 3)] = some [⟨1, 0, [some 5, some 0], [1, 2, 3]⟩] := by
  decide +kernel

/-- A dropped packet is cloned: to group 3 and to port 7.  The copy for port 7 is no replica, but has the instance of
the last one. -/
example : run [((0, 7), 1), ((0, 8), 5)] = some [⟨0, 1, [some 3, some 0, some 10], [1, 2, 3]⟩,
    ⟨0, 2, [some 3, some 0, some 20], [1, 2, 3]⟩, ⟨0, 7, [some 3, some 0, some 20], [1, 2, 3]⟩] := by decide +kernel

/-- A packet for port `port`, in egress. -/
def run2 (port : Nat) (l : List (Ref × Int)) : Option (List Seen) := do
  let p ← receive c (o false 0) 2 [1, 2, 3]
  let es ← ingress c (writes [((0, 9), 0), ((0, 12), port)]) (o false 0) (o false) (o false) p
  match es with
  | [.enqueue port q] => return (← egress c (writes l) (o false 0) (o false) port q).map sees
  | _ => none

/-- Transmission. -/
example : run2 6 [] = some [⟨3, 6, [], [9, 2, 3]⟩] := by decide +kernel

/-- Recirculation. -/
example : run2 recirculatePort [] = some [⟨2, 0, [some 6, some 0xfffffffa], [9, 2, 3]⟩] := by decide +kernel

/-- Dropped and cloned. -/
example : run2 6 [((0, 23), 1), ((0, 21), 1), ((0, 22), 5)] = some [⟨0, 1, [some 4, some 0, some 10], [9, 2, 3]⟩,
    ⟨0, 2, [some 4, some 0, some 20], [9, 2, 3]⟩, ⟨0, 7, [some 4, some 0, some 20], [9, 2, 3]⟩] := by decide +kernel

/-- The hypotheses of `C68`, `C69` and `C70` hold there. -/
example : Std c (p0 false) ∧ Keeps (p0 false) (writes [((0, 9), 0), ((0, 12), 6)]) ∧
    (∀ i, Pool (p0 false) (o false i).stale) ∧ (p0 false).hstacks = [] ∧ 0 < width (p0 false) c.names.ioDrop :=
  ⟨std _, keeps _ _ (by decide), fun _ => pool _, rfl, by decide +kernel⟩

/-- The packet after the first pass. -/
def first (s : Bool) (l : List (Ref × Int)) : Option (List (Option Nat × Pkt)) := do
  let p ← receive c (o s 0) 2 [1, 2, 3]
  return (← ingress c (writes l) (o s 0) (o s) (o s) p).filterMap Eff.goes

/-- It is in flight. -/
theorem inFlight {s : Bool} {IP : (Pkt → Option Pkt) → Prop} {l : List (Ref × Int)} (hl : IP (writes l))
    {es : List (Option Nat × Pkt)} (e : first s l = some es) {dst : Option Nat} {q : Pkt} (h : (dst, q) ∈ es) :
    InFlight c (p0 s) IP (Keeps (p0 s)) dst q := by
  simp only [first, Option.bind_eq_bind] at e
  obtain ⟨p, h1, e⟩ := Option.bind_eq_some_iff.1 e
  obtain ⟨es', h2, e⟩ := Option.bind_eq_some_iff.1 e
  cases e
  obtain ⟨y, h3, h4⟩ := List.mem_filterMap.1 h
  exact .ingress (.arrive (pool s) h1) hl (fun _ => pool s) (fun _ => pool s) h2 h3 h4

/-- **C70 does not hold for programs with stacks**.  A packet whose header fills a stack in ingress: before the egress
parser starts, headers are made invalid but the stack stays full. -/
theorem C70_stacks : ¬ CleanStarts false true := by
  intro h
  have key : ((first true ([((0, 9), 0), ((0, 12), 6)] ++ [((0, 10), 0)])).bind fun es => es.head?.bind fun x =>
      (egressEnter c (o true 0) 6 x.2).map fun phv => (x.1, phv.hstacks.map (·.next))) = some (some 6, [1]) := by
    decide +kernel
  obtain ⟨es, h1, key⟩ := Option.bind_eq_some_iff.1 key
  obtain ⟨⟨dst, q⟩, h2, key⟩ := Option.bind_eq_some_iff.1 key
  obtain ⟨phv, h3, key⟩ := Option.map_eq_some_iff.1 key
  simp only [Prod.mk.injEq] at key
  obtain ⟨k1, k2⟩ := key
  subst k1
  have hm : (some 6, q) ∈ es := List.mem_of_mem_head? h2
  have hf := inFlight (IP := fun pipe => Keeps (p0 true) pipe ∧
      (true = true → ∀ q q', Made (p0 true) q.phv → pipe q = some q' → Reads q'.phv c.names.ioResubmit 0))
    ⟨keeps true _ (by decide), fun _ q q' m hq => reads_last true _ (by decide) (by decide) m hq⟩ h1 hm
  have hst := (h c (p0 true) (std true) (fun h => by cases h) (some 6) q hf (o true 0) phv h3).1.hstacks
  cases hs : phv.hstacks with
  | nil => rw [hs] at k2; cases k2
  | cons s l =>
    rw [hs] at k2
    simp only [List.map_cons, List.cons.injEq] at k2
    have := hst s (by rw [hs]; exact List.mem_cons_self)
    omega

/-- **C70 does not hold for programs that resubmit**.  The headers of a resubmitted packet stay valid, and it is not
told the port on which it arrived. -/
theorem C70_resubmit : ¬ CleanStarts true false := by
  intro h
  have key : ((first false [((0, 9), 0), ((0, 10), 1)]).bind fun es => es.head?.bind fun x =>
      (ingressEnter c (o false 0) x.2).map fun phv => (x.1, phv.headers.map (fun h => (h.metadata, h.valid)))) =
        some (none, [(true, false), (false, true)]) := by
    decide +kernel
  obtain ⟨es, h1, key⟩ := Option.bind_eq_some_iff.1 key
  obtain ⟨⟨dst, q⟩, h2, key⟩ := Option.bind_eq_some_iff.1 key
  obtain ⟨phv, h3, key⟩ := Option.map_eq_some_iff.1 key
  simp only [Prod.mk.injEq] at key
  obtain ⟨k1, k2⟩ := key
  subst k1
  have hm : (none, q) ∈ es := List.mem_of_mem_head? h2
  have hf := inFlight (IP := fun pipe => Keeps (p0 false) pipe ∧
      (false = true → ∀ q q', Made (p0 false) q.phv → pipe q = some q' → Reads q'.phv c.names.ioResubmit 0))
    ⟨keeps false _ (by decide), fun h => by cases h⟩ h1 hm
  have hst := (h c (p0 false) (std false) (fun _ => ⟨rfl, rfl⟩) none q hf (o false 0) phv h3).1.headers
  have : (false, true) ∈ phv.headers.map (fun h => (h.metadata, h.valid)) := by rw [k2]; decide
  obtain ⟨hd, hh, he⟩ := List.mem_map.1 this
  simp only [Prod.mk.injEq] at he
  have := hst hd hh he.1
  rw [he.2] at this
  cases this

/-- The port: 0 though the packet arrived on port 2. -/
example : ((first false [((0, 9), 0), ((0, 10), 1)]).bind fun es => es.head?.map fun x =>
    (x.1, x.2.inPort, mval x.2.phv c.names.ipPort)) = some (none, 2, some 0) := by decide +kernel

end Bm.Psa.Ex
