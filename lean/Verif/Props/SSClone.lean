import Verif.Props.SSEgress

/-!
# C57: an ingress clone has the headers that were parsed
-/

namespace Bm.SSwitch
open Bm.Spec

variable {c : Cfg} {p0 : Phv}

theorem Has.same {q : Pkt} {x : Content} {h : Phv} (k : SameHeaders h x.headers) (a : Has c q x) :
    Has c q { x with headers := h } :=
  ⟨a.inPort, a.inLen, a.data, a.size, k.trans a.headers, a.md⟩

theorem Unicasts.same {x : Content} {h : Phv} (k : SameHeaders h x.headers) {port : Nat} {es : List Eff}
    (a : Unicasts c x port es) : Unicasts c { x with headers := h } port es := by
  obtain ⟨prio, a1, a2, a3⟩ := a
  refine ⟨prio, a1, fun hp => ?_, a3⟩
  obtain ⟨e, h1, pr, q, h2, h3, h4, h5, h6⟩ := a2 hp
  exact ⟨e, h1, pr, q, h2, h3, h4, h5, h6.same k⟩

theorem Multicasts.same {x : Content} {h : Phv} (k : SameHeaders h x.headers) {g : Nat} {outs : List (Nat × Nat)}
    {es : List Eff} (a : Multicasts c p0 x g outs es) : Multicasts c p0 { x with headers := h } g outs es := by
  obtain ⟨rid, prio, a1, a2, a3, a4, a5⟩ := a
  refine ⟨rid, prio, a1, a2, a3, fun hp => ?_, a5⟩
  refine List.Forall₂.imp (fun out e he => ?_) (a4 hp)
  obtain ⟨⟨pr, q, h2, h3, h4, h5, h6⟩, h7⟩ := he
  exact ⟨⟨pr, q, h2, h3, h4, h5, Has.same (x := { x with md := x.md.put p0 rid (out.2 : Nat) }) k h6⟩, h7⟩

theorem Mirrors.same {x : Content} {h : Phv} (k : SameHeaders h x.headers) {s : Session} {es : List Eff}
    (a : Mirrors c p0 s x es) : Mirrors c p0 s { x with headers := h } es := by
  obtain ⟨outs, em, eu, a1, a2, a3, a4, a5⟩ := a
  refine ⟨outs, em, eu, a1, a2, fun g hg => (a3 g hg).same k, a4, fun port hp => ?_⟩
  obtain ⟨h1, h2⟩ := a5 port hp
  exact ⟨Unicasts.same (x := { x with md := leftRid c p0 outs x.md }) k h1, h2⟩

/-- What the clones of a packet are, given the result of parsing the packet: same headers, same payload, metadata
zero but for the field list and the instance type. -/
def Faithful (c : Cfg) (p0 : Phv) (p : Pkt) (r0 : Parsed) (size : BitVec 64) (es : List Eff) : Prop :=
  let sess := getFlag cloneSession p.regs
  (sess = 0 → es = []) ∧
  (sess ≠ 0 → c.session (sess &&& sessionMask).toNat = none → es = []) ∧
  (sess ≠ 0 → ∀ s, c.session (sess &&& sessionMask).toNat = some s → ∃ list,
    c.fieldLists (getFlag cloneList p.regs).toNat = some list ∧
    Mirrors c p0 s { inPort := p.inPort, inLen := p.inLen, data := r0.rest, size, headers := r0.phv,
                     md := (zeroBut p0 list (mval p.phv)).put p0 c.names.instanceType 1 } es)

/-- The metadata of a packet on arrival. -/
def arrival (c : Cfg) (p0 : Phv) (ts : Int) (port len : Nat) : Md :=
  let m := (((zeroBut p0 [] fun _ => none).put p0 c.names.ingressPort port).put p0 c.names.packetLength len).put p0
    c.names.instanceType 0
  match c.names.ingressTs with
  | none => m
  | some r => m.put p0 r ts

/-- **C58**.  A packet received has metadata that are zero but for ingress port, length and time stamp, no flags,
and headers as in the header vector taken from the pool: nothing else is left of the packets before. -/
theorem C58 (hc : Std c p0) {w : World} (hw : Made p0 w.stale) {port : Nat} {data : Bytes} {p : Pkt}
    (e : receive c w port data = some p) :
    Made p0 p.phv ∧ SameHeaders w.stale p.phv ∧ (∀ r, mval p.phv r = arrival c p0 w.ts port data.length r) ∧
      NoFlags p ∧ p.regs lenReg = BitVec.ofNat 64 data.length ∧ p.inPort = port ∧ p.inLen = data.length ∧
      p.data = data ∧ p.trunc = noTrunc := by
  simp only [receive, Option.bind_eq_bind] at e
  obtain ⟨q1, h1, e1⟩ := Option.bind_eq_some_iff.1 e
  obtain ⟨q2, h2, e2⟩ := Option.bind_eq_some_iff.1 e1
  obtain ⟨q3, h3, e3⟩ := Option.bind_eq_some_iff.1 e2
  obtain ⟨q4, h4, e4⟩ := Option.bind_eq_some_iff.1 e3
  obtain ⟨q5, h5, e5⟩ := Option.bind_eq_some_iff.1 e4
  cases e5
  clear e e1 e2 e3 e4
  obtain ⟨a1, a2, a3⟩ := reset_spec hw h1
  obtain ⟨b1, b2, b3⟩ := setF_plain a1 (hc.plain _ mem_all.1) h2
  obtain ⟨d1, d2, d3⟩ := setF_plain b1 (hc.plain _ mem_all.2.1) h3
  obtain ⟨f1, f2, f3⟩ := setF_plain d1 (hc.plain _ mem_all.2.2.1) h4
  have hsame := (a2.trans b2).trans (d2.trans f2)
  have hmd : ∀ r, mval q4 r = (((zeroBut p0 [] fun _ => none).put p0 c.names.ingressPort port).put p0
      c.names.packetLength data.length).put p0 c.names.instanceType 0 r := by
    intro r
    rw [f3, d3, b3, a3]
    rfl
  have key : Made p0 q5 ∧ SameHeaders w.stale q5 ∧
      ∀ r, mval q5 r = arrival c p0 w.ts port data.length r := by
    cases hts : c.names.ingressTs with
    | none =>
      rw [hts] at h5
      cases h5
      exact ⟨f1, hsame, fun r => by rw [hmd]; simp only [arrival, hts]⟩
    | some t =>
      rw [hts] at h5
      obtain ⟨g1, g2, g3⟩ := setF_plain f1 (hc.plain _ (by unfold Names.all; simp [hts])) h5
      exact ⟨g1, hsame.trans g2, fun r => by rw [g3, hmd]; simp only [arrival, hts]; rfl⟩
  exact ⟨key.1, key.2.1, key.2.2, fun f hf => noFlags_new w.regs _ f hf,
    size_new (clearAll w.regs) _, rfl, rfl, rfl, rfl⟩

/-- Header vectors as they are when taken from the pool: made by the program, headers as in a new one. -/
def Pooled (p0 p : Phv) : Prop := Made p0 p ∧ SameHeaders p0 p

theorem Pooled.same {p p' : Phv} (h : Pooled p0 p) (h' : Pooled p0 p') : SameHeaders p p' := by
  obtain ⟨m, a⟩ := h
  obtain ⟨m', b⟩ := h'
  refine ⟨by rw [b.unions, a.unions], by rw [b.hstacks, a.hstacks], by rw [b.unionStacks, a.unionStacks],
    fun k x hx hm => ?_⟩
  have hk : k < p0.headers.length := by
    rw [← m.len]
    exact (List.getElem?_eq_some_iff.1 hx).1
  have h0 : p0.headers[k]? = some p0.headers[k] := List.getElem?_eq_getElem hk
  have hm0 : p0.headers[k].metadata = false := by rw [← (m.headers k _ _ h0 hx).metadata, hm]
  obtain ⟨y, k1, _, k2, k3⟩ := a.headers k _ h0 hm0
  obtain ⟨z, l1, l2, l3, l4⟩ := b.headers k _ h0 hm0
  rw [hx] at k1
  cases k1
  refine ⟨z, l1, l2, by rw [l3, k2], fun hv => ?_⟩
  rw [k2] at hv
  rw [l4 hv, k3 hv]

/-- The parser looks at no metadata but the ingress port. -/
def PortOnly (c : Cfg) (p0 : Phv) : Prop :=
  ∀ d t p p' r r', Pooled p0 p → Pooled p0 p' → mval p c.names.ingressPort = mval p' c.names.ingressPort →
    c.parser d t p = some r → c.parser d t p' = some r' → SameHeaders r.phv r'.phv ∧ r'.rest = r.rest

/-- **C57**.  Ingress clones have the headers and the payload that parsing gave to the packet, if the parser looks
at no metadata but the ingress port.  (The statement without that condition is refuted below.)  `p` is the packet
as received, `q` the packet after the pipeline. -/
theorem C57_partial (hc : Std c p0) (hpo : PortOnly c p0) {pipe : Pkt → Option Pkt}
    (hpipe : ∀ a b, pipe a = some b → Made p0 a.phv → Made p0 b.phv ∧ b.inPort = a.inPort)
    {w : World} {oc o : Oracle} (hw : Pooled p0 w.stale) (hoc : ∀ i, Pooled p0 (oc i).stale)
    (ho : ∀ i, Pooled p0 (o i).stale) {port : Nat} {data : Bytes} {p : Pkt} (er : receive c w port data = some p)
    {es : List Eff} (e : ingress c pipe oc o p = some es) :
    ∃ r0 q clones rest, c.parser data noTrunc p.phv = some r0 ∧ es = clones ++ rest ∧
      (∃ phv, SameHeaders r0.phv phv ∧ pipe { p with phv, data := r0.rest } = some q) ∧
      Faithful c p0 q r0 (BitVec.ofNat 64 data.length) clones := by
  obtain ⟨m, hsame, hmd, hfl, hlen, hip, hil, hdata, ht⟩ := C58 hc hw.1 er
  have hport : mval p.phv c.names.ingressPort = some (stored p0 c.names.ingressPort p.inPort) := by
    have hnd := hc.apart
    rw [hmd, hip]
    unfold arrival Md.put
    have n1 : c.names.ingressPort ≠ c.names.packetLength := by
      intro h; rw [Names.all, ← h] at hnd; simp at hnd
    have n2 : c.names.ingressPort ≠ c.names.instanceType := by
      intro h; rw [Names.all, ← h] at hnd; simp at hnd
    have n3 : ∀ r, c.names.ingressTs = some r → c.names.ingressPort ≠ r := by
      intro r hr h; rw [Names.all, hr, ← h] at hnd; simp at hnd
    cases hts : c.names.ingressTs with
    | none => simp [n1, n2]
    | some t => simp [n1, n2, n3 t hts]
  simp only [ingress, Option.bind_eq_bind] at e
  obtain ⟨r0, h1, e1⟩ := Option.bind_eq_some_iff.1 e
  obtain ⟨phv1, h2, e2⟩ := Option.bind_eq_some_iff.1 e1
  obtain ⟨phv2, h3, e3⟩ := Option.bind_eq_some_iff.1 e2
  obtain ⟨q, h4, e4⟩ := Option.bind_eq_some_iff.1 e3
  clear e e1 e2 e3
  have a0 := hc.parser _ _ _ _ m h1
  obtain ⟨a1, a2⟩ := setOpt_spec hc a0 (fun x hx => by unfold Names.all; simp [hx]) h2
  obtain ⟨b1, b2⟩ := setOpt_spec hc a1 (fun x hx => by unfold Names.all; simp [hx]) h3
  obtain ⟨mq, hq⟩ := hpipe _ _ h4 b1
  obtain ⟨clones, digests, fate, k1, k2, _, _⟩ := C42 hc (fun i => (hoc i).1) (fun i => (ho i).1) mq e4
  rw [hdata, ht] at h1
  refine ⟨r0, q, clones, digests ++ fate, h1, by rw [k1, List.append_assoc], ⟨phv2, a2.trans b2, h4⟩, k2.1, k2.2.1,
    fun hs s hs' => ?_⟩
  obtain ⟨list, stale, parsed, d1, d2, d2', d3, d4, d5⟩ := k2.2.2 hs s hs'
  rw [hq] at d3
  rw [hdata] at d4
  obtain ⟨g1, g2⟩ := hpo _ _ _ _ _ _ ⟨m, hw.2.trans hsame⟩ ⟨d2, (hoc 0).2.trans d2'⟩ (hport.trans d3.symm) h1 d4
  rw [g2, hlen] at d5
  exact ⟨list, d1, Mirrors.same g1 d5⟩

end Bm.SSwitch

namespace Bm.SSwitch.Ex
open Bm.Spec

/-- As `c`, with a parser that extracts a header if the user field is zero. -/
def c2 : Cfg :=
  { c with parser := fun d _ p =>
      if mval p (0, 7) = some 0 then
        (p.updHeader 1 fun h => some { h with valid := true }).map fun p => ⟨p, 0, false, d.drop 1⟩
      else some ⟨p, 0, false, d⟩ }

/-- A pipeline that asks for a clone: session 5, list 0. -/
def pipe (p : Pkt) : Option Pkt := some { p with regs := setFlag cloneSession p.regs (sessionValid ||| 5) }

/-- A header vector from the pool; a packet before left 1 in the user field. -/
def used : Option Phv := setF false p0 (0, 7) 1

/-- The world with that header vector. -/
def oUsed : Oracle := fun _ => ⟨0, 0, used.getD p0, fun _ => 0⟩

/-- Validity of the header of the packet. -/
def hasHeader (p : Phv) : Bool := ((p.headers[1]?).map (·.valid)).getD false

/-- Is this so of the first effect, a packet for a queue? -/
def first (f : Pkt → Bool) : List Eff → Bool
  | .enqueue _ _ q :: _ => f q
  | _ => false

theorem std2 : Std c2 p0 := by
  refine ⟨std.plain, std.apart, std.lists, ?_, std.made⟩
  intro d t p r m h
  simp only [c2] at h
  split at h
  · obtain ⟨p', h1, h2⟩ := Option.map_eq_some_iff.1 h
    cases h2
    simp only [Phv.updHeader, Option.bind_eq_bind] at h1
    obtain ⟨b, h3, h4⟩ := Option.bind_eq_some_iff.1 h1
    cases h4
    refine ⟨⟨m.layout.memb, m.layout.unions, m.layout.hstacks, m.layout.unionStacks⟩, by simpa using m.len, ?_⟩
    intro k a b' hk hb
    simp only [List.getElem?_set] at hb
    split at hb
    · rename_i hk1
      split at hb
      · cases hb
        subst hk1
        have g := m.headers 1 a b hk h3
        exact ⟨g.typeId, g.vlOffset, g.metadata, g.len, g.fields, g.ok⟩
      · cases hb
    · exact m.headers k a b' hk hb
  · cases h
    exact m

/-- **C57 does not hold for every parser**.  The parser selects on a metadata field.  The packet is parsed with that
field zero, its clone with what a packet before left in the header vector: the header that the packet has is missing
in the clone. -/
theorem C57_refuted : ∃ (w : World) (oc o : Oracle) (p : Pkt) (r0 : Parsed) (es : List Eff),
    Std c2 p0 ∧ Pooled p0 w.stale ∧ (∀ i, Pooled p0 (oc i).stale) ∧ (∀ i, Pooled p0 (o i).stale) ∧
    receive c2 w 2 [1, 2, 3] = some p ∧ c2.parser [1, 2, 3] noTrunc p.phv = some r0 ∧
    ingress c2 pipe oc o p = some es ∧ hasHeader r0.phv = true ∧
    first (fun q => mval q.phv c2.names.instanceType = some 1 ∧ hasHeader q.phv = false) es = true := by
  have key : (do
      let p ← receive c2 (Ex.o 0) 2 [1, 2, 3]
      let r0 ← c2.parser [1, 2, 3] noTrunc p.phv
      let es ← ingress c2 pipe oUsed Ex.o p
      return hasHeader r0.phv &&
        first (fun q => mval q.phv c2.names.instanceType = some 1 ∧ hasHeader q.phv = false) es) = some true := by
    decide +kernel
  simp only [Option.bind_eq_bind] at key
  obtain ⟨p, h1, e1⟩ := Option.bind_eq_some_iff.1 key
  obtain ⟨r0, h2, e2⟩ := Option.bind_eq_some_iff.1 e1
  obtain ⟨es, h3, e3⟩ := Option.bind_eq_some_iff.1 e2
  simp only [pure, Option.some.injEq, Bool.and_eq_true] at e3
  refine ⟨Ex.o 0, oUsed, Ex.o, p, r0, es, std2, ⟨std.made, .refl p0⟩, fun _ => ?_, fun _ => ⟨std.made, .refl p0⟩,
    h1, h2, h3, e3.1, e3.2⟩
  show Pooled p0 (used.getD p0)
  cases hu : used with
  | none => exact ⟨std.made, .refl p0⟩
  | some q =>
    have hf : (mfield p0 (0, 7)).isSome = true := by decide +kernel
    obtain ⟨f, hf⟩ := Option.isSome_iff_exists.1 hf
    obtain ⟨a1, a2, _⟩ := setF_gen std.made hf hu
    exact ⟨a1, a2⟩

/-- The parser of `c` looks at no metadata. -/
example : PortOnly c p0 := by
  intro d t p p' r r' h h' _ e e'
  cases e
  cases e'
  exact ⟨h.same h', rfl⟩

/-- A clone in such a run. -/
example : ((receive c (o 0) 2 [1, 2, 3]).bind fun p => ingress c pipe oUsed o p).map (first fun q =>
    mval q.phv (0, 2) = some 1 ∧ q.data = [2, 3]) = some true := by decide +kernel

end Bm.SSwitch.Ex
