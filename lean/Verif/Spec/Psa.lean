import Verif.Model.Psa
import Verif.Spec.SimpleSwitch

/-!
# What is said about `psa_switch`

Header vectors and packets are looked at as in `Spec/SimpleSwitch`: values of metadata fields (`mval`), headers of
the packet (`SameHeaders`), what a packet is (`Content`).
-/

namespace Bm.Psa
open Bm.SSwitch

/-- A field that is not the hidden one, which is the last of its header. -/
def Visible (p0 : Phv) (r : Ref) : Prop := ∀ a : Header, p0.headers[r.1]? = some a → r.2 + 1 ≠ a.fields.length

/-- Every field that the target names. -/
def Names.all (n : Names) : List Ref :=
  [n.ipPort, n.ipPath, n.iiPort, n.iiPath, n.iiTime, n.iiError, n.ioCos, n.ioClone, n.ioSession, n.ioDrop,
   n.ioResubmit, n.ioGroup, n.ioPort, n.epPort, n.epPath, n.eiCos, n.eiPort, n.eiPath, n.eiInstance, n.eiTime,
   n.eiError, n.eoClone, n.eoSession, n.eoDrop, n.edPort]

/-- The program: the metadata of the architecture are different unsigned fields; parsers and deparsers keep the
layout of header vectors. -/
structure Std (c : Cfg) (p0 : Phv) : Prop where
  plain : ∀ r ∈ c.names.all, ∃ f, mfield p0 r = some f ∧ f.isSigned = false ∧ f.isSaturating = false
  visible : ∀ r ∈ c.names.all, Visible p0 r
  apart : c.names.all.Nodup
  iParser : ∀ d t p r, Made p0 p → c.iParser d t p = some r → Made p0 r.phv
  eParser : ∀ d t p r, Made p0 p → c.eParser d t p = some r → Made p0 r.phv
  iDeparser : ∀ p d q, Made p0 p → c.iDeparser p d = some q → Made p0 q.1
  eDeparser : ∀ p d q, Made p0 p → c.eDeparser p d = some q → Made p0 q.1
  made : Made p0 p0

/-- No header of the packet is valid. -/
def NoHeaders (p : Phv) : Prop := ∀ h ∈ p.headers, h.metadata = false → h.valid = false

/-- No header is valid and all stacks are empty. -/
structure Clean (p : Phv) : Prop where
  headers : NoHeaders p
  hstacks : ∀ s ∈ p.hstacks, s.next = 0
  unionStacks : ∀ s ∈ p.unionStacks, s.next = 0

/-- Metadata that are all zero. -/
def zero (p0 : Phv) : Md := fun r => (mval p0 r).map fun _ => 0

/-- The values of the metadata fields, other than hidden ones, are these. -/
def MdIs (p0 p : Phv) (m : Md) : Prop := ∀ r : Ref, Visible p0 r → mval p r = m r

/-- A field of the metadata has this number. -/
def Reads (p : Phv) (r : Ref) (n : Nat) : Prop := mval p r = some (n : Int)

/-- `q` is such a packet. -/
structure Is (p0 : Phv) (q : Pkt) (x : Content) : Prop where
  inPort : q.inPort = x.inPort
  inLen : q.inLen = x.inLen
  data : q.data = x.data
  size : q.regs lenReg = x.size
  headers : SameHeaders x.headers q.phv
  md : MdIs p0 q.phv x.md
  made : Made p0 q.phv

/-- What a copy of a packet knows of itself: class of service, instance and packet path. -/
def copyMd (c : Cfg) (p0 : Phv) (cos rid : Nat) (path : Int) (m : Md) : Md :=
  ((m.put p0 c.names.eiCos cos).put p0 c.names.eiInstance rid).put p0 c.names.epPath path

/-- One copy of `x` for each replica, in order. -/
def Multicasts (c : Cfg) (p0 : Phv) (x : Content) (mgid cos : Nat) (path : Int) (outs : List (Nat × Nat))
    (es : List Eff) : Prop :=
  c.replicate mgid = some outs ∧ List.Forall₂ (fun out e => ∃ q, e = Eff.enqueue out.1 q ∧ q.ePort = out.1 ∧
    q.trunc = noTrunc ∧ Is p0 q { x with md := copyMd c p0 cos out.2 path x.md }) outs es

/-- The metadata that multicast leaves in the packet that is replicated. -/
def leftMd (c : Cfg) (p0 : Phv) (outs : List (Nat × Nat)) (path : Int) (m : Md) : Md :=
  match outs.getLast? with
  | none => m
  | some out => copyMd c p0 0 out.2 path m

/-- What happens to a clone `x`: copies for the multicast group of the session, then one for its port. -/
def Mirrors (c : Cfg) (p0 : Phv) (s : Session) (path : Int) (x : Content) (es : List Eff) : Prop :=
  ∃ outs em eu, es = em ++ eu ∧
    (s.mgid = none → outs = [] ∧ em = []) ∧ (∀ g, s.mgid = some g → Multicasts c p0 x g 0 path outs em) ∧
    (s.port = none → eu = []) ∧
    (∀ port, s.port = some port → ∃ q, eu = [.enqueue port q] ∧ q.ePort = port ∧ q.trunc = noTrunc ∧
      Is p0 q { x with md := leftMd c p0 outs path x.md })

/-- Cloning as asked for in two fields: whether, and for which session. -/
def Clones (c : Cfg) (p0 p : Phv) (flag sess : Ref) (path : Int) (x : Content) (es : List Eff) : Prop :=
  (Reads p flag 0 → es = []) ∧
  (∀ n, n ≠ 0 → Reads p flag n → ∃ id, Reads p sess id ∧
    (c.session id = none → es = []) ∧ (∀ s, c.session id = some s → Mirrors c p0 s path x es))

/-- The packet itself with other data and metadata. -/
def content (p : Pkt) (data : Bytes) (phv : Phv) (md : Md) : Content :=
  { inPort := p.inPort, inLen := p.inLen, data, size := p.regs lenReg, headers := phv, md }

/-- The fate of the packet after ingress; `saved` is the packet before parsing. -/
inductive IFate (c : Cfg) (p0 : Phv) (p : Pkt) (saved : Bytes) : List Eff → Prop
  | drop (n : Nat) : Reads p.phv c.names.ioDrop n → n ≠ 0 → IFate c p0 p saved []
  | resubmit (n : Nat) (q : Pkt) : Reads p.phv c.names.ioDrop 0 → Reads p.phv c.names.ioResubmit n → n ≠ 0 →
      q.trunc = p.trunc → Is p0 q (content p saved p.phv ((zero p0).put p0 c.names.ipPath 5)) →
      IFate c p0 p saved [.resubmit q]
  | multicast (phv : Phv) (bytes : Bytes) (mgid cos : Nat) (outs : List (Nat × Nat)) (es : List Eff) :
      Reads p.phv c.names.ioDrop 0 → Reads p.phv c.names.ioResubmit 0 →
      c.iDeparser p.phv p.data = some (phv, bytes) → Reads phv c.names.ioGroup mgid → mgid ≠ 0 →
      Reads p.phv c.names.ioCos cos → Multicasts c p0 (content p bytes phv (mval phv)) mgid cos 2 outs es →
      IFate c p0 p saved es
  | unicast (phv : Phv) (bytes : Bytes) (port cos : Nat) (q : Pkt) :
      Reads p.phv c.names.ioDrop 0 → Reads p.phv c.names.ioResubmit 0 →
      c.iDeparser p.phv p.data = some (phv, bytes) → Reads phv c.names.ioGroup 0 →
      Reads p.phv c.names.ioCos cos → Reads phv c.names.ioPort port → q.ePort = port → q.trunc = p.trunc →
      Is p0 q (content p bytes phv (copyMd c p0 cos 0 1 (mval phv))) →
      IFate c p0 p saved [.enqueue port q]

/-- What the ingress parser finds: the packet, with the time. -/
def ingressParserMd (c : Cfg) (p0 : Phv) (w : World) (m : Md) : Md := m.put p0 c.names.iiTime w.ts

/-- What the ingress pipeline finds: the result of the parser, with these metadata. -/
def ingressMd (c : Cfg) (p0 : Phv) (error : Int) (m : Md) : Md := fun r =>
  if r = c.names.ioCos ∨ r = c.names.ioClone ∨ r = c.names.ioResubmit ∨ r = c.names.ioGroup then some 0
  else if r = c.names.ioDrop then some (stored p0 r 1)
  else if r = c.names.iiError then some (stored p0 r error)
  else if r = c.names.iiPath then (m c.names.ipPath).map (stored p0 r)
  else if r = c.names.iiPort then (m c.names.ipPort).map (stored p0 r)
  else m r

/-- What the egress parser finds: the packet, with port and time. -/
def egressParserMd (c : Cfg) (p0 : Phv) (w : World) (port : Nat) (m : Md) : Md :=
  (m.put p0 c.names.epPort port).put p0 c.names.eiTime w.ts

/-- What the egress pipeline finds: the result of the parser, with these metadata. -/
def egressMd (c : Cfg) (p0 : Phv) (error : Int) (m : Md) : Md := fun r =>
  if r = c.names.eoClone ∨ r = c.names.eoDrop then some 0
  else if r = c.names.eiError then some (stored p0 r error)
  else if r = c.names.eiPath then (m c.names.epPath).map (stored p0 r)
  else if r = c.names.eiPort then (m c.names.epPort).map (stored p0 r)
  else m r

/-- The fate of the packet after egress; `phv` and `bytes` are the result of the deparser. -/
inductive EFate (c : Cfg) (p0 : Phv) (port : Nat) (p : Pkt) (phv : Phv) (bytes : Bytes) : List Eff → Prop
  | drop (n : Nat) : Reads phv c.names.eoDrop n → n ≠ 0 → EFate c p0 port p phv bytes []
  | recirculate (q : Pkt) : Reads phv c.names.eoDrop 0 → port = recirculatePort → Clean q.phv →
      q.trunc = p.trunc →
      Is p0 q (content p bytes q.phv (((zero p0).put p0 c.names.ipPort (recirculatePort : Nat)).put p0
        c.names.ipPath 6)) →
      EFate c p0 port p phv bytes [.recirculate q]
  | transmit (q : Pkt) : Reads phv c.names.eoDrop 0 → port ≠ recirculatePort →
      Psa.transmit q = (p.ePort, bytes.take p.trunc) → EFate c p0 port p phv bytes [.transmit q]

/-- A pipeline of the program: it keeps the layout of header vectors, and where a packet came from. -/
def Keeps (p0 : Phv) (pipe : Pkt → Option Pkt) : Prop :=
  ∀ q q', Made p0 q.phv → pipe q = some q' → Made p0 q'.phv ∧ q'.inPort = q.inPort

/-- A header vector of the pool. -/
def Pool (p0 p : Phv) : Prop := Made p0 p ∧ Clean p

/-- Where an effect leaves a packet: in the input buffer (`none`) or the queue of a port. -/
def Eff.goes : Eff → Option (Option Nat × Pkt)
  | .enqueue port q => some (some port, q)
  | .resubmit q => some (none, q)
  | .recirculate q => some (none, q)
  | .transmit _ => none

/-- The packets that can be in the input buffer or a queue, when packets arrive on any port and the pipelines are
such. -/
inductive InFlight (c : Cfg) (p0 : Phv) (IP EP : (Pkt → Option Pkt) → Prop) : Option Nat → Pkt → Prop
  | arrive {w : World} {port : Nat} {data : Bytes} {p : Pkt} : Pool p0 w.stale → receive c w port data = some p →
      InFlight c p0 IP EP none p
  | ingress {p q : Pkt} {pipe : Pkt → Option Pkt} {w : World} {oc o : Oracle} {es : List Eff} {e : Eff}
      {dst : Option Nat} : InFlight c p0 IP EP none p → IP pipe → (∀ i, Pool p0 (oc i).stale) →
      (∀ i, Pool p0 (o i).stale) → ingress c pipe w oc o p = some es → e ∈ es → e.goes = some (dst, q) →
      InFlight c p0 IP EP dst q
  | egress {p q : Pkt} {port : Nat} {pipe : Pkt → Option Pkt} {w : World} {o : Oracle} {es : List Eff} {e : Eff}
      {dst : Option Nat} : InFlight c p0 IP EP (some port) p → EP pipe → (∀ i, Pool p0 (o i).stale) →
      egress c pipe w o port p = some es → e ∈ es → e.goes = some (dst, q) → InFlight c p0 IP EP dst q

/-- What a parser finds when it starts on such a packet: no header, empty stacks, and the way that the packet came. -/
def Starts (c : Cfg) (p0 : Phv) (p : Pkt) : Option Nat → Prop
  | none => ∀ w phv, ingressEnter c w p = some phv → Clean phv ∧
      ((mval phv c.names.ipPath = some (stored p0 c.names.ipPath 6) ∧
          mval phv c.names.ipPort = some (stored p0 c.names.ipPort (recirculatePort : Nat))) ∨
        ∃ k ∈ [(0 : Int), 5], mval phv c.names.ipPath = some (stored p0 c.names.ipPath k) ∧
          mval phv c.names.ipPort = some (stored p0 c.names.ipPort (p.inPort : Nat)))
  | some port => ∀ w phv, egressEnter c w port p = some phv → Clean phv ∧
      mval phv c.names.epPort = some (stored p0 c.names.epPort (port : Nat)) ∧
      ∃ k ∈ [(1 : Int), 2, 3, 4], mval phv c.names.epPath = some (stored p0 c.names.epPath k)

/-- Every packet is parsed from a clean start; for programs without stacks (`a`), or without resubmission (`b`). -/
def CleanStarts (a b : Bool) : Prop :=
  ∀ c p0, Std c p0 → (a = true → p0.hstacks = [] ∧ p0.unionStacks = []) → ∀ dst p,
    InFlight c p0 (fun pipe => Keeps p0 pipe ∧
      (b = true → ∀ q q', Made p0 q.phv → pipe q = some q' → Reads q'.phv c.names.ioResubmit 0)) (Keeps p0) dst p →
    Starts c p0 p dst

end Bm.Psa
