import Verif.Props.Flags
import Verif.Spec.Field
import Verif.Lemmas.Field
import Verif.Lemmas.Phv

/-!
# What is said about `simple_switch`

How the theorems look at header vectors and packets: values of metadata fields, headers of the packet, flags.
-/

namespace Bm.SSwitch
open Bm.Spec

/-- A metadata field. -/
def mfield (p : Phv) (r : Ref) : Option Field :=
  (p.headers[r.1]?).bind fun hd => if hd.metadata then hd.fields[r.2]? else none

/-- The value of a metadata field. -/
def mval (p : Phv) (r : Ref) : Option Int := (mfield p r).map (·.value)

/-- A value that assignments can leave in a field. -/
def Held (f : Field) (v : Int) : Prop :=
  f.kind.Fits v ∨ f.Odd v

/-- Fields made from the same description; the width of a variable-length field may differ. -/
structure FSame (f g : Field) : Prop where
  arith : g.arith = f.arith
  isSigned : g.isSigned = f.isSigned
  hidden : g.hidden = f.hidden
  vl : g.vl = f.vl
  isSaturating : g.isSaturating = f.isSaturating
  width : f.vl = false → g.nbits = f.nbits ∧ g.nbytes = f.nbytes ∧ g.mask = f.mask ∧ g.max = f.max ∧ g.min = f.min

/-- Headers made from the same description, with metadata in order. -/
structure HSame (a b : Header) : Prop where
  typeId : b.typeId = a.typeId
  vlOffset : b.vlOffset = a.vlOffset
  metadata : b.metadata = a.metadata
  len : b.fields.length = a.fields.length
  fields : ∀ (i : Nat) (f g : Field), a.fields[i]? = some f → b.fields[i]? = some g → FSame f g
  ok : a.metadata = true → ∀ (i : Nat) (g : Field), b.fields[i]? = some g → g.Shape ∧ g.vl = false ∧ Held g g.value

/-- `p` is made by the same factory as `p0`. -/
structure Made (p0 p : Phv) : Prop where
  layout : Phv.SameLayout p0 p
  len : p.headers.length = p0.headers.length
  headers : ∀ (h : Nat) (a b : Header), p0.headers[h]? = some a → p.headers[h]? = some b → HSame a b

/-- The members of a union and which of them is valid. -/
def unionState (u : HUnion) : List Nat × Option Nat := (u.members, if u.valid then some u.idx else none)

/-- The headers of the packet (not metadata) are the same in `q` as in `p`: same validity, same contents when
valid, same unions and stacks. -/
structure SameHeaders (p q : Phv) : Prop where
  unions : q.unions.map unionState = p.unions.map unionState
  hstacks : q.hstacks = p.hstacks
  unionStacks : q.unionStacks = p.unionStacks
  headers : ∀ (h : Nat) (a : Header), p.headers[h]? = some a → a.metadata = false →
    ∃ b : Header, q.headers[h]? = some b ∧ b.metadata = false ∧ b.valid = a.valid ∧ (a.valid = true → b = a)

/-- Every field that the target names. -/
def Names.all (n : Names) : List Ref :=
  [n.ingressPort, n.packetLength, n.instanceType, n.egressSpec, n.egressPort] ++ n.mcastGrp.toList ++
  n.egressRid.toList ++ n.priority.toList ++ n.parserError.toList ++ n.checksumError.toList ++
  n.ingressTs.toList ++ n.egressTs.toList ++
  (match n.queueing with | none => [] | some (a, b, d, e) => [a, b, d, e]) ++ n.qid.toList

/-- The program: standard metadata are different unsigned fields, field lists have metadata, the parser keeps
the layout of header vectors. -/
structure Std (c : Cfg) (p0 : Phv) : Prop where
  plain : ∀ r ∈ c.names.all, ∃ f, mfield p0 r = some f ∧ f.isSigned = false ∧ f.isSaturating = false
  apart : c.names.all.Nodup
  lists : ∀ n l, c.fieldLists n = some l → ∀ r ∈ l, (mfield p0 r).isSome = true
  parser : ∀ d t p r, Made p0 p → c.parser d t p = some r → Made p0 r.phv
  made : Made p0 p0

/-- Width of a metadata field. -/
def width (p0 : Phv) (r : Ref) : Nat := ((mfield p0 r).map (·.nbits)).getD 0

/-- What a field holds after `v` is stored in it. -/
def stored (p0 : Phv) (r : Ref) (v : Int) : Int := v % 2 ^ width p0 r

/-- The fields that `enqueue` writes. -/
def queueRefs (c : Cfg) : List Ref :=
  match c.names.queueing with
  | none => []
  | some (a, b, _, _) => [a, b]

/-- No flag is set. -/
def NoFlags (q : Pkt) : Prop := ∀ f ∈ flags, getFlag f q.regs = 0

/-- Metadata as a function. -/
abbrev Md := Ref → Option Int

/-- Metadata with one field changed. -/
def Md.put (m : Md) (p0 : Phv) (r : Ref) (v : Int) : Md := fun x => if x = r then some (stored p0 r v) else m x

/-- Metadata that are zero but for the fields of a list. -/
def zeroBut (p0 : Phv) (l : List Ref) (m : Md) : Md :=
  fun r => if r ∈ l then m r else (mval p0 r).map fun _ => 0

/-- What a packet is: where it came from, its payload, its length on arrival, headers and metadata. -/
structure Content where
  inPort : Nat
  inLen : Nat
  data : Bytes
  size : BitVec 64
  headers : Phv
  md : Md

/-- `q` is such a packet; queueing metadata are left out. -/
structure Has (c : Cfg) (q : Pkt) (x : Content) : Prop where
  inPort : q.inPort = x.inPort
  inLen : q.inLen = x.inLen
  data : q.data = x.data
  size : q.regs lenReg = x.size
  headers : SameHeaders x.headers q.phv
  md : ∀ r : Ref, r ∉ queueRefs c → mval q.phv r = x.md r

/-- The priority of a packet. -/
def PriorityIs (c : Cfg) (m : Md) (n : Nat) : Prop :=
  match c.names.priority with
  | none => n = 0
  | some r => m r = some (n : Int)

/-- The effect `e` sends `x` to the queue of a port. -/
def Queues (c : Cfg) (x : Content) (port : Nat) (e : Eff) : Prop :=
  ∃ prio q, e = .enqueue port prio q ∧ PriorityIs c x.md prio ∧ prio < c.nbQueues ∧ q.ePort = port ∧ Has c q x

/-- As `Queues`, for a new packet: no flag is set. -/
def QueuesNew (c : Cfg) (x : Content) (port : Nat) (e : Eff) : Prop :=
  Queues c x port e ∧ ∀ port' prio q, e = .enqueue port' prio q → NoFlags q ∧ q.trunc = noTrunc

/-- One copy of `x` for each replica, in order, each with its replication id; none if the priority is too
high. -/
def Multicasts (c : Cfg) (p0 : Phv) (x : Content) (mgid : Nat) (outs : List (Nat × Nat)) (es : List Eff) : Prop :=
  ∃ rid prio, c.names.egressRid = some rid ∧ c.replicate mgid = some outs ∧ PriorityIs c x.md prio ∧
    (prio < c.nbQueues →
      List.Forall₂ (fun out e => QueuesNew c { x with md := x.md.put p0 rid (out.2 : Nat) } out.1 e) outs es) ∧
    (c.nbQueues ≤ prio → es = [])

/-- One copy of `x` to a port; none if the priority is too high. -/
def Unicasts (c : Cfg) (x : Content) (port : Nat) (es : List Eff) : Prop :=
  ∃ prio, PriorityIs c x.md prio ∧
    (prio < c.nbQueues → ∃ e, es = [e] ∧ Queues c x port e) ∧ (c.nbQueues ≤ prio → es = [])

/-- The replication id that multicast leaves in the packet that is replicated. -/
def leftRid (c : Cfg) (p0 : Phv) (outs : List (Nat × Nat)) (m : Md) : Md :=
  match c.names.egressRid, outs.getLast? with
  | some rid, some out => m.put p0 rid (out.2 : Nat)
  | _, _ => m

/-- What happens to a clone `x`: copies for the multicast group of the session, then a copy for its port. -/
def Mirrors (c : Cfg) (p0 : Phv) (s : Session) (x : Content) (es : List Eff) : Prop :=
  ∃ outs em eu, es = em ++ eu ∧
    (s.mgid = none → outs = [] ∧ em = []) ∧ (∀ g, s.mgid = some g → Multicasts c p0 x g outs em) ∧
    (s.port = none → eu = []) ∧
    (∀ port, s.port = some port → Unicasts c { x with md := leftRid c p0 outs x.md } port eu ∧
      ∀ port' prio q, Eff.enqueue port' prio q ∈ eu → NoFlags q ∧ q.trunc = noTrunc)

/-- What clones there are after ingress. -/
def Clones (c : Cfg) (p0 pool : Phv) (p : Pkt) (saved : Bytes) (size : BitVec 64) (es : List Eff) : Prop :=
  let sess := getFlag cloneSession p.regs
  (sess = 0 → es = []) ∧
  (sess ≠ 0 → c.session (sess &&& sessionMask).toNat = none → es = []) ∧
  (sess ≠ 0 → ∀ s, c.session (sess &&& sessionMask).toNat = some s → ∃ list stale parsed,
    c.fieldLists (getFlag cloneList p.regs).toNat = some list ∧ Made p0 stale ∧ SameHeaders pool stale ∧
    mval stale c.names.ingressPort = some (stored p0 c.names.ingressPort p.inPort) ∧
    c.parser saved noTrunc stale = some parsed ∧
    Mirrors c p0 s { inPort := p.inPort, inLen := p.inLen, data := parsed.rest, size, headers := parsed.phv,
                     md := (zeroBut p0 list (mval p.phv)).put p0 c.names.instanceType 1 } es)

/-- What digests there are. -/
def Digests (p : Pkt) (es : List Eff) : Prop :=
  (getFlag learnList p.regs = 0 → es = []) ∧
  (getFlag learnList p.regs ≠ 0 →
    ∃ q, es = [.learn (getFlag learnList p.regs).toNat q] ∧ q.phv = p.phv ∧ q.data = p.data ∧ q.inPort = p.inPort)

/-- The packet itself, as content. -/
def Pkt.content (p : Pkt) : Content :=
  { inPort := p.inPort, inLen := p.inLen, data := p.data, size := p.regs lenReg, headers := p.phv, md := mval p.phv }

/-- The multicast group in the metadata. -/
def GroupIs (c : Cfg) (m : Md) (n : Nat) : Prop :=
  match c.names.mcastGrp with
  | none => n = 0
  | some r => m r = some (n : Int)

/-- The fate of the packet after ingress. -/
inductive Fate (c : Cfg) (p0 : Phv) (p : Pkt) (saved : Bytes) (size : BitVec 64) : List Eff → Prop
  | resubmit (list : List Ref) (q : Pkt) (stale : Phv) : getFlag resubmitFlag p.regs ≠ 0 →
      c.fieldLists (getFlag resubmitFlag p.regs).toNat = some list → Made p0 stale →
      NoFlags q → q.trunc = noTrunc →
      Has c q { inPort := p.inPort, inLen := p.inLen, data := saved, size, headers := stale,
                md := ((zeroBut p0 list (mval p.phv)).put p0 c.names.instanceType 6).put p0
                  c.names.packetLength size.toNat } →
      Fate c p0 p saved size [.resubmit q]
  | multicast (mgid : Nat) (outs : List (Nat × Nat)) (es : List Eff) : getFlag resubmitFlag p.regs = 0 →
      GroupIs c (mval p.phv) mgid → mgid ≠ 0 →
      Multicasts c p0 { p.content with md := p.content.md.put p0 c.names.instanceType 5 } mgid outs es →
      Fate c p0 p saved size es
  | drop : getFlag resubmitFlag p.regs = 0 → GroupIs c (mval p.phv) 0 →
      mval p.phv c.names.egressSpec = some (c.dropPort : Int) → Fate c p0 p saved size []
  | unicast (port : Nat) (es : List Eff) : getFlag resubmitFlag p.regs = 0 → GroupIs c (mval p.phv) 0 →
      mval p.phv c.names.egressSpec = some (port : Int) → port ≠ c.dropPort →
      Unicasts c { p.content with md := p.content.md.put p0 c.names.instanceType 0 } port es →
      (∀ port' prio q, Eff.enqueue port' prio q ∈ es → q.trunc = p.trunc ∧
        getFlag cloneSession q.regs = 0) →
      Fate c p0 p saved size es

end Bm.SSwitch
