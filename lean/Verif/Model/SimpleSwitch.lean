import Verif.Model.Parser

/-!
# Model of the target `simple_switch`

Transcribes `/repo/targets/simple_switch/simple_switch.cpp` and
`/repo/targets/simple_switch/register_access.h`.

The parser (with checksum verification), the deparser (with checksum update), the multicast engine and the
pipelines are arbitrary functions here; they are modelled elsewhere.  A packet handed to another thread is
an effect (`Eff`).  What the threads find in the outside world (clock, depth of a queue, header vector taken
from the pool, registers of a new packet, which are not initialised) comes from an oracle.  Outer `none`:
undefined behaviour, failed assertion or exception.

Simplifications: the identity of packets is in `Model/PacketId`; a saved buffer state is the bytes of the
buffer, as nothing writes into the buffer between `save_buffer_state` and `restore_buffer_state`; timestamps
are not bounded; the free room in front of the packet is part of the deparser.
-/

namespace Bm.SSwitch

/-- General-purpose registers of a packet.  `/repo/include/bm/bm_sim/packet.h:105,381`. -/
abbrev Regs := Fin 4 → BitVec 64

/-- `set_register`.  `/repo/include/bm/bm_sim/packet.h:233`. -/
def setReg (r : Regs) (i : Fin 4) (v : BitVec 64) : Regs := fun j => if j = i then v else r j

/-- Where a flag is.  `/repo/targets/simple_switch/register_access.h:19-36`. -/
structure Flag where
  reg : Fin 4
  mask : BitVec 64
  shift : Nat
  deriving DecidableEq

/-- `PACKET_LENGTH_REG_IDX`.  `/repo/targets/simple_switch/register_access.h:19`. -/
def lenReg : Fin 4 := 0

/-- `CLONE_MIRROR_SESSION_ID_*`.  `/repo/targets/simple_switch/register_access.h:21-23`. -/
def cloneSession : Flag := ⟨1, 0x000000000000ffff, 0⟩
/-- `CLONE_FIELD_LIST_*`.  `/repo/targets/simple_switch/register_access.h:24-26`. -/
def cloneList : Flag := ⟨1, 0x00000000ffff0000, 16⟩
/-- `LF_FIELD_LIST_*`.  `/repo/targets/simple_switch/register_access.h:27-29`. -/
def learnList : Flag := ⟨1, 0x0000ffff00000000, 32⟩
/-- `RESUBMIT_FLAG_*`.  `/repo/targets/simple_switch/register_access.h:30-32`. -/
def resubmitFlag : Flag := ⟨1, 0xffff000000000000, 48⟩
/-- `RECIRCULATE_FLAG_*`.  `/repo/targets/simple_switch/register_access.h:34-36`. -/
def recirculateFlag : Flag := ⟨2, 0x000000000000ffff, 0⟩

/-- The five getters.  `/repo/targets/simple_switch/register_access.h:47-51,60-64,72-76,83-87,94-98`. -/
def getFlag (f : Flag) (r : Regs) : BitVec 16 := ((r f.reg &&& f.mask) >>> f.shift).setWidth 16

/-- The five setters.  `/repo/targets/simple_switch/register_access.h:52-59,65-71,77-82,88-93,99-105`. -/
def setFlag (f : Flag) (r : Regs) (v : BitVec 16) : Regs :=
  setReg r f.reg ((r f.reg &&& ~~~f.mask) ||| (v.setWidth 64 <<< f.shift))

/-- `clear_all`.  `/repo/targets/simple_switch/register_access.h:42-46`. -/
def clearAll (r : Regs) : Regs := setReg (setReg r 1 0) 2 0

/-- `MIRROR_SESSION_ID_VALID_MASK`.  `/repo/targets/simple_switch/register_access.h:39`. -/
def sessionValid : BitVec 16 := 0x8000

/-- `MIRROR_SESSION_ID_MASK`.  `/repo/targets/simple_switch/register_access.h:40`. -/
def sessionMask : BitVec 16 := 0x7fff

/-! ## Fields -/

/-- A field: header and offset.  `/repo/include/bm/bm_sim/field_lists.h:37-39`. -/
abbrev Ref := Nat × Nat

/-- The value of a field, `get_value`.  `/repo/src/bm_sim/fields.cpp:152-166`. -/
def getF (rz : Bool) (p : Phv) (r : Ref) : Option Int := do
  let hd ← p.headers[r.1]?
  let f ← hd.fields[r.2]?
  return f.getValue (rz && !hd.isValid && !f.hidden)

/-- `set`.  `/repo/include/bm/bm_sim/data.h:95-120`. -/
def setF (rz : Bool) (p : Phv) (r : Ref) (v : Int) : Option Phv :=
  Parse.updField p r.1 r.2 fun hd f => f.set (rz && !hd.isValid && !f.hidden) v

/-- `set` on a field that the program may lack (`has_field`).  `/repo/include/bm/bm_sim/phv.h`. -/
def setOpt (rz : Bool) (p : Phv) (r : Option Ref) (v : Int) : Option Phv :=
  match r with
  | none => some p
  | some r => setF rz p r v

/-- `FieldList::copy_fields_between_phvs`; the constants of the list are left out.
`/repo/include/bm/bm_sim/field_lists.h:95-111`. -/
def copyList (rz : Bool) (dst src : Phv) : List Ref → Option Phv
  | [] => some dst
  | r :: rs => do copyList rz (← setF rz dst r (← getF rz src r)) src rs

/-- `get<size_t>()`: a value out of range is not modelled.  `/repo/include/bm/bm_sim/data.h:176-181`. -/
def getSize (v : Int) : Option Nat := if 0 ≤ v ∧ v < 2 ^ 64 then some v.toNat else none

/-! ## Packets and configuration -/

/-- `class Packet`, without identity, timestamps and signature.  `/repo/include/bm/bm_sim/packet.h:352-389`. -/
structure Pkt where
  inPort : Nat
  ePort : Nat
  inLen : Nat
  data : Bytes
  trunc : Nat
  phv : Phv
  regs : Regs
  exit : Bool

/-- `truncated_length` of a new packet.  `/repo/include/bm/bm_sim/packet.h:370`. -/
def noTrunc : Nat := 2 ^ 64 - 1

/-- `get_data_size`.  `/repo/include/bm/bm_sim/packet.h:168-170`. -/
def Pkt.dataSize (p : Pkt) : Nat := min p.data.length p.trunc

/-- The fields that the target uses; `queueing` has `enq_timestamp`, `enq_qdepth`, `deq_timedelta`,
`deq_qdepth` (`with_queueing_metadata`).
`/repo/targets/simple_switch/simple_switch.cpp:218-222,257,403,410-414,434-451,456,505,510,531,654,666`. -/
structure Names where
  ingressPort : Ref
  packetLength : Ref
  instanceType : Ref
  egressSpec : Ref
  egressPort : Ref
  mcastGrp : Option Ref
  egressRid : Option Ref
  priority : Option Ref
  parserError : Option Ref
  checksumError : Option Ref
  ingressTs : Option Ref
  egressTs : Option Ref
  queueing : Option (Ref × Ref × Ref × Ref)
  qid : Option Ref

/-- `MirroringSessionConfig`; `none`: not valid.  `/repo/targets/simple_switch/simple_switch.h:61-66`. -/
structure Session where
  port : Option Nat
  mgid : Option Nat

/-- Result of parsing: header vector, error code, checksum error, bytes left. -/
structure Parsed where
  phv : Phv
  error : Int
  checksum : Bool
  rest : Bytes

/-- What is loaded and configured while a packet is processed.  `parser`: bytes of the packet, truncated
length and header vector; `deparser`: header vector and payload; `replicate`: ports and rids.
`/repo/targets/simple_switch/simple_switch.h:188-202`. -/
structure Cfg where
  rz : Bool
  names : Names
  parser : Bytes → Nat → Phv → Option Parsed
  deparser : Phv → Bytes → Option (Phv × Bytes)
  fieldLists : Nat → Option (List Ref)
  session : Nat → Option Session
  replicate : Nat → Option (List (Nat × Nat))
  dropPort : Nat
  nbQueues : Nat

/-- What one step finds in the outside world. -/
structure World where
  ts : Int
  depth : Nat
  stale : Phv
  regs : Regs

/-- One answer for each question. -/
abbrev Oracle := Nat → World

/-- The answers after the first `n`. -/
def Oracle.from (o : Oracle) (n : Nat) : Oracle := fun i => o (n + i)

/-- What a thread does with packets.  A packet dropped is no effect. -/
inductive Eff
  | enqueue (port priority : Nat) (p : Pkt)
  | learn (list : Nat) (p : Pkt)
  | resubmit (p : Pkt)
  | recirculate (p : Pkt)
  | transmit (p : Pkt)

/-- `PktInstanceType`.  `/repo/targets/simple_switch/simple_switch.h:147-155`. -/
def tNormal : Int := 0
/-- `PKT_INSTANCE_TYPE_INGRESS_CLONE`.  `/repo/targets/simple_switch/simple_switch.h:149`. -/
def tIngressClone : Int := 1
/-- `PKT_INSTANCE_TYPE_EGRESS_CLONE`.  `/repo/targets/simple_switch/simple_switch.h:150`. -/
def tEgressClone : Int := 2
/-- `PKT_INSTANCE_TYPE_RECIRC`.  `/repo/targets/simple_switch/simple_switch.h:152`. -/
def tRecirc : Int := 4
/-- `PKT_INSTANCE_TYPE_REPLICATION`.  `/repo/targets/simple_switch/simple_switch.h:153`. -/
def tReplication : Int := 5
/-- `PKT_INSTANCE_TYPE_RESUBMIT`.  `/repo/targets/simple_switch/simple_switch.h:154`. -/
def tResubmit : Int := 6

/-- `Packet::clone_choose_context` (and `clone_no_phv`).  `/repo/src/bm_sim/packet.cpp:82-94,175-198`. -/
def cloneNoPhv (w : World) (p : Pkt) : Pkt :=
  { inPort := p.inPort, ePort := 0, inLen := p.inLen, data := p.data, trunc := noTrunc, phv := w.stale,
    regs := w.regs, exit := false }

/-- `Packet::clone_with_phv`.  `/repo/src/bm_sim/packet.cpp:141-155`. -/
def cloneWithPhv (rz : Bool) (w : World) (p : Pkt) : Pkt :=
  { cloneNoPhv w p with phv := Phv.copyHeaders rz w.stale p.phv }

/-- `Packet::clone_with_phv_reset_metadata`.  `/repo/src/bm_sim/packet.cpp:157-173`. -/
def cloneResetMetadata (rz : Bool) (w : World) (p : Pkt) : Option Pkt := do
  let q := cloneWithPhv rz w p
  return { q with phv := ← Phv.resetHeaders rz false q.phv }

/-! ## The functions of the switch -/

variable (c : Cfg)

/-- `receive_`; `fresh` is the packet as constructed.
`/repo/targets/simple_switch/simple_switch.cpp:231-265`. -/
def receive (w : World) (port : Nat) (data : Bytes) : Option Pkt := do
  let phv ← Phv.resetHeaders c.rz false w.stale
  let regs := setReg (clearAll w.regs) lenReg (BitVec.ofNat 64 data.length)
  let phv ← setF c.rz phv c.names.ingressPort port
  let phv ← setF c.rz phv c.names.packetLength data.length
  let phv ← setF c.rz phv c.names.instanceType tNormal
  let phv ← setOpt c.rz phv c.names.ingressTs w.ts
  return { inPort := port, ePort := 0, inLen := data.length, data, trunc := noTrunc, phv, regs, exit := false }

/-- The priority in `enqueue`.  `/repo/targets/simple_switch/simple_switch.cpp:403-404`. -/
def priorityOf (p : Phv) : Option Nat :=
  match c.names.priority with
  | none => some 0
  | some r => do getSize (← getF c.rz p r)

/-- The metadata written by `enqueue`.  `/repo/targets/simple_switch/simple_switch.cpp:410-414`. -/
def stamp (w : World) (p : Phv) : Option Phv :=
  match c.names.queueing with
  | none => some p
  | some (ets, eqd, _, _) => do setF c.rz (← setF c.rz p ets w.ts) eqd w.depth

/-- `enqueue`.  `/repo/targets/simple_switch/simple_switch.cpp:397-419`. -/
def enqueue (w : World) (port : Nat) (p : Pkt) : Option (List Eff) := do
  let prio ← priorityOf c p.phv
  if prio ≥ c.nbQueues then return []
  else
    let phv ← stamp c w p.phv
    return [.enqueue port prio { p with ePort := port, phv }]

/-- `copy_field_list_and_set_type`.  `/repo/targets/simple_switch/simple_switch.cpp:421-432`. -/
def copyListSetType (src dst : Phv) (type : Int) (list : Nat) : Option Phv := do
  let dst ← Phv.resetHeaders c.rz false dst
  let dst ← copyList c.rz dst src (← c.fieldLists list)
  setF c.rz dst c.names.instanceType type

/-- The loop of `multicast`; the result has the packet, whose `egress_rid` is changed.
`/repo/targets/simple_switch/simple_switch.cpp:460-469`. -/
def multicastLoop (size : BitVec 64) (rid : Ref) : Oracle → Pkt → List (Nat × Nat) → Option (Pkt × List Eff)
  | _, p, [] => some (p, [])
  | o, p, (port, r) :: outs => do
    let p := { p with phv := ← setF c.rz p.phv rid r }
    let q := cloneWithPhv c.rz (o 0) p
    let q := { q with regs := setReg (clearAll q.regs) lenReg size }
    let es ← enqueue c (o 0) port q
    let (p, es') ← multicastLoop size rid (o.from 1) p outs
    return (p, es ++ es')

/-- `multicast`.  `/repo/targets/simple_switch/simple_switch.cpp:453-470`. -/
def multicast (o : Oracle) (p : Pkt) (mgid : Nat) : Option (Pkt × List Eff) := do
  let rid ← c.names.egressRid
  let outs ← c.replicate mgid
  multicastLoop c (p.regs lenReg) rid o p outs

/-- Multicast of a clone.  `/repo/targets/simple_switch/simple_switch.cpp:570-573,713-716`. -/
def cloneGroup (o : Oracle) (s : Session) (q : Pkt) : Option (Pkt × List Eff) :=
  match s.mgid with
  | none => some (q, [])
  | some g => multicast c o q g

/-- Unicast of a clone.  `/repo/targets/simple_switch/simple_switch.cpp:574-578,717-721`. -/
def clonePort (w : World) (s : Session) (q : Pkt) : Option (List Eff) :=
  match s.port with
  | none => some []
  | some port => enqueue c w port q

/-- The two ways a clone leaves.
`/repo/targets/simple_switch/simple_switch.cpp:570-578,713-721`. -/
def sendClone (o : Oracle) (s : Session) (q : Pkt) : Option (List Eff) := do
  let (q, es) ← cloneGroup c o s q
  let es' ← clonePort c (o es.length) s q
  return es ++ es'

/-- Ingress cloning; `saved` and `size` are the data and the length of the packet before parsing.
`/repo/targets/simple_switch/simple_switch.cpp:536-581`. -/
def ingressClone (o : Oracle) (p : Pkt) (saved : Bytes) (size : BitVec 64) : Option (Pkt × List Eff) := do
  let sess := getFlag cloneSession p.regs
  let list := getFlag cloneList p.regs
  if sess = 0 then return (p, [])
  else
    let p := { p with regs := setFlag cloneList (setFlag cloneSession p.regs 0) 0 }
    match c.session (sess &&& sessionMask).toNat with
    | none => return (p, [])
    | some s =>
      let q := cloneNoPhv (o 0) { p with data := saved }
      let q := { q with regs := setReg (clearAll q.regs) lenReg size }
      let phv ← setF c.rz q.phv c.names.ingressPort p.inPort
      let r ← c.parser q.data q.trunc phv
      let q := { q with phv := ← copyListSetType c p.phv r.phv tIngressClone list.toNat, data := r.rest }
      return (p, ← sendClone c (o.from 1) s q)

/-- Resubmission.  `/repo/targets/simple_switch/simple_switch.cpp:588-612`. -/
def resubmit (w : World) (p : Pkt) (saved : Bytes) (size : BitVec 64) (list : BitVec 16) :
    Option (List Eff) := do
  let p := { p with data := saved, regs := setFlag resubmitFlag p.regs 0 }
  let q := cloneNoPhv w p
  let phv ← copyListSetType c p.phv q.phv tResubmit list.toNat
  let regs := setReg (clearAll q.regs) lenReg size
  let phv ← setF c.rz phv c.names.packetLength size.toNat
  return [.resubmit { q with phv, regs }]

/-- Resubmission, multicast, drop or unicast.
`/repo/targets/simple_switch/simple_switch.cpp:588-634`. -/
def ingressRest (o : Oracle) (p : Pkt) (saved : Bytes) (size : BitVec 64) (spec mgid : Nat) :
    Option (List Eff) := do
  let flag := getFlag resubmitFlag p.regs
  if flag ≠ 0 then resubmit c (o 0) p saved size flag
  else if mgid ≠ 0 then
    let phv ← setF c.rz p.phv c.names.instanceType tReplication
    let (_, es) ← multicast c o { p with phv } mgid
    return es
  else if spec = c.dropPort then return []
  else
    let phv ← setF c.rz p.phv c.names.instanceType tNormal
    enqueue c (o 0) spec { p with phv }

/-- The multicast group.  `/repo/targets/simple_switch/simple_switch.cpp:527-534`. -/
def groupOf (p : Phv) : Option Nat :=
  match c.names.mcastGrp with
  | none => some 0
  | some r => do Data.getUint (← getF c.rz p r)

/-- `ingress_thread` after the pipeline; `oc` is the part of the oracle for cloning.
`/repo/targets/simple_switch/simple_switch.cpp:517-634`. -/
def ingressEnd (oc o : Oracle) (p : Pkt) (saved : Bytes) (size : BitVec 64) : Option (List Eff) := do
  let p := { p with exit := false }
  let spec ← Data.getUint (← getF c.rz p.phv c.names.egressSpec)
  let learn := getFlag learnList p.regs
  let mgid ← groupOf c p.phv
  let (p, clones) ← ingressClone c oc p saved size
  let digests := if learn ≠ 0 then [Eff.learn learn.toNat p] else []
  let rest ← ingressRest c o p saved size spec mgid
  return clones ++ digests ++ rest

/-- One packet in `ingress_thread`; `pipe` is the ingress pipeline.
`/repo/targets/simple_switch/simple_switch.cpp:485-634`. -/
def ingress (pipe : Pkt → Option Pkt) (oc o : Oracle) (p : Pkt) : Option (List Eff) := do
  let r ← c.parser p.data p.trunc p.phv
  let phv ← setOpt c.rz r.phv c.names.parserError r.error
  let phv ← setOpt c.rz phv c.names.checksumError (if r.checksum then 1 else 0)
  let q ← pipe { p with phv, data := r.rest }
  ingressEnd c oc o q p.data (p.regs lenReg)

/-- Egress cloning.  `/repo/targets/simple_switch/simple_switch.cpp:684-723`. -/
def egressClone (o : Oracle) (p : Pkt) : Option (Pkt × List Eff) := do
  let sess := getFlag cloneSession p.regs
  let list := getFlag cloneList p.regs
  if sess = 0 then return (p, [])
  else
    let p := { p with regs := setFlag cloneList (setFlag cloneSession p.regs 0) 0 }
    match c.session (sess &&& sessionMask).toNat with
    | none => return (p, [])
    | some s =>
      let q ← cloneResetMetadata c.rz (o 0) p
      let phv ← copyList c.rz q.phv p.phv (← c.fieldLists list.toNat)
      let phv ← setF c.rz phv c.names.instanceType tEgressClone
      let regs := setReg (clearAll q.regs) lenReg (p.regs lenReg)
      return (p, ← sendClone c (o.from 1) s { q with phv, regs })

/-- Recirculation.  `/repo/targets/simple_switch/simple_switch.cpp:734-760`. -/
def recirculate (w : World) (p : Pkt) (list : BitVec 16) : Option (List Eff) := do
  let p := { p with regs := setFlag recirculateFlag p.regs 0 }
  let refs ← c.fieldLists list.toNat
  let q := cloneNoPhv w p
  let phv ← Phv.resetHeaders c.rz false q.phv
  let phv ← copyList c.rz phv p.phv refs
  let phv ← setF c.rz phv c.names.instanceType tRecirc
  let size := q.dataSize
  let regs := setReg (clearAll q.regs) lenReg (BitVec.ofNat 64 size)
  let phv ← setF c.rz phv c.names.packetLength size
  return [.recirculate { q with phv, regs, inLen := size }]

/-- `egress_thread` after the pipeline.  `/repo/targets/simple_switch/simple_switch.cpp:684-762`. -/
def egressEnd (oc o : Oracle) (p : Pkt) : Option (List Eff) := do
  let (p, clones) ← egressClone c oc p
  let spec ← Data.getUint (← getF c.rz p.phv c.names.egressSpec)
  if spec = c.dropPort then return clones
  else
    let (phv, data) ← c.deparser p.phv p.data
    let p := { p with phv, data }
    let flag := getFlag recirculateFlag p.regs
    if flag ≠ 0 then return clones ++ (← recirculate c (o 0) p flag)
    else return clones ++ [.transmit p]

/-- Queueing metadata at the start of egress.
`/repo/targets/simple_switch/simple_switch.cpp:659-670`. -/
def deqStamp (w : World) (prio : Nat) (p : Phv) : Option Phv :=
  match c.names.queueing with
  | none => some p
  | some (ets, _, dtd, dqd) => do
    let t ← getF c.rz p ets
    let p ← setF c.rz p dtd (w.ts - t)
    let p ← setF c.rz p dqd w.depth
    setOpt c.rz p c.names.qid prio

/-- Before the egress pipeline; `port` and `prio` are those of the queue.
`/repo/targets/simple_switch/simple_switch.cpp:652-680`. -/
def egressStart (w : World) (port prio : Nat) (p : Pkt) : Option Pkt := do
  let phv ← setOpt c.rz p.phv c.names.egressTs w.ts
  let phv ← deqStamp c w prio phv
  let phv ← setF c.rz phv c.names.egressPort port
  let phv ← setF c.rz phv c.names.egressSpec ((c.dropPort + 1) % 2 ^ 32 : Nat)
  let phv ← setF c.rz phv c.names.packetLength (p.regs lenReg).toNat
  return { p with phv }

/-- One packet in `egress_thread`; `pipe` is the egress pipeline.
`/repo/targets/simple_switch/simple_switch.cpp:646-762`. -/
def egress (pipe : Pkt → Option Pkt) (w : World) (oc o : Oracle) (port prio : Nat) (p : Pkt) :
    Option (List Eff) := do
  egressEnd c oc o (← pipe (← egressStart c w port prio p))

/-- `transmit_thread`: port and bytes given to the transmit function.
`/repo/targets/simple_switch/simple_switch.cpp:378-390`. -/
def transmit (p : Pkt) : Nat × Bytes := (p.ePort, p.data.take p.dataSize)

/-! ## Mirroring sessions -/

/-- `add_session`.  `/repo/targets/simple_switch/simple_switch.cpp:70-80`. -/
def addSession (m : Int → Option Session) (id : Int) (s : Session) : Bool × (Int → Option Session) :=
  if 0 ≤ id ∧ id ≤ 2 ^ 15 - 1 then (true, fun i => if i = id then some s else m i) else (false, m)

/-- `delete_session`.  `/repo/targets/simple_switch/simple_switch.cpp:82-90`. -/
def deleteSession (m : Int → Option Session) (id : Int) : Bool × (Int → Option Session) :=
  if 0 ≤ id ∧ id ≤ 2 ^ 15 - 1 then ((m id).isSome, fun i => if i = id then none else m i) else (false, m)

/-- `get_session`.  `/repo/targets/simple_switch/simple_switch.cpp:92-99`. -/
def getSession (m : Int → Option Session) (id : Int) : Option Session := m id

/-! ## Input buffer -/

/-- `InputBuffer::PacketType`.
`/repo/targets/simple_switch/simple_switch.cpp:118-123`. -/
inductive PacketType
  | normal
  | resubmit
  | recirculate
  | sentinel
  deriving DecidableEq, Repr

/-- `InputBuffer`; the front of the lists is the front of the queues.
`/repo/targets/simple_switch/simple_switch.cpp:182-189`. -/
structure InBuf (T : Type) where
  capHi : Nat
  capLo : Nat
  hi : List T := []
  lo : List T := []
  deriving DecidableEq, Repr

/-- Results: returned value of `push_front`, or a thread that waits.
`/repo/targets/simple_switch/simple_switch.cpp:128-143,168-180`. -/
inductive Pushed
  | ok
  | full
  | waits
  deriving DecidableEq, Repr

/-- `push_front`: one pass of the loop.  A thread that waits will try again.
`/repo/targets/simple_switch/simple_switch.cpp:128-143,168-180`. -/
def InBuf.push {T : Type} (b : InBuf T) (t : PacketType) (x : T) : Pushed × InBuf T :=
  match t with
  | .normal => if b.lo.length = b.capLo then (.waits, b) else (.ok, { b with lo := x :: b.lo })
  | .resubmit | .recirculate =>
    if b.hi.length = b.capHi then (.full, b) else (.ok, { b with hi := x :: b.hi })
  | .sentinel => if b.hi.length = b.capHi then (.waits, b) else (.ok, { b with hi := x :: b.hi })

/-- `pop_back`; `none`: the thread waits.  `/repo/targets/simple_switch/simple_switch.cpp:145-161`. -/
def InBuf.pop {T : Type} (b : InBuf T) : Option T × InBuf T :=
  if b.hi.length > 0 then (b.hi.getLast?, { b with hi := b.hi.dropLast })
  else (b.lo.getLast?, { b with lo := b.lo.dropLast })

end Bm.SSwitch
