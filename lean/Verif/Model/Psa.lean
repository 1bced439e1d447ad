import Verif.Model.SimpleSwitch

/-!
# Model of the target `psa_switch`

Transcribes `/repo/targets/psa_switch/psa_switch.cpp`.  As for `simple_switch` (`Model/SimpleSwitch`) parsers,
deparsers, pipelines and multicast engine are arbitrary functions, a packet handed to another thread is an effect,
and the clock and the header vectors and registers of new packets come from an oracle.  Packets, registers, fields
and the ways to clone a packet are those of `Model/SimpleSwitch`.  Outer `none`: undefined behaviour, failed assertion
or exception.

Simplifications: as in `Model/SimpleSwitch`; priority queues are not compiled in
(`/repo/targets/psa_switch/psa_switch.h:41`), and whether a queue has room is in `Model/Queueing`.
-/

namespace Bm.Psa
open Bm.SSwitch

/-- The fields that the target uses.  `/repo/targets/psa_switch/psa_switch.cpp:134-164`. -/
structure Names where
  /-- `psa_ingress_parser_input_metadata` -/
  ipPort : Ref
  ipPath : Ref
  /-- `psa_ingress_input_metadata` -/
  iiPort : Ref
  iiPath : Ref
  iiTime : Ref
  iiError : Ref
  /-- `psa_ingress_output_metadata` -/
  ioCos : Ref
  ioClone : Ref
  ioSession : Ref
  ioDrop : Ref
  ioResubmit : Ref
  ioGroup : Ref
  ioPort : Ref
  /-- `psa_egress_parser_input_metadata` -/
  epPort : Ref
  epPath : Ref
  /-- `psa_egress_input_metadata` -/
  eiCos : Ref
  eiPort : Ref
  eiPath : Ref
  eiInstance : Ref
  eiTime : Ref
  eiError : Ref
  /-- `psa_egress_output_metadata` -/
  eoClone : Ref
  eoSession : Ref
  eoDrop : Ref
  /-- `psa_egress_deparser_input_metadata` -/
  edPort : Ref

/-- What is loaded and configured while a packet is processed; see `SSwitch.Cfg`.
`/repo/targets/psa_switch/psa_switch.h:260-277`. -/
structure Cfg where
  rz : Bool
  names : Names
  iParser : Bytes → Nat → Phv → Option Parsed
  eParser : Bytes → Nat → Phv → Option Parsed
  iDeparser : Phv → Bytes → Option (Phv × Bytes)
  eDeparser : Phv → Bytes → Option (Phv × Bytes)
  session : Nat → Option Session
  replicate : Nat → Option (List (Nat × Nat))

/-- What the threads do with packets.  A packet dropped is no effect. -/
inductive Eff
  | enqueue (port : Nat) (p : Pkt)
  | resubmit (p : Pkt)
  | recirculate (p : Pkt)
  | transmit (p : Pkt)

/-- `PACKET_PATH_NORMAL`.  `/repo/targets/psa_switch/psa_switch.h:217`. -/
def pNormal : Int := 0
/-- `PACKET_PATH_NORMAL_UNICAST`.  `/repo/targets/psa_switch/psa_switch.h:218`. -/
def pUnicast : Int := 1
/-- `PACKET_PATH_NORMAL_MULTICAST`.  `/repo/targets/psa_switch/psa_switch.h:219`. -/
def pMulticast : Int := 2
/-- `PACKET_PATH_CLONE_I2E`.  `/repo/targets/psa_switch/psa_switch.h:220`. -/
def pCloneI2E : Int := 3
/-- `PACKET_PATH_CLONE_E2E`.  `/repo/targets/psa_switch/psa_switch.h:221`. -/
def pCloneE2E : Int := 4
/-- `PACKET_PATH_RESUBMIT`.  `/repo/targets/psa_switch/psa_switch.h:222`. -/
def pResubmit : Int := 5
/-- `PACKET_PATH_RECIRCULATE`.  `/repo/targets/psa_switch/psa_switch.h:223`. -/
def pRecirculate : Int := 6

/-- `PSA_PORT_RECIRCULATE`.  `/repo/targets/psa_switch/psa_switch.h:211`. -/
def recirculatePort : Nat := 0xfffffffa

variable (c : Cfg)

/-- `receive_`.  `/repo/targets/psa_switch/psa_switch.cpp:184-210`. -/
def receive (w : World) (port : Nat) (data : Bytes) : Option Pkt := do
  let phv ← Phv.resetHeaders c.rz false w.stale
  let phv ← setF c.rz phv c.names.ipPath pNormal
  let phv ← setF c.rz phv c.names.ipPort port
  return { inPort := port, ePort := 0, inLen := data.length, data, trunc := noTrunc, phv,
           regs := setReg w.regs lenReg (BitVec.ofNat 64 data.length), exit := false }

/-- `enqueue`.  `/repo/targets/psa_switch/psa_switch.cpp:320-337`. -/
def enqueue (port : Nat) (p : Pkt) : List Eff := [.enqueue port { p with ePort := port }]

/-- The metadata that `multicast` writes for one copy.
`/repo/targets/psa_switch/psa_switch.cpp:353-356`. -/
def stampCopy (cos rid : Nat) (path : Int) (p : Phv) : Option Phv := do
  let p ← setF c.rz p c.names.eiCos cos
  let p ← setF c.rz p c.names.eiInstance rid
  setF c.rz p c.names.epPath path

/-- The loop of `multicast`; the result has the packet, whose metadata are changed.
`/repo/targets/psa_switch/psa_switch.cpp:346-360`. -/
def multicastLoop (size : BitVec 64) (cos : Nat) (path : Int) : Oracle → Pkt → List (Nat × Nat) →
    Option (Pkt × List Eff)
  | _, p, [] => some (p, [])
  | o, p, (port, rid) :: outs => do
    let p := { p with phv := ← stampCopy c cos rid path p.phv }
    let q := cloneWithPhv c.rz (o 0) p
    let es := enqueue port { q with regs := setReg q.regs lenReg size }
    let (p, es') ← multicastLoop size cos path (o.from 1) p outs
    return (p, es ++ es')

/-- `multicast`.  `/repo/targets/psa_switch/psa_switch.cpp:339-361`. -/
def multicast (o : Oracle) (p : Pkt) (mgid cos : Nat) (path : Int) : Option (Pkt × List Eff) := do
  multicastLoop c (p.regs lenReg) cos path o p (← c.replicate mgid)

/-- Multicast of a clone.  `/repo/targets/psa_switch/psa_switch.cpp:441-446,576-581`. -/
def cloneGroup (o : Oracle) (s : Session) (path : Int) (q : Pkt) : Option (Pkt × List Eff) :=
  match s.mgid with
  | none => some (q, [])
  | some g => multicast c o q g 0 path

/-- Unicast of a clone.  `/repo/targets/psa_switch/psa_switch.cpp:448-451,583-586`. -/
def clonePort (s : Session) (q : Pkt) : List Eff :=
  match s.port with
  | none => []
  | some port => enqueue port q

/-- The two ways a clone leaves, after its metadata are set.
`/repo/targets/psa_switch/psa_switch.cpp:437-451,572-586`. -/
def sendClone (o : Oracle) (s : Session) (path : Int) (q : Pkt) : Option (List Eff) := do
  let phv ← Phv.resetHeaders c.rz false q.phv
  let phv ← setF c.rz phv c.names.epPath path
  let (q, es) ← cloneGroup c o s path { q with phv }
  return es ++ clonePort s q

/-- `get<mirror_id_t>()`: a value out of range is not modelled.  `/repo/include/bm/bm_sim/data.h:176-181`. -/
def getSessionId (v : Int) : Option Nat := if 0 ≤ v ∧ v < 2 ^ 31 then some v.toNat else none

/-- Ingress cloning; `saved` and `size` are data and length of the packet before parsing.
`/repo/targets/psa_switch/psa_switch.cpp:422-459`. -/
def ingressClone (o : Oracle) (p : Pkt) (saved : Bytes) (size : BitVec 64) : Option (List Eff) := do
  if (← Data.getUint (← getF c.rz p.phv c.names.ioClone)) = 0 then return []
  else
    match c.session (← getSessionId (← getF c.rz p.phv c.names.ioSession)) with
    | none => return []
    | some s =>
      let q := cloneNoPhv (o 0) { p with data := saved }
      sendClone c (o.from 1) s pCloneI2E { q with regs := setReg q.regs lenReg size }

/-- Resubmission: the same packet, with the buffer as before parsing.
`/repo/targets/psa_switch/psa_switch.cpp:468-481`. -/
def resubmit (p : Pkt) (saved : Bytes) : Option (List Eff) := do
  let phv ← Phv.resetHeaders c.rz false p.phv
  let phv ← setF c.rz phv c.names.ipPath pResubmit
  return [.resubmit { p with data := saved, phv }]

/-- Unicast.  `/repo/targets/psa_switch/psa_switch.cpp:497-506`. -/
def unicast (p : Pkt) (cos : Nat) : Option (List Eff) := do
  let phv ← setF c.rz p.phv c.names.eiInstance 0
  let phv ← setF c.rz phv c.names.eiCos cos
  let phv ← setF c.rz phv c.names.epPath pUnicast
  let port ← Data.getUint (← getF c.rz phv c.names.ioPort)
  return enqueue port { p with phv }

/-- Deparsing, then multicast or unicast.  `/repo/targets/psa_switch/psa_switch.cpp:483-506`. -/
def forward (o : Oracle) (p : Pkt) (cos : Nat) : Option (List Eff) := do
  let (phv, data) ← c.iDeparser p.phv p.data
  let p := { p with phv, data }
  let mgid ← Data.getUint (← getF c.rz p.phv c.names.ioGroup)
  if mgid ≠ 0 then return (← multicast c o p mgid cos pMulticast).2
  else unicast c p cos

/-- Drop, resubmission, or deparsing and forwarding.
`/repo/targets/psa_switch/psa_switch.cpp:461-506`. -/
def ingressRest (o : Oracle) (p : Pkt) (saved : Bytes) (cos : Nat) : Option (List Eff) := do
  if (← Data.getUint (← getF c.rz p.phv c.names.ioDrop)) ≠ 0 then return []
  else if (← Data.getUint (← getF c.rz p.phv c.names.ioResubmit)) ≠ 0 then resubmit c p saved
  else forward c o p cos

/-- `ingress_thread` after the pipeline; `oc` is the part of the oracle for cloning.
`/repo/targets/psa_switch/psa_switch.cpp:417-506`. -/
def ingressEnd (oc o : Oracle) (p : Pkt) (saved : Bytes) (size : BitVec 64) : Option (List Eff) := do
  let p := { p with exit := false }
  let cos ← Data.getUint (← getF c.rz p.phv c.names.ioCos)
  let clones ← ingressClone c oc p saved size
  return clones ++ (← ingressRest c o p saved cos)

/-- `set` with the value of another field.  `/repo/include/bm/bm_sim/data.h:95-120`. -/
def copyF (p : Phv) (dst src : Ref) : Option Phv := do setF c.rz p dst (← getF c.rz p src)

/-- From the input buffer to the parser.  `/repo/targets/psa_switch/psa_switch.cpp:372-394`. -/
def ingressEnter (w : World) (p : Pkt) : Option Phv := setF c.rz p.phv c.names.iiTime w.ts

/-- From the parser to the pipeline.  `/repo/targets/psa_switch/psa_switch.cpp:399-413`. -/
def ingressSetup (r : Parsed) : Option Phv := do
  let phv ← copyF c r.phv c.names.iiPort c.names.ipPort
  let phv ← copyF c phv c.names.iiPath c.names.ipPath
  let phv ← setF c.rz phv c.names.iiError r.error
  let phv ← setF c.rz phv c.names.ioCos 0
  let phv ← setF c.rz phv c.names.ioClone 0
  let phv ← setF c.rz phv c.names.ioDrop 1
  let phv ← setF c.rz phv c.names.ioResubmit 0
  setF c.rz phv c.names.ioGroup 0

/-- One packet in `ingress_thread`; `pipe` is the ingress pipeline.
`/repo/targets/psa_switch/psa_switch.cpp:364-508`. -/
def ingress (pipe : Pkt → Option Pkt) (w : World) (oc o : Oracle) (p : Pkt) : Option (List Eff) := do
  let phv ← ingressEnter c w p
  let r ← c.iParser p.data p.trunc phv
  let phv ← ingressSetup c r
  let q ← pipe { p with phv, data := r.rest }
  ingressEnd c oc o q p.data (p.regs lenReg)

/-- From the queue to the parser: headers are made invalid.
`/repo/targets/psa_switch/psa_switch.cpp:525-535`. -/
def egressEnter (w : World) (port : Nat) (p : Pkt) : Option Phv := do
  let phv ← p.phv.reset
  let phv ← setF c.rz phv c.names.epPort port
  setF c.rz phv c.names.eiTime w.ts

/-- From the parser to the pipeline.  `/repo/targets/psa_switch/psa_switch.cpp:540-550`. -/
def egressSetup (r : Parsed) : Option Phv := do
  let phv ← copyF c r.phv c.names.eiPort c.names.epPort
  let phv ← copyF c phv c.names.eiPath c.names.epPath
  let phv ← setF c.rz phv c.names.eiError r.error
  let phv ← setF c.rz phv c.names.eoClone 0
  setF c.rz phv c.names.eoDrop 0

/-- Egress cloning, after deparsing.  The registers of the clone are not set.
`/repo/targets/psa_switch/psa_switch.cpp:562-593`. -/
def egressClone (o : Oracle) (p : Pkt) : Option (List Eff) := do
  if (← Data.getUint (← getF c.rz p.phv c.names.eoClone)) = 0 then return []
  else
    match c.session (← getSessionId (← getF c.rz p.phv c.names.eoSession)) with
    | none => return []
    | some s => sendClone c (o.from 1) s pCloneE2E (cloneNoPhv (o 0) p)

/-- Recirculation: the same packet with a clean header vector.
`/repo/targets/psa_switch/psa_switch.cpp:601-614`. -/
def recirculate (p : Pkt) : Option (List Eff) := do
  let phv ← p.phv.reset
  let phv ← Phv.resetHeaders c.rz false phv.resetHeaderStacks
  let phv ← setF c.rz phv c.names.ipPort recirculatePort
  let phv ← setF c.rz phv c.names.ipPath pRecirculate
  return [.recirculate { p with phv }]

/-- Drop, recirculation or transmission.  `/repo/targets/psa_switch/psa_switch.cpp:595-615`. -/
def egressRest (port : Nat) (p : Pkt) : Option (List Eff) := do
  if (← Data.getUint (← getF c.rz p.phv c.names.eoDrop)) ≠ 0 then return []
  else if port = recirculatePort then recirculate c p
  else return [.transmit p]

/-- `egress_thread` after the pipeline.  `/repo/targets/psa_switch/psa_switch.cpp:554-615`. -/
def egressEnd (o : Oracle) (port : Nat) (p : Pkt) : Option (List Eff) := do
  let phv ← copyF c p.phv c.names.edPort c.names.epPort
  let (phv, data) ← c.eDeparser phv p.data
  let p := { p with phv, data, exit := false }
  let clones ← egressClone c o p
  return clones ++ (← egressRest c port p)

/-- One packet in `egress_thread`; `pipe` is the egress pipeline, `port` that of the queue.
`/repo/targets/psa_switch/psa_switch.cpp:511-616`. -/
def egress (pipe : Pkt → Option Pkt) (w : World) (o : Oracle) (port : Nat) (p : Pkt) : Option (List Eff) := do
  let phv ← egressEnter c w port p
  let r ← c.eParser p.data p.trunc phv
  let phv ← egressSetup c r
  egressEnd c o port (← pipe { p with phv, data := r.rest })

/-- `transmit_thread`.  `/repo/targets/psa_switch/psa_switch.cpp:299-313`. -/
def transmit (p : Pkt) : Nat × Bytes := (p.ePort, p.data.take p.dataSize)

end Bm.Psa
