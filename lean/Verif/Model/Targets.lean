import Verif.Model.Action
import Verif.Model.SimpleSwitch

/-!
# Model of the small targets

The loops of `l2_switch`, `simple_router` and `pna_nic`, with packets as in the model of `simple_switch`.

* Parser, deparser and pipelines are functions; a pipeline does nothing when the packet is marked for exit.
* `World.stale` is the header vector taken from the pool for a new packet, with the metadata of the packet it was used
  for before (`Packet::~Packet` marks headers invalid, metadata are left).
* Buffers of the threads are first in first out (C73); here a packet is followed through.
-/

namespace Bm.Targets

open Bm.SSwitch

/-- What is loaded.  `/repo/targets/l2_switch/l2_switch.cpp:40-53`,
`/repo/targets/simple_router/simple_router.cpp:40-45`, `/repo/targets/pna_nic/pna_nic.cpp:45-63`. -/
structure Prog where
  rz : Bool
  parser : Bytes → Nat → Phv → Option Parsed
  ingress : Pkt → Option Pkt
  egress : Pkt → Option Pkt
  deparser : Phv → Bytes → Option (Phv × Bytes)

/-- `Pipeline::apply`.  `/repo/src/bm_sim/pipeline.cpp:28-35`. -/
def apply (pipe : Pkt → Option Pkt) (p : Pkt) : Option Pkt := if p.exit then some p else pipe p

/-- A packet as constructed: the header vector is taken from the pool.  `/repo/src/bm_sim/packet.cpp:82-94`. -/
def newPacket (w : World) (port : Nat) (data : Bytes) : Pkt :=
  { inPort := port, ePort := 0, inLen := data.length, data, trunc := noTrunc, phv := w.stale, regs := w.regs,
    exit := false }

/-- Egress pipeline and deparser.  `/repo/targets/l2_switch/l2_switch.cpp:146-148,152-154`,
`/repo/targets/simple_router/simple_router.cpp:129-131`. -/
def finish (g : Prog) (p : Pkt) : Option Pkt := do
  let p ← apply g.egress p
  let r ← g.deparser p.phv p.data
  return { p with phv := r.1, data := r.2 }

/-- Parser and first pipeline.  `/repo/targets/l2_switch/l2_switch.cpp:114-115`,
`/repo/targets/simple_router/simple_router.cpp:118-119`. -/
def parseApply (g : Prog) (p : Pkt) : Option Pkt := do
  let r ← g.parser p.data p.trunc p.phv
  apply g.ingress { p with phv := r.phv, data := r.rest }

/-! ### `l2_switch` -/

/-- The fields that `l2_switch` uses.  `/repo/targets/l2_switch/l2_switch.cpp:112-123`. -/
structure L2Names where
  ingressPort : Ref
  egressPort : Ref
  learnId : Ref
  mgid : Ref

/-- The three fields after ingress, as `int`, `int` and `unsigned int`.
`/repo/targets/l2_switch/l2_switch.cpp:117-124`. -/
def l2Read (g : Prog) (n : L2Names) (p : Phv) : Option (Int × Int × Nat) := do
  let e ← Act.getInt (← getF g.rz p n.egressPort)
  let l ← Act.getInt (← getF g.rz p n.learnId)
  let m ← Data.getUint (← getF g.rz p n.mgid)
  return (e, l, m)

/-- `learn_id` is set to zero when there is something to learn.  `/repo/targets/l2_switch/l2_switch.cpp:126-129`. -/
def l2Learn (g : Prog) (n : L2Names) (l : Int) (p : Pkt) : Option Pkt :=
  if 0 < l then do return { p with phv := ← setF g.rz p.phv n.learnId 0 } else some p

/-- The loop over the ports of a group.  `/repo/targets/l2_switch/l2_switch.cpp:140-149`. -/
def l2Copies (g : Prog) (o : Oracle) (p : Pkt) : List Nat → Option (List Pkt)
  | [] => some []
  | port :: ports =>
    if p.inPort = port then l2Copies g o p ports
    else do
      let q ← finish g { cloneWithPhv g.rz (o 0) p with ePort := port }
      return q :: (← l2Copies g (o.from 1) p ports)

/-- Where the packet goes; `none` also for the assertion.  `/repo/targets/l2_switch/l2_switch.cpp:131-155`. -/
def l2Out (g : Prog) (n : L2Names) (replicate : Nat → Option (List Nat)) (o : Oracle) (e : Int) (m : Nat) (p : Pkt) :
    Option (List Pkt) :=
  if e = 511 ∧ m = 0 then some []
  else if m = 0 then do return [← finish g { p with ePort := e.toNat }]
  else if m = 1 then do
    let p := { p with phv := ← setF g.rz p.phv n.mgid 0 }
    l2Copies g o p (← replicate m)
  else none

/-- After ingress: what is learned (list and packet) and what is sent, in order.
`/repo/targets/l2_switch/l2_switch.cpp:117-155`. -/
def l2End (g : Prog) (n : L2Names) (replicate : Nat → Option (List Nat)) (o : Oracle) (p : Pkt) :
    Option (Option (Int × Pkt) × List Pkt) := do
  let (e, l, m) ← l2Read g n p.phv
  let p' ← l2Learn g n l p
  let qs ← l2Out g n replicate o e m p'
  return (if 0 < l then some (l, p) else none, qs)

/-- A packet through `l2_switch`.  `/repo/targets/l2_switch/l2_switch.cpp:55-65,103-156`. -/
def l2 (g : Prog) (n : L2Names) (replicate : Nat → Option (List Nat)) (w : World) (o : Oracle) (port : Nat)
    (data : Bytes) : Option (Option (Int × Pkt) × List Pkt) := do
  let p := newPacket w port data
  let p := { p with phv := ← setF g.rz p.phv n.ingressPort port }
  l2End g n replicate o (← parseApply g p)

/-! ### `simple_router` -/

/-- After ingress.  `/repo/targets/simple_router/simple_router.cpp:121-132`. -/
def routerEnd (g : Prog) (egressSpec egressPort : Ref) (p : Pkt) : Option (List Pkt) := do
  let e ← Act.getInt (← getF g.rz p.phv egressSpec)
  if e = 511 then return []
  else
    let phv ← setF g.rz p.phv egressPort e
    return [← finish g { p with ePort := e.toNat, phv }]

/-- A packet through `simple_router`.  `/repo/targets/simple_router/simple_router.cpp:47-57,99-133`. -/
def router (g : Prog) (egressSpec egressPort : Ref) (w : World) (port : Nat) (data : Bytes) : Option (List Pkt) := do
  routerEnd g egressSpec egressPort (← parseApply g (newPacket w port data))

/-! ### `pna_nic` -/

/-- The fields that `pna_nic` uses.  `/repo/targets/pna_nic/pna_nic.cpp:92-93,171,176,183-189`. -/
structure PnaNames where
  parserRecirculated : Ref
  parserPort : Ref
  timestamp : Ref
  recirculated : Ref
  parserError : Ref
  classOfService : Ref
  inputPort : Ref

/-- `receive_`.  `/repo/targets/pna_nic/pna_nic.cpp:75-101`. -/
def pnaReceive (g : Prog) (n : PnaNames) (w : World) (port : Nat) (data : Bytes) : Option Pkt := do
  let p := newPacket w port data
  let phv ← Phv.resetHeaders g.rz false p.phv
  let phv ← setF g.rz phv n.parserRecirculated 0
  let phv ← setF g.rz phv n.parserPort port
  return { p with phv, regs := setReg p.regs lenReg (BitVec.ofNat 64 data.length) }

/-- What is copied after parsing.  `/repo/targets/pna_nic/pna_nic.cpp:183-189`. -/
def pnaPass (g : Prog) (n : PnaNames) (err : Int) (phv : Phv) : Option Phv := do
  let phv ← setF g.rz phv n.recirculated (← getF g.rz phv n.parserRecirculated)
  let phv ← setF g.rz phv n.parserError err
  let phv ← setF g.rz phv n.classOfService 0
  setF g.rz phv n.inputPort (← getF g.rz phv n.parserPort)

/-- The loop of `main_thread` (`ts`: the clock); the packet sent.
`/repo/targets/pna_nic/pna_nic.cpp:164-197`. -/
def pnaMain (g : Prog) (n : PnaNames) (ts : Int) (p : Pkt) : Option Pkt := do
  let phv ← setF g.rz p.phv n.timestamp ts
  let r ← g.parser p.data p.trunc phv
  let phv ← pnaPass g n r.error r.phv
  let p ← apply g.ingress { p with phv, data := r.rest }
  let p := { p with exit := false }
  let r ← g.deparser p.phv p.data
  return { p with phv := r.1, data := r.2 }

end Bm.Targets
