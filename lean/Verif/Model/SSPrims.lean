import Verif.Model.SimpleSwitch

/-!
# Primitives of simple_switch

Action primitives that use the target: dropping, cloning, digests, resubmission, recirculation, truncation and the
primitives on headers that keep the length register.  Parameters are values of type `Data`; a negative value, or one
that does not fit where the code converts it, is outside the model (`none`).
-/

namespace Bm.SSwitch

/-- `get<uint16_t>()`: a value out of range is not modelled.  `/repo/include/bm/bm_sim/data.h:176-181`. -/
def getU16 (v : Int) : Option (BitVec 16) := if 0 ≤ v ∧ v < 2 ^ 16 then some (BitVec.ofNat 16 v.toNat) else none

/-- The primitives.  `/repo/targets/simple_switch/primitives.cpp:154-316,340-346,458-464`. -/
inductive Prim
  | drop
  | digest (list : Int)
  | clone (session list : Int)
  | resubmit (list : Int)
  | recirculate (list : Int)
  | truncate (n : Int)
  | addHeader (h : Nat)
  | removeHeader (h : Nat)
  | assign (r : Ref) (v : Int)
  | noOp

variable (c : Cfg)

/-- `drop`, and `mark_to_drop` given the header with `egress_spec`.
`/repo/targets/simple_switch/primitives.cpp:154-162,166-193`. -/
def prDrop (p : Phv) : Option Phv := do
  setOpt c.rz (← setF c.rz p c.names.egressSpec c.dropPort) c.names.mcastGrp 0

/-- `add_header`.  `/repo/targets/simple_switch/primitives.cpp:217-230`. -/
def prAddHeader (p : Pkt) (h : Nat) : Option Pkt := do
  let hd ← p.phv.headers[h]?
  if hd.isValid then return p
  else
    let phv ← p.phv.updHeader h fun x => x.reset (c.rz && !x.isValid)
    let phv ← phv.markValid h
    let hd ← phv.headers[h]?
    return { p with phv, regs := setReg p.regs lenReg (p.regs lenReg + BitVec.ofNat 64 hd.nbytesPacket) }

/-- `remove_header`.  `/repo/targets/simple_switch/primitives.cpp:242-253`. -/
def prRemoveHeader (p : Pkt) (h : Nat) : Option Pkt := do
  let hd ← p.phv.headers[h]?
  if hd.isValid then
    let phv ← p.phv.markInvalid h
    return { p with phv, regs := setReg p.regs lenReg (p.regs lenReg - BitVec.ofNat 64 hd.nbytesPacket) }
  else return p

/-- One primitive; `assign` is `modify_field` of a metadata field.
`/repo/targets/simple_switch/primitives.cpp:43-47,154-162,206-213,265-316,458-462`,
`/repo/include/bm/bm_sim/packet.h:206-208`. -/
def Prim.exec (p : Pkt) : Prim → Option Pkt
  | .drop => do return { p with phv := ← prDrop c p.phv }
  | .digest l => do return { p with regs := setFlag learnList p.regs (← getU16 l) }
  | .clone s l => do
    let regs := setFlag cloneSession p.regs ((← getU16 s) ||| sessionValid)
    return { p with regs := setFlag cloneList regs (← getU16 l) }
  | .resubmit l => do return { p with regs := setFlag resubmitFlag p.regs (← getU16 l) }
  | .recirculate l => do return { p with regs := setFlag recirculateFlag p.regs (← getU16 l) }
  | .truncate n => do return { p with trunc := min (← getSize n) p.trunc }
  | .addHeader h => prAddHeader c p h
  | .removeHeader h => prRemoveHeader p h
  | .assign r v => do return { p with phv := ← setF c.rz p.phv r v }
  | .noOp => some p

/-- Primitives one after another.  Jumps are left out.  `/repo/src/bm_sim/actions.cpp:402-421`. -/
def Prim.execs (p : Pkt) : List Prim → Option Pkt
  | [] => some p
  | x :: xs => do execs (← x.exec c p) xs

end Bm.SSwitch
