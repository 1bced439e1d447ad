import Verif.Model.PktMove

/-!
# What moves must keep
-/

namespace Bm.PktMove.Spec

open Bm.PktMove (Pkt St Op run step)

/-- The packet has a header vector and is in context `c`. -/
def inUse (c : Nat) (o : Option Pkt) : Bool :=
  match o with
  | some p => p.phv.isSome && p.cxt == c
  | none => false

/-- Header vectors are where they belong: packets have those of their context, pools too, and the number in use is that of the packets. -/
structure Home (s : St) : Prop where
  pkts : ∀ p v, some p ∈ s.pkts → p.phv = some v → v.home = p.cxt
  pool : ∀ c v, v ∈ s.pool c → v.home = c ∧ v.vals = []
  count : ∀ c, s.count c = s.pkts.countP (inUse c)

/-- Packets are assigned within a context only. -/
def Within : St → List Op → Prop
  | _, [] => True
  | s, .moveAssign i j :: r =>
    (∀ p q, s.pkts[i]? = some (some p) → s.pkts[j]? = some (some q) → p.cxt = q.cxt) ∧ Within (step s (.moveAssign i j)) r
  | s, o :: r => Within (step s o) r

/-- The same packet, for everything but truncation, table entry and errors. -/
structure Same (p q : Pkt) : Prop where
  cxt : p.cxt = q.cxt
  ingressPort : p.ingressPort = q.ingressPort
  egressPort : p.egressPort = q.egressPort
  id : p.id = q.id
  copy : p.copy = q.copy
  ingressLen : p.ingressLen = q.ingressLen
  exit : p.exit = q.exit
  signature : p.signature = q.signature
  payload : p.payload = q.payload
  ts : p.ts = q.ts
  regs : p.regs = q.regs
  buffer : p.buffer = q.buffer
  phv : p.phv = q.phv

end Bm.PktMove.Spec
