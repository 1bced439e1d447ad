import Verif.Model.Field

/-!
# Specification of packet streams (C106)

What can be seen at the dataplane interface of simple_switch_grpc, and what is asked of it.
-/

namespace Bm.DpGrpc.Spec

/-- A request of a client: a packet for a port, with a number the client chose (0: none). -/
structure Req where
  dev : Nat
  port : Nat
  id : Nat
  data : Bytes
deriving DecidableEq, Repr

/-- What can be seen.  Streams are numbered in the order in which they are opened, packets by the switch. -/
inductive Ev where
  | opened (k : Nat)
  | notReady
  | exhausted
  | skipped (k : Nat) (r : Req)
  /-- the packet of a request is in the switch -/
  | accepted (k : Nat) (r : Req) (pid : Nat)
  /-- a packet of the controller is in the switch -/
  | injected (pid : Nat)
  /-- a packet leaves through stream `k` -/
  | response (k pid port id : Nat) (data : Bytes)
  /-- a packet leaves, and there is no stream -/
  | lost (pid port : Nat) (data : Bytes)
  /-- a packet goes to the controller -/
  | packetIn (pid : Nat) (data : Bytes)
  | closed (k : Nat)
  | status (p : Nat) (up : Bool)
  | invalid
  | cleared (p : Nat)
  | exchanged
deriving DecidableEq, Repr

/-- Packets and bytes, in and out. -/
structure Stats where
  inPackets : Nat := 0
  inOctets : Nat := 0
  outPackets : Nat := 0
  outOctets : Nat := 0
deriving DecidableEq, Repr

/-- The statistics of port `p` after one more event. -/
def Stats.next (p : Nat) (s : Stats) : Ev → Stats
  | .accepted _ r _ => if r.port = p then { s with inPackets := s.inPackets + 1, inOctets := s.inOctets + r.data.length } else s
  | .response _ _ q _ data =>
    if q = p then { s with outPackets := s.outPackets + 1, outOctets := s.outOctets + data.length } else s
  | .cleared q => if q = p then {} else s
  | _ => s

/-- The statistics of port `p`. -/
def stats (p : Nat) (log : List Ev) : Stats := log.foldl (Stats.next p) {}

/-- A port is up unless its last status was down. -/
def up (p : Nat) (log : List Ev) : Bool :=
  log.foldl (fun b e => match e with
    | .status q u => if q = p then u else b
    | _ => b) true

/-- A stream is open: the last one opened was not closed. -/
def current (log : List Ev) : Option Nat :=
  log.foldl (fun c e => match e with
    | .opened k => some k
    | .closed _ => none
    | _ => c) none

/-- A packet with number `pid` has come into the switch. -/
def Came (log : List Ev) (pid : Nat) : Prop := (∃ k r, Ev.accepted k r pid ∈ log) ∨ Ev.injected pid ∈ log

/-- The event may come after the others, in a service for device `dev` with port `cpu` (if not 0) for the controller.
A stream is opened if none is open; a packet comes from the open stream or from the controller; a packet that leaves has come
before, goes to the controller or through the open stream, and that is the one it came from. -/
def Proper (dev cpu : Nat) (log : List Ev) : Ev → Prop
  | .opened k => current log = none ∧ Ev.opened k ∉ log
  | .exhausted => current log ≠ none
  | .closed k => current log = some k
  | .skipped k r => current log = some k ∧ (r.dev ≠ dev ∨ r.data = [])
  | .accepted k r pid => current log = some k ∧ r.dev = dev ∧ r.data ≠ [] ∧ ¬ Came log pid
  | .injected pid => ¬ Came log pid
  | .response k pid port _ _ =>
    current log = some k ∧ ((∃ r, Ev.accepted k r pid ∈ log) ∨ Ev.injected pid ∈ log) ∧ ¬ (cpu ≠ 0 ∧ port = cpu)
  | .lost pid port _ => current log = none ∧ Ev.injected pid ∈ log ∧ ¬ (cpu ≠ 0 ∧ port = cpu)
  | .packetIn pid _ => cpu ≠ 0 ∧ Came log pid
  | _ => True

/-- A response has the number of the request its packet came with, or 0. -/
def Numbered (log : List Ev) : Ev → Prop
  | .response k pid _ id _ => (∃ r, Ev.accepted k r pid ∈ log ∧ id = r.id) ∨ (Ev.injected pid ∈ log ∧ id = 0)
  | _ => True

/-- All events satisfy `P` with what was before them. -/
def Always (P : List Ev → Ev → Prop) (log : List Ev) : Prop := ∀ l e r, log = l ++ e :: r → P l e

/-- The port was used. -/
def known (p : Nat) (log : List Ev) : Bool :=
  log.any fun
    | .status q _ => q = p
    | .accepted _ r _ => r.port = p
    | _ => false

end Bm.DpGrpc.Spec
