import Verif.Model.LookupStructures

/-!
# Specification of ports attached to interfaces

What users of the port manager can see: ports are attached to interfaces (known by their descriptors), packets arrive at
interfaces and leave through them, received packets are handed to the handler of the switch together with the port.
Threads, locks, tables and sets of descriptors do not occur here.
-/

namespace Bm.Bmi

/-- A packet as an interface has captured it; `cut` if the capture is shorter than the packet. -/
structure Pkt where
  data : Bytes
  cut : Bool
  deriving DecidableEq

/-- An open interface: packets that wait to be read, and packets sent. -/
structure File where
  pend : List Pkt
  out : List Bytes
  deriving DecidableEq

/-- Counters of a port. -/
structure Stats where
  inPackets : UInt64
  inOctets : UInt64
  outPackets : UInt64
  outOctets : UInt64
  deriving DecidableEq

/-- What can be seen. -/
inductive Ev
  /-- a packet arrives at an open interface -/
  | arrive (fd : Nat) (k : Pkt)
  /-- a port is added; what the system gives for the interface; whether the request succeeds -/
  | add (p : Int) (os : Option Nat) (ok : Bool)
  /-- a request to remove a port is refused -/
  | noRemove (p : Int)
  /-- a request to remove a port begins -/
  | removeBegin (p : Int)
  /-- a request to remove a port returns -/
  | removeEnd (p : Int)
  /-- the handler is set -/
  | handler
  /-- a packet is sent; whether the system accepts it; whether the request succeeds -/
  | send (p : Int) (d : Bytes) (net : Bool) (ok : Bool)
  /-- reading the counters -/
  | stats (p : Int) (r : Option Stats)
  /-- reading and clearing the counters -/
  | clear (p : Int) (r : Option Stats)
  /-- a received packet is handed to the handler -/
  | deliver (p : Int) (d : Bytes)
  /-- a packet that was cut is thrown away -/
  | cut (p : Int)
  /-- the manager is being destroyed -/
  | destroyBegin
  /-- the manager has been destroyed -/
  | destroyEnd
  /-- nothing that can be seen -/
  | tau
  deriving DecidableEq

/-- The packets handed to the handler. -/
def handed (es : List Ev) : List (Int × Bytes) :=
  es.filterMap fun
    | .deliver p d => some (p, d)
    | _ => none

namespace Spec

/-- A port: its interface, the packets received and sent since the counters were last cleared. -/
structure Port where
  fd : Nat
  received : List Bytes
  sent : List Bytes

/-- The counters of a port. -/
def Port.stats (q : Port) : Stats where
  inPackets := .ofNat q.received.length
  inOctets := .ofNat (q.received.map List.length).sum
  outPackets := .ofNat q.sent.length
  outOctets := .ofNat (q.sent.map List.length).sum

structure St where
  /-- the ports -/
  port : Int → Option Port
  /-- how many there are -/
  n : Nat
  /-- open interfaces -/
  net : Nat → Option File
  handler : Bool
  /-- the port that is being removed -/
  leaving : Option Int

/-- Nothing attached. -/
def start : St := ⟨fun _ => none, 0, fun _ => none, false, none⟩

/-- A function changed in one place. -/
def upd {α β : Type} [DecidableEq α] (f : α → β) (a : α) (b : β) : α → β := fun x => if x = a then b else f x

/-- What may happen. -/
inductive Step (max : Nat) : St → Ev → St → Prop
  | tau S : Step max S .tau S
  | arrive S fd k f : S.net fd = some f →
    Step max S (.arrive fd k) { S with net := upd S.net fd (some { f with pend := f.pend ++ [k] }) }
  /-- adding succeeds if the port is free, there is room, and the interface can be opened -/
  | added S p fd : S.port p = none → S.n < max → S.net fd = none →
    Step max S (.add p (some fd) true)
      { S with
        port := upd S.port p (some ⟨fd, [], []⟩)
        n := S.n + 1
        net := upd S.net fd (some ⟨[], []⟩) }
  | notAdded S p os : ((∃ q, S.port p = some q) ∨ max ≤ S.n ∨ os = none) → Step max S (.add p os false) S
  | noRemove S p : S.port p = none → Step max S (.noRemove p) S
  | removeBegin S p q : S.port p = some q → S.leaving = none →
    Step max S (.removeBegin p) { S with leaving := some p }
  /-- the port is free, its interface is closed -/
  | removeEnd S p q : S.leaving = some p → S.port p = some q →
    Step max S (.removeEnd p)
      { S with
        port := upd S.port p none
        n := S.n - 1
        net := upd S.net q.fd none
        leaving := none }
  | handler S : Step max S .handler { S with handler := true }
  /-- a packet leaves through the interface of the port -/
  | sent S p q f d : S.port p = some q → S.net q.fd = some f →
    Step max S (.send p d true true)
      { S with
        port := upd S.port p (some { q with sent := q.sent ++ [d] })
        net := upd S.net q.fd (some { f with out := f.out ++ [d] }) }
  | notSent S p d net : ((net = true ∧ S.port p = none) ∨ net = false) → Step max S (.send p d net false) S
  | stats S p : Step max S (.stats p ((S.port p).map Port.stats)) S
  | clear S p : Step max S (.clear p ((S.port p).map Port.stats))
      { S with port := upd S.port p ((S.port p).map fun q => { q with received := [], sent := [] }) }
  /-- the packet that waits longest at the interface of a port is handed over, with this port -/
  | deliver S p q f d rest : S.handler = true → S.port p = some q → S.net q.fd = some f → f.pend = ⟨d, false⟩ :: rest →
    S.leaving = none →
    Step max S (.deliver p d)
      { S with
        port := upd S.port p (some { q with received := q.received ++ [d] })
        net := upd S.net q.fd (some { f with pend := rest }) }
  | cut S p q f d rest : S.port p = some q → S.net q.fd = some f → f.pend = ⟨d, true⟩ :: rest → S.leaving = none →
    Step max S (.cut p) { S with net := upd S.net q.fd (some { f with pend := rest }) }

/-- Histories. -/
inductive Run (max : Nat) : St → List Ev → St → Prop
  | nil S : Run max S [] S
  | cons {S e S' es S''} : Step max S e S' → Run max S' es S'' → Run max S (e :: es) S''

end Spec

end Bm.Bmi
