import Verif.Model.LookupStructures

/-!
# What a debugger does (C95)

Everything is read off the history: the list of what happened so far, newest first.
-/

namespace Bm.Debugger.Spec

/-- Number of the packet and number of the copy. -/
abbrev Pid := Nat × Nat

/-- What a packet does. -/
inductive Pkt
  | enter (p : Pid) (port : Int)
  | leave (p : Pid)
  | upd (p : Pid) (id : Nat) (b : Bytes)
  | ctr (p : Pid) (v : Nat)
deriving DecidableEq, Repr

/-- The packet. -/
def Pkt.pid : Pkt → Pid
  | .enter p _ => p
  | .leave p => p
  | .upd p _ _ => p
  | .ctr p _ => p

/-- Requests of the client. -/
inductive Req
  | cont | next
  | getValue (p : Pid) (id : Nat)
  | getBacktrace (p : Pid)
  | breakIn | removeIn | stopIn | resumeIn
  | filter (l : List Pid)
  | watch (id : Nat) | unwatch (id : Nat)
  | reset | attach | detach
deriving DecidableEq, Repr

/-- Replies. -/
inductive Msg
  | packetIn (p : Pid) (port : Int)
  | field (p : Pid) (id : Nat) (b : Bytes)
  | backtrace (p : Pid) (l : List Nat)
  | status (c : Nat)
  | keepAlive
deriving DecidableEq, Repr

/-- What can be seen: a request (with its number), a reply (with its number), something done by a
packet, a change of configuration. -/
inductive Vis
  | req (n : Nat) (r : Req)
  | rep (n : Nat) (m : Msg)
  | pkt (e : Pkt)
  | cfg
deriving DecidableEq, Repr

/-- A client is attached. -/
def attached : List Vis → Bool
  | [] => false
  | .req _ .attach :: _ => true
  | .req _ .detach :: _ => false
  | _ :: h => attached h

/-- The request makes the debugger forget what it was asked before. -/
def clears (h : List Vis) : Req → Bool
  | .reset => true
  | .attach => !attached h
  | .detach => attached h
  | _ => false

/-- The client watches the field. -/
def watching (id : Nat) : List Vis → Bool
  | [] => false
  | .req _ (.watch i) :: h => decide (i = id) || watching id h
  | .req _ (.unwatch i) :: h => !decide (i = id) && watching id h
  | .req _ r :: h => !clears h r && watching id h
  | _ :: h => watching id h

/-- The client wants to be told of packets that come in. -/
def breaksIn : List Vis → Bool
  | [] => false
  | .req _ .breakIn :: _ => true
  | .req _ .removeIn :: _ => false
  | .req _ r :: h => !clears h r && breaksIn h
  | _ :: h => breaksIn h

/-- The client wants no new packets to come in. -/
def stopsIn : List Vis → Bool
  | [] => false
  | .req _ .stopIn :: _ => true
  | .req _ .resumeIn :: _ => false
  | .req _ r :: h => !clears h r && stopsIn h
  | _ :: h => stopsIn h

/-- The packets the client wants to hear of; all of them if empty. -/
def chosen : List Vis → List Pid
  | [] => []
  | .req _ (.filter l) :: _ => l
  | .req _ r :: h => if clears h r then [] else chosen h
  | _ :: h => chosen h

/-- All copies of a packet. -/
def anyCopy : Nat := 2 ^ 64 - 1

/-- The packet is among them. -/
def Chosen (l : List Pid) (p : Pid) : Prop := l = [] ∨ ∃ q ∈ l, q.1 = p.1 ∧ (q.2 = anyCopy ∨ q.2 = p.2)

/-- The packet has come in and not left. -/
def inside (p : Pid) : List Vis → Bool
  | [] => false
  | .pkt (.enter q _) :: h => decide (q = p) || inside p h
  | .pkt (.leave q) :: h => !decide (q = p) && inside p h
  | _ :: h => inside p h

/-- The field that stands for the place in the program. -/
def ctrField : Nat := 2 ^ 64 - 1

/-- A number in four bytes. -/
def bytes4 (v : Nat) : Bytes := [UInt8.ofNat (v / 2 ^ 24), UInt8.ofNat (v / 2 ^ 16), UInt8.ofNat (v / 2 ^ 8), UInt8.ofNat v]

/-- The last value of a field of a packet. -/
def value (p : Pid) (id : Nat) : List Vis → Option Bytes
  | [] => none
  | .pkt (.enter q _) :: h => if q = p then none else value p id h
  | .pkt (.upd q i b) :: h => if q = p ∧ i = id then some b else value p id h
  | .pkt (.ctr q v) :: h => if q = p ∧ id = ctrField then some (bytes4 v) else value p id h
  | _ :: h => value p id h

/-- The places the packet entered and did not leave, outermost first. -/
def places (p : Pid) : List Vis → List Nat
  | [] => []
  | .pkt (.enter q _) :: h => if q = p then [] else places p h
  | .pkt (.ctr q v) :: h =>
    if q = p then if 2 ^ 31 ≤ v then (places p h).dropLast else places p h ++ [v] else places p h
  | _ :: h => places p h

/-- The request that has no reply yet, with what was before it. -/
def pending : List Vis → Option (Nat × Req × List Vis)
  | [] => none
  | .req n r :: h => some (n, r, h)
  | .rep _ _ :: _ => none
  | _ :: h => pending h

/-- The client waits for the program to stop. -/
def Awaits (h : List Vis) : Prop := ∃ n r h0, pending h = some (n, r, h0) ∧ (r = .cont ∨ r = .next)

/-- The client wants the program to stop at the next thing. -/
def AwaitsNext (h : List Vis) : Prop := ∃ n h0, pending h = some (n, .next, h0)

/-- The client is interested in what the packet does. -/
def Interests (h : List Vis) : Pkt → Prop
  | .enter _ _ => AwaitsNext h ∨ breaksIn h = true
  | .leave _ => False
  | .upd _ id _ => AwaitsNext h ∨ watching id h = true
  | .ctr _ _ => AwaitsNext h ∨ watching ctrField h = true

/-- The program has to stop after this. -/
def Stops (h : List Vis) (e : Pkt) : Prop := Chosen (chosen h) e.pid ∧ Interests h e

/-- The program has just stopped. -/
def Stopped : List Vis → Prop
  | .pkt e :: h => Stops h e
  | _ => False

/-- Packets may go on. -/
def Running (h : List Vis) : Prop := attached h = false ∨ (Awaits h ∧ ¬ Stopped h)

/-- What the client is told when the program stops. -/
def report : Pkt → Msg
  | .enter p port => .packetIn p port
  | .leave _ => .keepAlive
  | .upd p id b => .field p id b
  | .ctr p v => .field p ctrField (bytes4 v)

/-- 0 for yes, 1 for no. -/
def code (b : Bool) : Msg := .status (if b then 0 else 1)

/-- The reply to a request that is answered at once. -/
def answer (h : List Vis) : Req → Option Msg
  | .cont => none
  | .next => none
  | .getValue p id => some (if inside p h then
      match value p id h with
      | some b => .field p id b
      | none => .status 2
    else .status 1)
  | .getBacktrace p => some (if inside p h then .backtrace p (places p h) else .status 1)
  | .removeIn => some (code (breaksIn h))
  | .resumeIn => some (code (stopsIn h))
  | .unwatch id => some (code (watching id h))
  | .attach => some (code (!attached h))
  | .detach => some (code (attached h))
  | _ => some (.status 0)

/-- Histories as they should be; `num` gives the number of the reply. -/
inductive Good (num : List Vis → Nat → Req → Nat) : List Vis → Prop
  | nil : Good num []
  | req {h n r} : Good num h → pending h = none → Good num (.req n r :: h)
  | answer {h n r h0 m} : Good num h → pending h = some (n, r, h0) → answer h0 r = some m →
      Good num (.rep (num h0 n r) m :: h)
  | stop {h n r h0 e} : Good num (.pkt e :: h) → pending h = some (n, r, h0) → (r = .cont ∨ r = .next) →
      Stops h e → Good num (.rep (num h0 n r) (report e) :: .pkt e :: h)
  | alive {h n r h0} : Good num h → pending h = some (n, r, h0) → (r = .cont ∨ r = .next) → ¬ Stopped h →
      Good num (.rep (num h0 n r) .keepAlive :: h)
  | pkt {h e} : Good num h → Running h →
      (∀ p port, e = .enter p port → stopsIn h = true → ∃ c, inside (p.1, c) h = true) →
      Good num (.pkt e :: h)
  | cfg {h} : Good num h → attached h = false → Good num (.cfg :: h)

/-- A reply has the number of the request. -/
def sameNum (_ : List Vis) (n : Nat) (_ : Req) : Nat := n

/-- A reply has the number of the request, or 0 if the request makes the debugger forget. -/
def num (h : List Vis) (n : Nat) (r : Req) : Nat := if clears h r then 0 else n

/-- What may come next: packets come in, do something, and leave; clients attach first; values and
lists fit into the messages; no change of configuration while a client is attached. -/
def Polite (h : List Vis) : Vis → Prop
  | .req _ .cont => attached h = true
  | .req _ .next => attached h = true
  | .req _ .breakIn => attached h = true
  | .req _ .stopIn => attached h = true
  | .req _ (.watch _) => attached h = true
  | .req _ (.filter l) => l.length ≤ 30
  | .req _ (.getBacktrace p) => (places p h).length ≤ 54
  | .req _ _ => True
  | .rep _ _ => True
  | .pkt (.enter p _) => inside p h = false
  | .pkt (.leave p) => inside p h = true
  | .pkt (.upd p _ b) => inside p h = true ∧ b.length ≤ 208
  | .pkt (.ctr p v) => inside p h = true ∧ v < 2 ^ 32 ∧ (2 ^ 31 ≤ v → places p h ≠ [])
  | .cfg => attached h = false

end Bm.Debugger.Spec
