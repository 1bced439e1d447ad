import Verif.Model.SimpleSwitch

/-!
# What the input buffer of simple_switch should do
-/

namespace Bm.SSwitch

/-- The class of a packet: `true` for packets with priority. -/
def PacketType.prio : PacketType → Bool
  | .normal => false
  | .resubmit | .recirculate | .sentinel => true

/-- What happens at the buffer: somebody offers a packet and gets an answer, the ingress thread asks for a packet
and gets one or waits. -/
inductive BufEv (T : Type)
  | offer (t : PacketType) (x : T) (answer : Pushed)
  | take (got : Option (PacketType × T))

variable {T : Type}

/-- Packets of a class that were accepted, in order. -/
def accepted (k : Bool) : List (BufEv T) → List (PacketType × T)
  | [] => []
  | .offer t x .ok :: es => if t.prio = k then (t, x) :: accepted k es else accepted k es
  | _ :: es => accepted k es

/-- Packets of a class that were taken, in order. -/
def taken (k : Bool) : List (BufEv T) → List (PacketType × T)
  | [] => []
  | .take (some (t, x)) :: es => if t.prio = k then (t, x) :: taken k es else taken k es
  | _ :: es => taken k es

/-- Is event `e` right after the events `pre`?  `cap` gives the capacities. -/
def EvOk (cap : Bool → Nat) (pre : List (BufEv T)) : BufEv T → Prop
  | .offer t _ a =>
    (a = .ok ↔ (accepted t.prio pre).length < (taken t.prio pre).length + cap t.prio) ∧
    (a = .full → t = .resubmit ∨ t = .recirculate) ∧ (a = .waits → t = .normal ∨ t = .sentinel)
  | .take none => accepted true pre = taken true pre ∧ accepted false pre = taken false pre
  | .take (some x) =>
    (∃ rest, accepted x.1.prio pre = taken x.1.prio pre ++ x :: rest) ∧
    (x.1.prio = false → accepted true pre = taken true pre)

end Bm.SSwitch
