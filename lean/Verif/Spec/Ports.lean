import Verif.Model.Ports

/-!
# The life of a port, and what messages say about ports
-/

namespace Bm.Ports.Spec

/-- Events that may happen to a port one after another, from one state to another: the port is not there (`none`), there
and down, or there and up. -/
inductive Life : Option Bool → List Ev → Option Bool → Prop where
  | nil (s) : Life s [] s
  | added {s es} : Life s es none → Life s (es ++ [.added]) (some false)
  | up {s es} : Life s es (some false) → Life s (es ++ [.up]) (some true)
  | down {s es} : Life s es (some true) → Life s (es ++ [.down]) (some false)
  | removed {s es b} : Life s es (some b) → Life s (es ++ [.removed]) none

/-- The events of port `p`. -/
def evsOf (p : Nat) (l : List (Nat × Ev)) : List Ev := (l.filter fun x => x.1 = p).map Prod.snd

/-- The statuses of port `p`. -/
def statusesOf (p : Nat) (l : List (Nat × Bool)) : List Bool := (l.filter fun x => x.1 = p).map Prod.snd

/-- No thread has anything left to do. -/
def Quiet (m : Mon) : Prop := ∀ js ∈ m.jobs, js = []

/-- No callback is registered in this step. -/
def NoRegister : Label → Prop
  | .register _ _ => False
  | _ => True

/-- A new monitor with callbacks registered. -/
def newWith (writer : Bool) (subs : List (Ev × Nat)) (n : Nat) : Mon := { Mon.new writer n with subs := subs }

/-- What a message asks for. -/
inductive Req where
  | add (p : Nat)
  | remove (p : Nat)
  | status (p : Nat) (b : Bool)
  | packet (p : Nat) (data : Bytes)
  | other
  deriving DecidableEq, Repr

/-- Little-endian 32-bit number. -/
def le32 (n : Nat) : Bytes :=
  [UInt8.ofNat n, UInt8.ofNat (n / 256), UInt8.ofNat (n / 65536), UInt8.ofNat (n / 16777216)]

/-- A message: three numbers, and data. -/
def encode : Req → Bytes
  | .add p => le32 0 ++ le32 p ++ le32 0
  | .remove p => le32 1 ++ le32 p ++ le32 0
  | .status p b => le32 2 ++ le32 p ++ le32 (if b then 1 else 0)
  | .packet p data => le32 3 ++ le32 p ++ le32 data.length ++ data
  | .other => le32 4 ++ le32 0 ++ le32 0

/-- The numbers fit. -/
def Req.Fits : Req → Prop
  | .add p => p < 2 ^ 32
  | .remove p => p < 2 ^ 32
  | .status p _ => p < 2 ^ 32
  | .packet p data => p < 2 ^ 32 ∧ data.length < 2 ^ 31
  | .other => True

/-- The port was added and not removed since.  The last message comes first. -/
def known (p : Nat) : List Req → Bool
  | [] => false
  | .add q :: l => q == p || known p l
  | .remove q :: l => q != p && known p l
  | _ :: l => known p l

/-- The last status of the port since it was added; a port that is added is up. -/
def lastUp (p : Nat) : List Req → Bool
  | [] => false
  | .add q :: l => if q = p ∧ known p l = false then true else lastUp p l
  | .status q b :: l => if q = p then b else lastUp p l
  | _ :: l => lastUp p l

/-- A packet from port `p` is let in. -/
def letIn (enforce : Bool) (p : Nat) (l : List Req) : Bool := !enforce || (known p l && lastUp p l)

/-- The packets let in, the last message coming first. -/
def packetsIn (enforce : Bool) : List Req → List (Nat × Bytes)
  | [] => []
  | .packet p data :: l => packetsIn enforce l ++ if letIn enforce p l then [(p, data)] else []
  | _ :: l => packetsIn enforce l

end Bm.Ports.Spec
