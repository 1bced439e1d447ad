import Verif.Model.SSPrims
import Verif.Spec.SimpleSwitch

/-!
# What is asked for with primitives of simple_switch
-/

namespace Bm.SSwitch

/-- The last request of some kind. -/
def lastAsk {α : Type} (f : Prim → Option α) (ps : List Prim) : Option α := ps.reverse.findSome? f

/-- A clone: session and field list. -/
def asksClone : Prim → Option (Int × Int)
  | .clone s l => some (s, l)
  | _ => none

/-- A digest: field list. -/
def asksDigest : Prim → Option Int
  | .digest l => some l
  | _ => none

/-- Resubmission: field list. -/
def asksResubmit : Prim → Option Int
  | .resubmit l => some l
  | _ => none

/-- Recirculation: field list. -/
def asksRecirculate : Prim → Option Int
  | .recirculate l => some l
  | _ => none

/-- Truncation: length. -/
def asksTruncate : Prim → Option Int
  | .truncate n => some n
  | _ => none

/-- What becomes of a metadata field. -/
def writes (c : Cfg) (r : Ref) : Prim → Option Int
  | .drop => if r = c.names.egressSpec then some c.dropPort else if c.names.mcastGrp = some r then some 0 else none
  | .assign r' v => if r = r' then some v else none
  | _ => none

/-- Bytes of the headers of the packet. -/
def wire (p : Phv) : Nat := (p.headers.map fun h => if h.valid && !h.metadata then h.nbytesPacket else 0).sum

/-- A request to change a mirroring session. -/
inductive SessOp
  | add (id : Int) (s : Session)
  | del (id : Int)

/-- Ids that a session can have. -/
def goodId (id : Int) : Prop := 0 ≤ id ∧ id < 32768

instance (id : Int) : Decidable (goodId id) := inferInstanceAs (Decidable (_ ∧ _))

/-- What a request says about session `id`. -/
def SessOp.says (id : Int) : SessOp → Option (Option Session)
  | .add i s => if i = id ∧ goodId id then some (some s) else none
  | .del i => if i = id ∧ goodId id then some none else none

/-- The session `id` after some requests: what the last request about it says. -/
def sessionNow (id : Int) (ops : List SessOp) : Option Session := (ops.reverse.findSome? (SessOp.says id)).getD none

/-- The right answer to a request. -/
def SessOp.answer (before : List SessOp) : SessOp → Bool
  | .add id _ => decide (goodId id)
  | .del id => decide (goodId id) && (sessionNow id before).isSome

end Bm.SSwitch
