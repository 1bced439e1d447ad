import Verif.Spec.Pre

/-!
# Specification of the multicast requests (C99)

What a client of the runtime server, of the PD library or of the command line tool is promised.  The
configuration itself and the effect of a call on it are those of `Verif/Spec/Pre.lean`; here we say
which call a request stands for, which reply it must get, and that several contexts do not
interfere.
-/

namespace Bm.Spec.McRt

open Bm.Spec.Mc

/-- A request, with the integers and strings that travel on the wire.  `lags = none` is the service
for engines without link aggregation. -/
inductive Req
  | mgrpCreate (g : Int32)
  | mgrpDestroy (g : Int32)
  | nodeCreate (rid : Int32) (ports : List Char) (lags : Option (List Char))
  | associate (g n : Int32)
  | dissociate (g n : Int32)
  | nodeDestroy (n : Int32)
  | nodeUpdate (n : Int32) (ports : List Char) (lags : Option (List Char))
  | setLag (i : Int16) (ports : List Char)
  /-- not a request: the data plane of the context replicates a packet to a group -/
  | packet (g : UInt32)
deriving DecidableEq

/-- A request for a context. -/
structure Call where
  cxt : Int32
  req : Req
deriving DecidableEq

/-- A reply: nothing, a number, the exception of the interface, the generic failure of the RPC
layer, or (for `packet`) the copies. -/
inductive Reply
  | unit
  | num (h : Int32)
  | fail (code : Nat)
  | unexpected
  | copies (l : List (Nat × Nat))
deriving DecidableEq

/-- A string of binary digits lists ports, port 0 at the right end. -/
def Lists (s : List Char) (p : Nat) : Prop := s.reverse[p]? = some '1'

instance (s p) : Decidable (Lists s p) := by unfold Lists; infer_instance

/-- The ports of a well-formed string: binary digits, and no port above 511. -/
def portsOf (s : List Char) : Option (Finset Nat) :=
  if (∀ c ∈ s, c = '0' ∨ c = '1') ∧ (∀ p ∈ Finset.range s.length, Lists s p → p < 512) then
    some ((Finset.range s.length).filter fun p => Lists s p)
  else none

/-- The identifier that a number on the wire stands for: identifiers have 32 bits. -/
def ident (x : Int32) : Nat := x.toBitVec.toNat

/-- The call that a request stands for; `none`: malformed. -/
def meaning : Req → Option (Op (Finset Nat))
  | .mgrpCreate g => some (.groupCreate (ident g))
  | .mgrpDestroy g => some (.groupDestroy (ident g))
  | .nodeCreate rid ports none => (portsOf ports).map fun p => .nodeCreate (ident rid) p none
  | .nodeCreate rid ports (some lags) =>
    match portsOf ports, portsOf lags with
    | some p, some l => some (.nodeCreate (ident rid) p (some l))
    | _, _ => none
  | .associate g n => some (.associate (ident g) (ident n))
  | .dissociate g n => some (.dissociate (ident g) (ident n))
  | .nodeDestroy n => some (.nodeDestroy (ident n))
  | .nodeUpdate n ports none => (portsOf ports).map fun p => .nodeUpdate (ident n) p none
  | .nodeUpdate n ports (some lags) =>
    match portsOf ports, portsOf lags with
    | some p, some l => some (.nodeUpdate (ident n) p (some l))
    | _, _ => none
  | .setLag i ports => (portsOf ports).map fun p => .setLag i.toBitVec.toNat p
  | .packet g => some (.replicateLag g.toNat)

/-- The result that a reply reports, by the text of the interface; `none`: not a proper reply to
this call. -/
def reads : Op (Finset Nat) → Reply → Option Ret
  | .groupCreate g, .num x => if ident x = g then some .ok else none
  | .nodeCreate _ _ _, .num x => if 0 ≤ x.toInt then some (.node (ident x)) else none
  | .groupDestroy _, .unit => some .ok
  | .associate _ _, .unit => some .ok
  | .dissociate _ _, .unit => some .ok
  | .nodeDestroy _, .unit => some .ok
  | .nodeUpdate _ _ _, .unit => some .ok
  | .setLag _ _, .unit => some .ok
  | .replicateLag _, .copies l => some (.copies l)
  | .setLag _ _, .fail 5 => some (.err .badLag)
  | _, .fail 1 => some (.err .full)
  | _, .fail 3 => some (.err .badGroup)
  | _, .fail 4 => some (.err .badNode)
  | _, .fail 5 => some (.err .conflict)
  | _, _ => none

/-- The context of a call, if there is one with that number. -/
def context (cs : List Conf) (x : Int32) : Option Conf :=
  if 0 ≤ x.toInt then cs[x.toInt.toNat]? else none

/-- The configurations after a call that got the given reply: only the context of the call can
change, and only when the reply reports a result. -/
def next (cs : List Conf) (c : Call) (r : Reply) : List Conf :=
  match context cs c.cxt, meaning c.req with
  | some conf, some op =>
    match reads op r with
    | some ret => cs.set c.cxt.toInt.toNat (effect conf op ret)
    | none => cs
  | _, _ => cs

/-- The replies that a call may get. -/
def Right (lim : Limits) (cs : List Conf) (c : Call) (r : Reply) : Prop :=
  match context cs c.cxt, meaning c.req with
  | some conf, some op => ∃ ret, reads op r = some ret ∧ Allowed lim conf op ret
  | _, _ => r = .unexpected

/-- All replies along a history are right. -/
def Obeys (lim : Limits) : List Conf → List (Call × Reply) → Prop
  | _, [] => True
  | cs, (c, r) :: t => Right lim cs c r ∧ Obeys lim (next cs c r) t

/-! ## The domain of the partial theorem -/

/-- Groups are named by non-negative numbers and strings have at most 512 digits. -/
def Modest : Req → Prop
  | .mgrpCreate g => 0 ≤ g.toInt
  | .mgrpDestroy g => 0 ≤ g.toInt
  | .associate g _ => 0 ≤ g.toInt
  | .dissociate g _ => 0 ≤ g.toInt
  | .nodeCreate _ ports lags => ports.length ≤ 512 ∧ ∀ l ∈ lags, l.length ≤ 512
  | .nodeUpdate _ ports lags => ports.length ≤ 512 ∧ ∀ l ∈ lags, l.length ≤ 512
  | .setLag _ ports => ports.length ≤ 512
  | _ => True

/-- No group is destroyed while it still has nodes. -/
def Careful (cs : List Conf) (c : Call) : Prop :=
  match context cs c.cxt, meaning c.req with
  | some conf, some op => ¬ DestroysUsed conf op
  | _, _ => True

/-- The histories covered. -/
def Fits : List Conf → List (Call × Reply) → Prop
  | _, [] => True
  | cs, (c, r) :: t => Modest c.req ∧ Careful cs c ∧ Fits (next cs c r) t

/-! ## Client side -/

/-- Strings for a list of ports given to the command line tool: refused when a number is negative or
occurs twice. -/
def CliPorts (ports : List Int) : Option (Finset Nat) :=
  if (∀ p ∈ ports, 0 ≤ p) ∧ ports.Nodup then some (ports.map Int.toNat).toFinset else none

/-- The ports of a PD port map: bit `p % 8` of byte `p / 8`. -/
def pdPorts (bytes : List UInt8) : Finset Nat :=
  (Finset.range 512).filter fun p => ((bytes.getD (p / 8) 0).toBitVec.getLsbD (p % 8)) = true

/-- Calls of the PD library; identifiers have 16 bits, handles 32, sets are arrays of bytes. -/
inductive Pd
  | mgrpCreate (g : UInt16)
  | mgrpDestroy (h : UInt32)
  | nodeCreate (rid : UInt16) (ports lags : List UInt8)
  | associate (h n : UInt32)
  | dissociate (h n : UInt32)
  | nodeDestroy (n : UInt32)
  | nodeUpdate (n : UInt32) (ports lags : List UInt8)
  | setLag (i : UInt16) (ports : List UInt8)
deriving DecidableEq

/-- The call that a PD call stands for. -/
def pdMeaning : Pd → Op (Finset Nat)
  | .mgrpCreate g => .groupCreate g.toNat
  | .mgrpDestroy h => .groupDestroy h.toNat
  | .nodeCreate rid ports lags => .nodeCreate rid.toNat (pdPorts ports) (some (pdPorts lags))
  | .associate h n => .associate h.toNat n.toNat
  | .dissociate h n => .dissociate h.toNat n.toNat
  | .nodeDestroy n => .nodeDestroy n.toNat
  | .nodeUpdate n ports lags => .nodeUpdate n.toNat (pdPorts ports) (some (pdPorts lags))
  | .setLag i ports => .setLag i.toNat (pdPorts ports)

/-- The arrays of a PD call have at least 512 bits. -/
def PdArrays : Pd → Prop
  | .nodeCreate _ ports lags => 64 ≤ ports.length ∧ 64 ≤ lags.length
  | .nodeUpdate _ ports lags => 64 ≤ ports.length ∧ 64 ≤ lags.length
  | .setLag _ ports => 64 ≤ ports.length
  | _ => True

/-- A dump of the groups tells the truth: every group once, with every node of the group once, and
for each node its replication id, its ports and its LAGs. -/
def ShowsGroups (c : Conf) (gs : List (Nat × List (Nat × Nat × List Nat × List Nat))) : Prop :=
  (gs.map Prod.fst).Nodup ∧ (∀ g, g ∈ gs.map Prod.fst ↔ g ∈ c.groups) ∧
  ∀ x ∈ gs, (x.2.map Prod.fst).Nodup ∧ (∀ n, n ∈ x.2.map Prod.fst ↔ n ∈ members c x.1) ∧
    ∀ l ∈ x.2, l.2.1 = (c.node l.1).rid ∧
      (l.2.2.1.Nodup ∧ ∀ q, q ∈ l.2.2.1 ↔ q ∈ (c.node l.1).ports) ∧
      (l.2.2.2.Nodup ∧ ∀ q, q ∈ l.2.2.2 ↔ q ∈ (c.node l.1).lags)

/-- A dump of the LAGs tells the truth. -/
def ShowsLags (c : Conf) (ls : List (Nat × List Nat)) : Prop :=
  ∀ i p, (∃ x ∈ ls, x.1 = i ∧ p ∈ x.2) ↔ p ∈ c.lag i

end Bm.Spec.McRt
