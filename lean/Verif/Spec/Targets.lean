import Mathlib.Data.List.Forall2
import Verif.Model.Targets
import Verif.Spec.SimpleSwitch

/-!
# What is said about the small targets
-/

namespace Bm.Targets.Spec

open Bm.SSwitch

/-- A field of standard metadata: unsigned, not saturating. -/
def Plain (p0 : Phv) (r : Ref) : Prop := ∃ f, mfield p0 r = some f ∧ f.isSigned = false ∧ f.isSaturating = false

/-- The ports to which `l2_switch` is to send a packet: all ports of the group but the one it came from; without
group the port chosen, where 511 is for drop. -/
def dests (group : Nat → Option (List Nat)) (inPort : Nat) (port mgid : Int) : Option (List Nat) :=
  if mgid = 0 then some (if port = 511 then [] else [port.toNat])
  else (group mgid.toNat).map fun l => l.filter fun x => x ≠ inPort

/-- The packet given to egress for a port: contents and headers of `p`, metadata `md`. -/
structure Copy (p : Pkt) (md : Md) (port : Nat) (x : Pkt) : Prop where
  ePort : x.ePort = port
  inPort : x.inPort = p.inPort
  inLen : x.inLen = p.inLen
  data : x.data = p.data
  headers : SameHeaders p.phv x.phv
  md : ∀ r, mval x.phv r = md r

/-- A pipeline followed by a deparser. -/
def through (pipe : Pkt → Option Pkt) (deparser : Phv → Bytes → Option (Phv × Bytes)) (x q : Pkt) : Prop :=
  ∃ y r, pipe x = some y ∧ deparser y.phv y.data = some r ∧ q = { y with phv := r.1, data := r.2 }

/-- Every packet sent is `through` the egress pipeline. -/
def Delivers (pipe : Pkt → Option Pkt) (deparser : Phv → Bytes → Option (Phv × Bytes)) (p : Pkt) (md : Md)
    (ports : List Nat) (qs : List Pkt) : Prop :=
  List.Forall₂ (fun port q => ∃ x, Copy p md port x ∧ through pipe deparser x q) ports qs

/-- Metadata with one field changed if a condition holds. -/
def putIf (p0 : Phv) (b : Prop) [Decidable b] (r : Ref) (v : Int) (m : Md) : Md := if b then m.put p0 r v else m

end Bm.Targets.Spec
