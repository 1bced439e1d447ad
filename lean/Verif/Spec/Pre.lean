import Mathlib.Data.Finset.Card
import Mathlib.Data.Finset.Prod

/-!
# Specification of multicast replication (C18–C20)

The configuration is a set of groups, a set of nodes, and for each node its replication id, its
ports, its link-aggregation groups (LAGs) and the group it belongs to.  Nothing is said about how
handles are chosen, how the information is stored or in which order copies are produced.
-/

namespace Bm.Spec.Mc

/-- What the configuration says about a node. -/
structure Node where
  rid : Nat
  ports : Finset Nat
  lags : Finset Nat
  /-- the group the node belongs to -/
  grp : Option Nat
  /-- history variable, used only to say exactly when the code goes wrong: the group of the last
  successful association not followed by a successful dissociation; unlike `grp` it survives the
  destruction of the group -/
  held : Option Nat

/-- Configuration. -/
structure Conf where
  groups : Finset Nat := ∅
  nodes : Finset Nat := ∅
  node : Nat → Node := fun _ => ⟨0, ∅, ∅, none, none⟩
  lag : Nat → Finset Nat := fun _ => ∅

/-- Calls, with port sets of type `P`. `lags = none` is the interface without link aggregation. -/
inductive Op (P : Type)
  | groupCreate (g : Nat)
  | groupDestroy (g : Nat)
  | nodeCreate (rid : Nat) (ports : P) (lags : Option P)
  | associate (g n : Nat)
  | dissociate (g n : Nat)
  | nodeDestroy (n : Nat)
  | nodeUpdate (n : Nat) (ports : P) (lags : Option P)
  | setLag (i : Nat) (ports : P)
  | reset (lags : Bool)
  | replicate (g : Nat)
  | replicateLag (g : Nat)

/-- Change the representation of port sets. -/
def Op.map {P Q : Type} (f : P → Q) : Op P → Op Q
  | .groupCreate g => .groupCreate g
  | .groupDestroy g => .groupDestroy g
  | .nodeCreate rid ports lags => .nodeCreate rid (f ports) (lags.map f)
  | .associate g n => .associate g n
  | .dissociate g n => .dissociate g n
  | .nodeDestroy n => .nodeDestroy n
  | .nodeUpdate n ports lags => .nodeUpdate n (f ports) (lags.map f)
  | .setLag i ports => .setLag i (f ports)
  | .reset lags => .reset lags
  | .replicate g => .replicate g
  | .replicateLag g => .replicateLag g

/-- Reasons for refusing a call. -/
inductive Err
  | full | badGroup | badNode | conflict | badLag
deriving DecidableEq, Repr

/-- Results. A copy is a replication id and a port. -/
inductive Ret
  | ok
  | node (n : Nat)
  | err (e : Err)
  | copies (l : List (Nat × Nat))
deriving DecidableEq, Repr

/-- `f` with the value at `n` changed. -/
def upd (f : Nat → Node) (n : Nat) (v : Node) : Nat → Node := fun m => if m = n then v else f m

/-- Effect on the configuration of a call that returned the given result.  Refused calls have no
effect. -/
def effect (c : Conf) : Op (Finset Nat) → Ret → Conf
  | .groupCreate g, .ok => { c with groups := insert g c.groups }
  | .groupDestroy g, .ok => { c with
      groups := c.groups.erase g
      node := fun n => if (c.node n).grp = some g then { (c.node n) with grp := none } else c.node n }
  | .nodeCreate rid ports lags, .node n => { c with
      nodes := insert n c.nodes
      node := upd c.node n ⟨rid, ports, lags.getD ∅, none, none⟩ }
  | .associate g n, .ok =>
    { c with node := upd c.node n { (c.node n) with grp := some g, held := some g } }
  | .dissociate _ n, .ok =>
    { c with node := upd c.node n { (c.node n) with grp := none, held := none } }
  | .nodeDestroy n, .ok => { c with
      nodes := c.nodes.erase n
      node := upd c.node n ⟨0, ∅, ∅, none, none⟩ }
  | .nodeUpdate n ports lags, .ok =>
    let d := c.node n
    { c with node := upd c.node n { d with ports := ports, lags := lags.getD d.lags } }
  | .setLag i ports, .ok => { c with lag := fun j => if j = i then ports else c.lag j }
  | .reset true, .ok => {}
  | .reset false, .ok => { lag := c.lag }
  | _, _ => c

/-- Nodes of group `g`. -/
def members (c : Conf) (g : Nat) : Finset Nat := c.nodes.filter fun n => (c.node n).grp = some g

/-- Nodes of `g` that ask for the copy `(rid, port)` through their port list. -/
def askPort (c : Conf) (g : Nat) (o : Nat × Nat) : Finset Nat :=
  (members c g).filter fun n => (c.node n).rid = o.1 ∧ o.2 ∈ (c.node n).ports

/-- (node of `g`, non-empty LAG of that node) pairs for which port `o.2` has been chosen. -/
def askLag (c : Conf) (choice : Nat → Nat) (g : Nat) (o : Nat × Nat) : Finset (Nat × Nat) :=
  (members c g ×ˢ Finset.range 512).filter fun x =>
    x.2 ∈ (c.node x.1).lags ∧ (c.lag x.2).Nonempty ∧ (c.node x.1).rid = o.1 ∧ choice x.2 = o.2

/-- `l` has exactly the copies asked for by the nodes of `g`: one for each node and port. -/
def Copies (c : Conf) (g : Nat) (l : List (Nat × Nat)) : Prop :=
  ∀ o, l.count o = (askPort c g o).card

/-- The same with link aggregation: in addition one copy for each node and non-empty LAG of the
node, on a port that is a member of that LAG. -/
def CopiesLag (c : Conf) (g : Nat) (l : List (Nat × Nat)) : Prop :=
  ∃ choice : Nat → Nat, (∀ i, (c.lag i).Nonempty → choice i ∈ c.lag i) ∧
    ∀ o, l.count o = (askPort c g o).card + (askLag c choice g o).card

/-- Limits on the number of groups and nodes. -/
structure Limits where
  groups : Nat
  nodes : Nat

/-- The results allowed for a call. -/
def Allowed (lim : Limits) (c : Conf) : Op (Finset Nat) → Ret → Prop
  | .groupCreate _, r => r = if lim.groups ≤ c.groups.card then .err .full else .ok
  | .groupDestroy _, r => r = .ok
  | .nodeCreate _ _ _, r =>
    if lim.nodes ≤ c.nodes.card then r = .err .full else ∃ n, r = .node n ∧ n ∉ c.nodes
  | .associate g n, r => r =
    if n ∉ c.nodes then .err .badNode
    else if g ∉ c.groups then .err .badGroup
    else if (c.node n).grp ≠ none then .err .conflict
    else .ok
  | .dissociate g n, r => r =
    if n ∉ c.nodes then .err .badNode
    else if g ∉ c.groups then .err .badGroup
    else if (c.node n).grp ≠ some g then .err .conflict
    else .ok
  | .nodeDestroy n, r => r = if n ∉ c.nodes then .err .badNode else .ok
  | .nodeUpdate n _ _, r => r = if n ∉ c.nodes then .err .badNode else .ok
  | .setLag i _, r => r = if i > 256 then .err .badLag else .ok
  | .reset _, r => r = .ok
  | .replicate g, r => ∃ l, r = .copies l ∧ Copies c g l
  | .replicateLag g, r => ∃ l, r = .copies l ∧ CopiesLag c g l

/-- The call destroys a group that still has nodes. -/
def DestroysUsed (c : Conf) : Op (Finset Nat) → Prop
  | .groupDestroy g => (members c g).Nonempty
  | _ => False

/-- All results along a history are allowed. -/
def Conforms (lim : Limits) (c : Conf) : List (Op (Finset Nat) × Ret) → Prop
  | [] => True
  | (op, r) :: t => Allowed lim c op r ∧ Conforms lim (effect c op r) t

/-- The replications along a history deliver exactly the copies asked for at that time. -/
def Delivers (c : Conf) : List (Op (Finset Nat) × Ret) → Prop
  | [] => True
  | (op, r) :: t =>
    (match op with
     | .replicate g => ∃ l, r = .copies l ∧ Copies c g l
     | .replicateLag g => ∃ l, r = .copies l ∧ CopiesLag c g l
     | _ => True) ∧ Delivers (effect c op r) t

/-- No group is destroyed along the history while it still has nodes. -/
def Tidy (c : Conf) : List (Op (Finset Nat) × Ret) → Prop
  | [] => True
  | (op, r) :: t => ¬ DestroysUsed c op ∧ Tidy (effect c op r) t

end Bm.Spec.Mc
