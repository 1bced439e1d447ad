import Verif.Model.MatchTable
import Verif.Lemmas.MatchUnitRun
import Verif.Spec.Pipeline

/-!
# Model of pipelines

The control-flow nodes, the loop of `Pipeline::apply`, and the part of the loader (`P4Objects::init_pipelines`) that makes
the nodes of all pipelines and connects them.  A pointer to a node is the name of the node: the loader keeps one map from
names to nodes and never removes any.  Tables are direct tables (`Model/MatchTable`); what key builder, actions, conditions
and meters do is a parameter (`Spec/Pipeline`).  The step of a table is atomic (the read lock is held).

Simplification: the checks for duplicate ids and the missing keys of next nodes of tables are not modelled.
-/

namespace Bm.Pipe
open Spec MT
variable {kind : Nat → TableKind} {R σ : Type}

/-- Types of keys. -/
abbrev KeyOf (kind : Nat → TableKind) (n : Nat) : Type := (kind n).K

/-- `ControlFlowNode`: `MatchActionTable`, `Conditional`, `ControlAction`.
`/repo/include/bm/bm_sim/tables.h`, `/repo/include/bm/bm_sim/conditionals.h`,
`/repo/include/bm/bm_sim/control_action.h`. -/
inductive MNode (k : TableKind) (R σ : Type)
  | table (t : TableNode k.K σ) (tab : Tab k.str R)
  | cond (ev : σ → Option Bool) (t f : Option Nat)
  | call (fn : ActFn) (next : Option Nat)

/-- `control_nodes_map`, and the first nodes of the pipelines.  `/repo/include/bm/bm_sim/P4Objects.h:422`. -/
structure Sw (kind : Nat → TableKind) (R σ : Type) where
  nodes : (n : Nat) → Option (MNode (kind n) R σ)
  firsts : List (Option Nat)

/-- The node with the name `n` is replaced. -/
def Sw.set (sw : Sw kind R σ) (n : Nat) (x : MNode (kind n) R σ) : Sw kind R σ :=
  { sw with nodes := fun m => if h : m = n then some (h ▸ x) else sw.nodes m }

/-! ## Loading -/

/-- A node as it is made, before the next nodes are known.
`/repo/src/bm_sim/P4Objects.cpp:1722-1804,1806-1822,1824-1845`. -/
def create {n : Nat} (meters : Nat → R) : NodeDecl (KeyOf kind n) σ → Option (MNode (kind n) R σ)
  | .table t => some (.table t (Tab.init (kind n).str t.size t.sizeKey meters))
  | .cond ev _ _ => some (.cond ev none none)
  | .call fn _ => if fn.nparams > 0 then none else some (.call fn none)

/-- `add_control_node`: two nodes with the same name are an exception.
`/repo/src/bm_sim/P4Objects.cpp:572-583,2829-2832`. -/
def Sw.add (meters : Nat → R) (sw : Sw kind R σ) (x : (n : Nat) × NodeDecl (KeyOf kind n) σ) : Option (Sw kind R σ) := do
  let nd ← create meters x.2
  if (sw.nodes x.1).isSome then none else some (sw.set x.1 nd)

/-- `get_control_node_cfg` for a name that may be null: unknown names are an exception.
`/repo/src/bm_sim/P4Objects.cpp:585-596,1854-1859,2834-2837`. -/
def Sw.known (sw : Sw kind R σ) : Option Nat → Bool
  | none => true
  | some m => (sw.nodes m).isSome

/-- The names in the declaration of a table.  `/repo/src/bm_sim/P4Objects.cpp:1892-1909`. -/
def tableRefs {K : Type} (P : TableDecl K) : List (Option Nat) :=
  P.actions.map Prod.snd ++ (match P.hitMiss with | some (h, m) => [h, m] | none => []) ++ P.base.toList

/-- Next node resolution.  `/repo/src/bm_sim/P4Objects.cpp:1847-2009,2011-2034,2036-2047`. -/
def Sw.resolve {n : Nat} (meters : Nat → R) (sw : Sw kind R σ) :
    NodeDecl (KeyOf kind n) σ → Option (MNode (kind n) R σ)
  | .table t =>
    if (tableRefs t.decl).all sw.known then (Tab.load (kind n).str t.size t.sizeKey meters t.decl).map (.table t) else none
  | .cond ev t f =>
    if t = none ∧ f = none then none
    else if sw.known (t.getD none) && sw.known (f.getD none) then some (.cond ev (t.getD none) (f.getD none)) else none
  | .call fn next => if sw.known next then some (.call fn next) else none

/-- Next node resolution for one node. -/
def Sw.connect (meters : Nat → R) (sw : Sw kind R σ) (x : (n : Nat) × NodeDecl (KeyOf kind n) σ) : Option (Sw kind R σ) :=
  (sw.resolve meters x.2).map (sw.set x.1)

/-- One pipeline.  `/repo/src/bm_sim/P4Objects.cpp:1627-2056`. -/
def Sw.loadPipe (meters : Nat → R) (sw : Sw kind R σ) (p : PipeDecl (KeyOf kind) σ) : Option (Sw kind R σ) := do
  let sw ← p.nodes.foldlM (Sw.add meters) sw
  let sw ← p.nodes.foldlM (Sw.connect meters) sw
  if sw.known p.first then some { sw with firsts := sw.firsts ++ [p.first] } else none

/-- `init_pipelines`.  `/repo/src/bm_sim/P4Objects.cpp:1621-2057`. -/
def load (meters : Nat → R) (P : Prog (KeyOf kind) σ) : Option (Sw kind R σ) :=
  P.foldlM (Sw.loadPipe meters) { nodes := fun _ => none, firsts := [] }

/-! ## Packets -/

/-- `operator()` of the nodes.  `/repo/src/bm_sim/tables.cpp:25-37`, `/repo/src/bm_sim/conditionals.cpp:20-47`,
`/repo/src/bm_sim/control_action.cpp:36-44`. -/
def Sw.step (sem : Sem σ) (sw : Sw kind R σ) (n : Nat) (s : σ) : Option (Option Nat × σ × Sw kind R σ) :=
  match sw.nodes n with
  | none => none
  | some (.table t tab) => do
    let (a, tab) ← tab.apply (t.key s) (t.nbytes s) (t.ts s)
    let s ← sem.run a.act (sem.mark a.hit a.index s)
    return (a.next, s, sw.set n (.table t tab))
  | some (.cond ev t f) => do
    let b ← ev s
    return (if b then t else f, s, sw)
  | some (.call fn next) => do
    let s ← sem.act fn [] s
    return (next, s, sw)

/-- `Pipeline::apply`, at most `fuel` passes of the loop.  `/repo/src/bm_sim/pipeline.cpp:19-43`. -/
def Sw.apply (sem : Sem σ) : Nat → Sw kind R σ → Option Nat → σ → Option (List Nat × Stop σ × Sw kind R σ)
  | _, sw, none, s => some ([], .ended s, sw)
  | 0, sw, some n, s => some ([], if sem.exit s then .ended s else .atNode n s, sw)
  | fuel + 1, sw, some n, s =>
    if sem.exit s then some ([], .ended s, sw)
    else do
      let (next, s, sw) ← sw.step sem n s
      let (l, r, sw) ← Sw.apply sem fuel sw next s
      return (n :: l, r, sw)

end Bm.Pipe
