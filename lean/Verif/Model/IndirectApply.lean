import Verif.Model.MatchTable
import Verif.Model.ActionProfile

/-!
# Model of the application of indirect tables

`MatchTableAbstract::apply_action` with `MatchTableIndirect::lookup`; `Model/ActionProfile` has the choice of the
action, this file adds what `apply_action` does with it, and the next node.
-/

namespace Bm.MT
open Spec
variable {K ι : Type} [DecidableEq ι] {kind : ι → TableKind} {R : Type}

/-- The settings of an indirect table: those of `MatchTableAbstract`, loaded as for other tables.
`/repo/src/bm_sim/P4Objects.cpp:1871-1955`, `/repo/src/bm_sim/match_tables.cpp:948-949`. -/
def Cfg.loadIndirect {L : LookupStr K} (P : TableDecl K) (t : Tab L R) : Option Cfg :=
  (((P.actions.foldl (fun t x => t.setNext x.1.id x.2) t).loadHitMiss P.hitMiss).loadBase P.base).loadDefault
    P.dflt |>.map (·.cfg)

/-- The entry chosen by `MatchTableIndirect::lookup` and the next node.  For an empty group `*next_node` is not set,
and the caller returns its uninitialised variable: undefined (`none`).
`/repo/src/bm_sim/match_tables.cpp:686-717,86-88,130`. -/
def Cfg.chosen (c : Cfg) (hit : Bool) : Look (ActFn × List Int) → Option (Option (ActFn × List Int) × Option Nat)
  | .builtin => some (c.dfltDflt.fn.map fun f => (f, c.dfltDflt.data), c.dfltDflt.next)
  | .empty => none
  | .act a => do
    let n ← if hit then c.next a.1.id else c.nextDefault a.1.id
    return (some a, n)

/-- `apply_action` for an indirect table.  `/repo/src/bm_sim/match_tables.cpp:84-131`. -/
def iApply (s : ISys ι kind R (ActFn × List Int)) (i : ι) (c : Cfg) (q : Bytes) (nb ts hash : Nat) :
    Option (Applied × ISys ι kind R (ActFn × List Int)) := do
  match ← s.tLookup i q nb ts hash with
  | (.look hit l, s) =>
    let (act, next) ← c.chosen hit.isSome l
    return ({ index := match hit with | some h => h &&& 0x00ffffff | none => invalidIndex, hit, act, next }, s)
  | _ => none

end Bm.MT
