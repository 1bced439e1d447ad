import Verif.Model.Field

/-!
# Model of exclusive access to registers

`RegisterSync` (`/repo/include/bm/bm_sim/stateful.h:169-199`, `/repo/src/bm_sim/stateful.cpp:65-75`): which mutexes an action, a
parse state and the deparser take, and threads that execute them, requests of the control plane and conditions at the same time.
Register arrays and threads are numbers.

Simplified: `boost::lock` takes all mutexes in one step, when all of them are free (it never keeps some and waits for others; if
one mutex is given twice it never returns); what a task does between two accesses to register arrays is arbitrary, and so is
what it does with an array; an access is one step.  In an expression all operators are taken to be executed.
-/

namespace Bm.RegLocks

/-- What an operator of an expression does with registers: `LOAD_REGISTER_REF`, `LOAD_REGISTER_GEN`, nothing.
`/repo/src/bm_sim/expressions.cpp:286-304,546-553`. -/
inductive Op where
  | regRef (a idx : Nat)
  | regGen (a : Nat)
  | other
deriving DecidableEq, Repr

/-- What a parameter of a primitive does with registers.  `/repo/src/bm_sim/actions.cpp:131-215`,
`/repo/include/bm/bm_sim/actions.h:279-336,490-493`. -/
inductive Param where
  | regRef (a idx : Nat)
  | regGen (a : Nat) (idx : List Op)
  | regArray (a : Nat)
  | expr (ops : List Op)
  | other
deriving DecidableEq, Repr

/-- An operation of a parse state.  `/repo/src/bm_sim/parser.cpp:934-968`. -/
inductive POp where
  | setExpr (ops : List Op)
  | advanceExpr (ops : List Op)
  | verify (cond err : List Op)
  | call (ps : List Param)
  | other
deriving DecidableEq, Repr

/-- `RegisterSync`.  `/repo/include/bm/bm_sim/stateful.h:196-198`. -/
structure Sync where
  mutexes : List Nat := []
  arrays : List Nat := []
deriving DecidableEq, Repr

/-- `add_register_array`.  `/repo/src/bm_sim/stateful.cpp:65-69`. -/
def Sync.add (s : Sync) (a : Nat) : Sync :=
  if a ∈ s.arrays then s else { mutexes := s.mutexes ++ [a], arrays := s.arrays ++ [a] }

/-- `merge_from`.  `/repo/src/bm_sim/stateful.cpp:71-75`. -/
def Sync.merge (s o : Sync) : Sync := o.arrays.foldl Sync.add s

/-- `Expression::grab_register_accesses`.  `/repo/src/bm_sim/expressions.cpp:378-390`. -/
def Sync.grab (s : Sync) (ops : List Op) : Sync :=
  ops.foldl (fun s o => match o with
    | .regRef a _ | .regGen a => s.add a
    | .other => s) s

/-- `parameter_push_back_*`.  `/repo/src/bm_sim/actions.cpp:131-215`. -/
def Sync.param (s : Sync) : Param → Sync
  | .regRef a _ => s.add a
  | .regGen a idx => (s.grab idx).add a
  | .regArray a => s.add a
  | .expr ops => s.grab ops
  | .other => s

/-- `ActionFn::register_sync`. -/
def actionSync (ps : List Param) : Sync := ps.foldl Sync.param {}

/-- `ParseState::register_sync`.  `/repo/src/bm_sim/parser.cpp:934-968`. -/
def stateSync (ops : List POp) : Sync :=
  ops.foldl (fun s o => match o with
    | .setExpr ops => s.grab ops
    | .call ps => s.merge (actionSync ps)
    | .advanceExpr _ | .verify _ _ | .other => s) {}

/-- `Deparser::register_sync`.  `/repo/src/bm_sim/deparser.cpp:102-106`. -/
def deparserSync (calls : List (List Param)) : Sync := calls.foldl (fun s ps => s.merge (actionSync ps)) {}

/-- What a thread executes: an action (actions.cpp:422-437), the operations of a parse state (parser.cpp:1040-1051), the deparser
(deparser.cpp:69-75), a read or write request (context.cpp:594-648), a condition (conditionals.cpp:20-48), `register_reset`
(context.cpp:650-658, stateful.cpp:41-55). -/
inductive Kind where
  | action (ps : List Param)
  | state (ops : List POp)
  | deparse (calls : List (List Param))
  | request (a : Nat)
  | condition (ops : List Op)
  | reset (a : Nat)

/-- The mutexes taken.  `reset_state` makes a `UniqueLock()` without a mutex: stateful.cpp:53. -/
def Kind.locks : Kind → List Nat
  | .action ps => (actionSync ps).mutexes
  | .state ops => (stateSync ops).mutexes
  | .deparse calls => (deparserSync calls).mutexes
  | .request a => [a]
  | .condition _ => []
  | .reset _ => []

/-- Contents of the register arrays. -/
abbrev Store := Nat → List Nat

/-- A task: its kind, and what it does, as a function of what it knows (`σ`): the array it accesses next, with the new contents
and what it knows then; `none` if it is done. -/
structure Task (σ : Type) where
  kind : Kind
  init : σ
  next : σ → Option (Nat × (List Nat → List Nat × σ))

/-- Where a task is. -/
inductive Phase (σ : Type) where
  | wait
  | run (l : σ)
  | fin (l : σ)

/-- The arrays, who holds which mutex, the tasks, and what has been finished so far, with what it found out. -/
structure Sys (σ : Type) where
  store : Store
  owner : Nat → Option Nat := fun _ => none
  phase : Nat → Phase σ := fun _ => .wait
  log : List (Nat × σ) := []

/-- What may happen next. -/
inductive Label where
  | start (t : Nat)
  | access (t : Nat)
  | finish (t : Nat)

/-- One step; `none` if that cannot happen in this state. -/
def Sys.step {σ : Type} (T : Nat → Task σ) (s : Sys σ) : Label → Option (Sys σ)
  -- stateful.h:191-194
  | .start t =>
    match s.phase t with
    | .wait =>
      if (T t).kind.locks.Nodup ∧ ∀ a ∈ (T t).kind.locks, s.owner a = none then
        some { s with owner := fun a => if a ∈ (T t).kind.locks then some t else s.owner a,
                      phase := fun u => if u = t then .run (T t).init else s.phase u }
      else none
    | _ => none
  | .access t =>
    match s.phase t with
    | .run l =>
      match (T t).next l with
      | some (a, f) =>
        some { s with store := fun b => if b = a then (f (s.store a)).1 else s.store b,
                      phase := fun u => if u = t then .run (f (s.store a)).2 else s.phase u }
      | none => none
    | _ => none
  -- `RL` goes out of scope
  | .finish t =>
    match s.phase t with
    | .run l =>
      match (T t).next l with
      | some _ => none
      | none =>
        some { s with owner := fun a => if a ∈ (T t).kind.locks then none else s.owner a,
                      phase := fun u => if u = t then .fin l else s.phase u, log := s.log ++ [(t, l)] }
    | _ => none

/-- A sequence of steps. -/
def Sys.run {σ : Type} (T : Nat → Task σ) (s : Sys σ) : List Label → Option (Sys σ)
  | [] => some s
  | l :: ls => (s.step T l).bind (·.run T ls)

end Bm.RegLocks
