import Verif.Model.Data

/-!
# Model of `Register` and `RegisterArray`

Transcribes `/repo/src/bm_sim/stateful.cpp`, the register functions of `/repo/src/bm_sim/context.cpp` and
of the targets.

* Part 1: the functions, one after the other.  Outer `none`: undefined behaviour, failed assertion or
  exception.
* Part 2: threads.  Actions, parse states and the API hold the mutex of an array while they access it;
  `reset_state` does not (`UniqueLock()` is a lock on nothing).  A register is accessed through a
  reference to an element of the vector, which `reset_state` swaps and destroys; using a reference to a
  destroyed vector is undefined behaviour.  The steps of part 2 are taken as atomic.
-/

namespace Bm.Reg

/-- `RegisterArray`: width and values.  The masks of the registers are all `2 ^ width - 1`.
`/repo/include/bm/bm_sim/stateful.h:65,162-165`. -/
structure Arr where
  width : Nat
  cells : List Int
  deriving Repr, DecidableEq

/-- Constructor; `Data` is initially 0.  `/repo/src/bm_sim/stateful.cpp:31-37`,
`/repo/include/bm/bm_sim/data.h:466`. -/
def Arr.mk' (size width : Nat) : Arr := ⟨width, List.replicate size 0⟩

/-- `export_bytes` without the notification.  `/repo/src/bm_sim/stateful.cpp:19-29`. -/
def mask (width : Nat) (v : Int) : Int := v.land (2 ^ width - 1)

/-- `reset_state`.  `/repo/src/bm_sim/stateful.cpp:39-52`. -/
def Arr.reset (a : Arr) : Arr := ⟨a.width, List.replicate a.cells.length 0⟩

/-- A `Data` operation on a register: the value is assigned, then `export_bytes`; `at`/`operator[]`
throws or fails an assertion for an index out of range.
`/repo/include/bm/bm_sim/data.h:95-369`, `/repo/include/bm/bm_sim/stateful.h:102-122`. -/
def Arr.set (a : Arr) (idx : Nat) (v : Int) : Option Arr :=
  if idx < a.cells.length then some { a with cells := a.cells.set idx (mask a.width v) } else none

/-- `RegisterErrorCode`.  `/repo/include/bm/bm_sim/stateful.h:52-57`. -/
inductive Code
  | success
  | invalidName
  | invalidIndex
  deriving Repr, DecidableEq

/-- The register arrays of a context, by name.  `/repo/src/bm_sim/P4Objects.cpp:2626-2632`. -/
abbrev Ctx := Nat → Option Arr

/-- Writing through the pointer that `get_register_array_rt` returned for the name.
`/repo/src/bm_sim/P4Objects.cpp:2626-2632`. -/
def Ctx.put (c : Ctx) (n : Nat) (a : Arr) : Ctx := fun m => if m = n then some a else c m

/-- `register_read`.  `/repo/src/bm_sim/context.cpp:594-605`. -/
def Ctx.read (c : Ctx) (n idx : Nat) : Option (Code × Option Int) :=
  match c n with
  | none => some (.invalidName, none)
  | some a =>
    if idx ≥ a.cells.length then some (.invalidIndex, none)
    else (a.cells[idx]?).map fun v => (.success, some v)

/-- `register_read_all`.  `/repo/src/bm_sim/context.cpp:607-617`. -/
def Ctx.readAll (c : Ctx) (n : Nat) : List Int :=
  match c n with
  | none => []
  | some a => a.cells

/-- `register_write`.  `/repo/src/bm_sim/context.cpp:619-630`. -/
def Ctx.write (c : Ctx) (n idx : Nat) (v : Int) : Option (Code × Ctx) :=
  match c n with
  | none => some (.invalidName, c)
  | some a =>
    if idx ≥ a.cells.length then some (.invalidIndex, c)
    else (a.set idx v).map fun a => (.success, c.put n a)

/-- The loop of `register_write_range`.  `/repo/src/bm_sim/context.cpp:643-644`. -/
def Arr.setRange (a : Arr) (v : Int) (idx : Nat) : Nat → Option Arr
  | 0 => some a
  | k + 1 => (a.set idx v).bind fun a => a.setRange v (idx + 1) k

/-- `register_write_range`.  `/repo/src/bm_sim/context.cpp:632-646`. -/
def Ctx.writeRange (c : Ctx) (n start stop : Nat) (v : Int) : Option (Code × Ctx) :=
  match c n with
  | none => some (.invalidName, c)
  | some a =>
    if stop > a.cells.length ∨ start > stop then some (.invalidIndex, c)
    else (a.setRange v start (stop - start)).map fun a => (.success, c.put n a)

/-- `register_reset`.  `/repo/src/bm_sim/context.cpp:648-656`. -/
def Ctx.reset (c : Ctx) (n : Nat) : Code × Ctx :=
  match c n with
  | none => (.invalidName, c)
  | some a => (.success, c.put n a.reset)

/-- A primitive that writes a register through `Data &`: `f` computes the value from the value there.
`/repo/include/bm/bm_sim/actions.h:286-291`. -/
def Ctx.update (c : Ctx) (n idx : Nat) (f : Int → Option Int) : Option Ctx :=
  match c n with
  | none => none
  | some a => do
    let v ← f (← a.cells[idx]?)
    return c.put n (← a.set idx v)

/-- The primitive `register_read` of simple_switch and psa_switch; the inner `none`: the field is not
changed.  With `NDEBUG` the index is not checked.
`/repo/targets/simple_switch/primitives.cpp:396-415`, `/repo/targets/psa_switch/primitives.cpp:305-324`. -/
def Ctx.primRead (c : Ctx) (ndebug : Bool) (n : Nat) (idx : Int) : Option (Option Int) := do
  let a ← c n
  let i ← Data.getUint idx
  if !ndebug && decide (i ≥ a.cells.length) then some none else (a.cells[i]?).map some

/-- The primitive `register_write`.
`/repo/targets/simple_switch/primitives.cpp:419-438`, `/repo/targets/psa_switch/primitives.cpp:328-347`. -/
def Ctx.primWrite (c : Ctx) (ndebug : Bool) (n : Nat) (idx v : Int) : Option Ctx := do
  let a ← c n
  let i ← Data.getUint idx
  if !ndebug && decide (i ≥ a.cells.length) then some c else (a.set i v).map (c.put n)

/-! ## Threads -/

/-- What the thread that holds the mutex is doing: nothing, has a reference to a register of the vector
number `gen` and is about to assign `v`, or has assigned and is about to call `export_bytes`.
`/repo/include/bm/bm_sim/data.h:116-125`, `/repo/src/bm_sim/stateful.cpp:24-29`. -/
inductive Phase
  | idle
  | pending (gen idx : Nat) (v : Int)
  | dirty (gen idx : Nat) (v : Int)
  deriving Repr, DecidableEq

/-- What was done, in order (a record kept for the theorems; the code has none). -/
inductive Entry
  | wrote (idx : Nat) (v : Int)
  | reset
  | read (idx : Nat) (v : Int)
  deriving Repr, DecidableEq

/-- An array used by threads: array, number of the current vector (`gen`), holder of `m_mutex`, what it is
doing, record.  `/repo/include/bm/bm_sim/stateful.h:162-171`. -/
structure Sys where
  arr : Arr
  gen : Nat
  owner : Option Nat
  phase : Phase
  log : List Entry
  deriving Repr, DecidableEq

/-- A new array.  `/repo/src/bm_sim/stateful.cpp:31-37`. -/
def Sys.mk' (size width : Nat) : Sys := ⟨.mk' size width, 0, none, .idle, []⟩

/-- Steps of thread `t`: locking and unlocking the mutex; a write in three steps (the reference, the
assignment, `export_bytes`); a read; `reset_state`, by any thread.
`/repo/src/bm_sim/context.cpp:594-656`, `/repo/include/bm/bm_sim/stateful.h:191-194`. -/
inductive Ev
  | acquire (t : Nat)
  | release (t : Nat)
  | begin (t idx : Nat) (v : Int)
  | assign (t : Nat)
  | export (t : Nat)
  | read (t idx : Nat)
  | reset
  deriving Repr, DecidableEq

/-- Steps are done, not possible now, or undefined behaviour. -/
inductive Out
  | ok (s : Sys)
  | no
  | ub
  deriving Repr, DecidableEq

/-- One step.  `/repo/src/bm_sim/stateful.cpp:24-29,39-52`, `/repo/include/bm/bm_sim/stateful.h:155,191-194`,
`/repo/include/bm/bm_sim/data.h:116-125`. -/
def Sys.step (s : Sys) : Ev → Out
  | .acquire t => if s.owner = none then .ok { s with owner := some t } else .no
  | .release t => if s.owner = some t ∧ s.phase = .idle then .ok { s with owner := none } else .no
  | .begin t idx v =>
    if s.owner = some t ∧ s.phase = .idle then
      if idx < s.arr.cells.length then .ok { s with phase := .pending s.gen idx v } else .ub
    else .no
  | .assign t =>
    match s.phase with
    | .pending gen idx v =>
      if s.owner = some t then
        if gen = s.gen then
          .ok { s with arr := { s.arr with cells := s.arr.cells.set idx v }, phase := .dirty gen idx v }
        else .ub
      else .no
    | _ => .no
  | .export t =>
    match s.phase with
    | .dirty gen idx v =>
      if s.owner = some t then
        if gen = s.gen then
          .ok { s with
            arr := { s.arr with cells := s.arr.cells.modify idx (mask s.arr.width) }
            phase := .idle
            log := s.log ++ [.wrote idx v] }
        else .ub
      else .no
    | _ => .no
  | .read t idx =>
    if s.owner = some t ∧ s.phase = .idle then
      match s.arr.cells[idx]? with
      | some v => .ok { s with log := s.log ++ [.read idx v] }
      | none => .ub
    else .no
  | .reset => .ok { s with arr := s.arr.reset, gen := s.gen + 1, log := s.log ++ [.reset] }

/-- A run; steps that are not possible are skipped. -/
def Sys.run (s : Sys) : List Ev → Option Sys
  | [] => some s
  | e :: es =>
    match s.step e with
    | .ok s' => s'.run es
    | .no => s.run es
    | .ub => none

end Bm.Reg
