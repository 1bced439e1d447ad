import Verif.Model.ThriftExt

/-!
# Counters, meters and random numbers of psa_switch

`/repo/targets/psa_switch/externs/{psa_counter,psa_meter,psa_random}.{h,cpp}`, `/repo/targets/psa_switch/psa_switch.h:121-207`,
`/repo/include/bm/bm_sim/extern.h:65-78`.

The counters are those of `Model/Counters`, the meters those of `Model/Meter`, conversions and replies of Thrift those of
`Model/ThriftExt`.

Simplifications:
- One context, as in psa_switch.  Names are positions in the list of instances.
- The calls of one instance are one after the other (the lock of the instance; counters and meters have their own for requests).
- Attributes and indices are below 2^64.  The number drawn is chosen by `u` (`uniform_int_distribution` returns a value of the range).
- As built by default (without `NDEBUG`; with it `count` and `execute` have no check).
-/

namespace Bm.PsaExt

open Bm.ThriftExt (Reply Exc toSize toU64 toConfigs ofConfigs cntOp)

variable {R : Type}

/-- An instance as the program declares it: number of counters; number of meters, their type and the number of rates; the range; another
extern.  `/repo/targets/psa_switch/externs/psa_counter.h:29-32`, `psa_meter.h:29-34`, `psa_random.h:26-29`. -/
inductive Decl
  | counter (n : Nat)
  | meter (n : Nat) (type : String) (rates : Nat)
  | random (min max : Nat)
  | other
  deriving DecidableEq

/-- An instance. -/
inductive Inst (R : Type)
  | counter (cs : List Counters.Counter)
  | meter (ms : List (Meter.Meter R))
  | random (lo hi : Nat)
  | other
  deriving DecidableEq

/-- `init`; `none`: the assertion.  `/repo/targets/psa_switch/externs/psa_counter.h:34-39`, `psa_meter.cpp:20-34`,
`psa_random.cpp:23-31`. -/
def Decl.init (zero : R) (now : Nat) : Decl → Option (Inst R)
  | .counter n => some (.counter (List.replicate n ⟨0, 0⟩))
  | .meter n type rates => some (.meter (List.replicate n (Meter.fresh zero (if type = "bytes" then false else true) rates now)))
  | .random min max => if max > min then some (.random min max) else none
  | .other => some .other

/-- All instances.  `/repo/src/bm_sim/P4Objects.cpp:2278-2281`. -/
def load (zero : R) (now : Nat) (ds : List Decl) : Option (List (Inst R)) := ds.mapM (Decl.init zero now)

/-! ## Packets -/

/-- The colours of PSA.  `/repo/targets/psa_switch/externs/psa_meter.cpp:58-69`. -/
def psaColor : Nat → Nat
  | 0 => 1
  | 1 => 2
  | 2 => 0
  | _ => 1

/-- `count`.  `/repo/targets/psa_switch/externs/psa_counter.cpp:20-33`.  `none`: the instance is no counter (null pointer). -/
def count (s : List (Inst R)) (n idx len : Nat) : Option (List (Inst R)) :=
  match s[n]? with
  | some (.counter cs) =>
    if idx ≥ cs.length then some s
    else (cs[idx]?).map fun k => s.set n (.counter (cs.set idx (cntOp k (.inc idx len))))
  | _ => none

/-- `execute`: the value of the field, which was `old`.  `/repo/targets/psa_switch/externs/psa_meter.cpp:36-72`. -/
def execute (A : Meter.RateArith R) (s : List (Inst R)) (n idx now len old : Nat) : Option (List (Inst R) × Nat) :=
  match s[n]? with
  | some (.meter ms) =>
    if idx ≥ ms.length then some (s, old)
    else do
      let (c, ms) ← Meter.arrayExecute A ms idx now len 0
      return (s.set n (.meter ms), psaColor c)
  | _ => none

/-- `read`.  `/repo/targets/psa_switch/externs/psa_random.cpp:33-41`. -/
def draw (s : List (Inst R)) (n u : Nat) : Option Nat :=
  match s[n]? with
  | some (.random lo hi) => some (lo + u % (hi - lo + 1))
  | _ => none

/-! ## Requests -/

/-- The requests psa_switch redirects to its externs.  `/repo/targets/psa_switch/psa_switch.h:121-207`. -/
inductive Req (R : Type)
  | cntRead (n : Nat) (i : Int32)
  | cntWrite (n : Nat) (i : Int32) (b p : Int64)
  | cntReset (n : Nat)
  | mtrSet (n : Nat) (i : Int32) (rs : List (R × Int32))
  | mtrSetAll (n : Nat) (rs : List (R × Int32))
  | mtrGet (n : Nat) (i : Int32)

/-- A request; `none`: `static_cast` to another type.  Results of `set_rates` are dropped.
`/repo/targets/psa_switch/psa_switch.h:121-207`, `/repo/src/bm_runtime/Standard_server.cpp:815-852,919-971`. -/
def exec (A : Meter.RateArith R) (s : List (Inst R)) : Req R → Option (List (Inst R) × Reply R)
  | .cntRead n i =>
    match s[n]? with
    | none => some (s, .exc .cntName)
    | some (.counter cs) =>
      if toSize i ≥ cs.length then some (s, .exc .cntIndex)
      else (cs[toSize i]?).map fun k => (s, .cnt (Int64.ofInt k.bytes) (Int64.ofInt k.packets))
    | some _ => none
  | .cntWrite n i b p =>
    match s[n]? with
    | none => some (s, .exc .cntName)
    | some (.counter cs) =>
      if toSize i ≥ cs.length then some (s, .exc .cntIndex)
      else (cs[toSize i]?).map fun k =>
        (s.set n (.counter (cs.set (toSize i) (cntOp k (.set (toSize i) (toU64 b) (toU64 p))))), .done)
    | some _ => none
  | .cntReset n =>
    match s[n]? with
    | none => some (s, .exc .cntName)
    | some (.counter cs) => some (s.set n (.counter (cs.map fun k => cntOp k (.set 0 0 0))), .done)
    | some _ => none
  | .mtrSet n i rs =>
    match s[n]? with
    | none => some (s, .exc .mtrName)
    | some (.meter ms) =>
      if toSize i ≥ ms.length then some (s, .exc .mtrIndex)
      else do
        let m ← ms[toSize i]?
        let (_, m) ← Meter.setRates A m (toConfigs rs)
        return (s.set n (.meter (ms.set (toSize i) m)), .done)
    | some _ => none
  | .mtrSetAll n rs =>
    match s[n]? with
    | none => some (s, .exc .mtrName)
    | some (.meter ms) => do
      let (_, ms) ← Meter.arraySetRates A ms (toConfigs rs)
      return (s.set n (.meter ms), .done)
    | some _ => none
  | .mtrGet n i =>
    match s[n]? with
    | none => some (s, .exc .mtrName)
    | some (.meter ms) =>
      if toSize i ≥ ms.length then some (s, .exc .mtrIndex)
      else (ms[toSize i]?).map fun m => (s, .rates (ofConfigs (Meter.getRates m)))
    | some _ => none

/-! ## Everything -/

/-- What happens. -/
inductive Ev (R : Type)
  | count (n idx len : Nat)
  | execute (n idx len old : Nat)
  | random (n u : Nat)
  | req (r : Req R)
  | resetState

/-- What is seen of it: nothing, the value of a field, a reply. -/
inductive Ans (R : Type)
  | none
  | value (v : Nat)
  | reply (r : Reply R)
  deriving DecidableEq

/-- One event at time `now`; `reset_state` knows nothing of externs.  `/repo/include/bm/bm_sim/extern.h:65-78`,
`/repo/src/bm_sim/P4Objects.cpp:2327-2346`. -/
def step (A : Meter.RateArith R) (s : List (Inst R)) (now : Nat) : Ev R → Option (List (Inst R) × Ans R)
  | .count n idx len => (count s n idx len).map fun s => (s, .none)
  | .execute n idx len old => (execute A s n idx now len old).map fun x => (x.1, .value x.2)
  | .random n u => (draw s n u).map fun v => (s, .value v)
  | .req r => (exec A s r).map fun x => (x.1, .reply x.2)
  | .resetState => some (s, .reply .done)

/-- One after the other. -/
def run (A : Meter.RateArith R) (s : List (Inst R)) : List (Nat × Ev R) → Option (List (Inst R) × List (Ans R))
  | [] => some (s, [])
  | (now, e) :: es => do
    let (s, a) ← step A s now e
    let (s, as) ← run A s es
    return (s, a :: as)

end Bm.PsaExt
