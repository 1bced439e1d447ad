import Verif.Model.Register
import Verif.Model.Counters
import Verif.Model.Meter
import Verif.Model.ParseVSet
import Verif.Spec.ThriftExt

/-!
# Model of the requests of the Thrift server about registers, counters, meters and value sets

Transcribes `/repo/src/bm_runtime/Standard_server.cpp:815-852, 919-1078, 1179-1182` and the methods of
`SwitchWContexts` and `Context` that it calls, on top of the models of the four kinds of objects.  Outer `none` is a failed
assertion or undefined behaviour.

* `conv` is `convert_to<int64_t>` of a big integer; what it does with a number that does not fit is left open.
* The codes are cast to the enumerations of the interface, which have the same numbers
  (`/repo/thrift_src/standard.thrift:119-169`, `/repo/include/bm/bm_sim/{stateful,counters,meters,parser}.h`).
* An exception that is not declared is caught by the processor that Thrift generates and reported to the client.
* A request is atomic; names are numbers.
-/

namespace Bm.ThriftExt

/-- A context: `register_arrays`, `counter_arrays`, `meter_arrays`, `parse_vsets` of `P4Objects`.
`/repo/src/bm_sim/P4Objects.cpp:2614-2636`. -/
structure Ctx (R : Type) where
  regs : Reg.Ctx
  cnts : Nat → Option (List Counters.Counter)
  mtrs : Nat → Option (List (Meter.Meter R))
  vsets : Nat → Option VSet.VSet

variable {R : Type}

/-- Writing through the pointer that was found for a name.  `/repo/src/bm_sim/P4Objects.cpp:2614-2636`. -/
def put {α : Type} (f : Nat → Option α) (n : Nat) (a : α) : Nat → Option α := fun m => if m = n then some a else f m

/-- The objects as the program declares them.  `/repo/src/bm_sim/stateful.cpp:31-37`,
`/repo/include/bm/bm_sim/counters.h:100-103`, `/repo/src/bm_sim/meters.cpp:137-144`, `/repo/src/bm_sim/parser.cpp:667-679`. -/
def Decl.init (zero : R) (now : Nat) (d : Decl) : Ctx R where
  regs n := (d.regs n).map fun x => .mk' x.1 x.2
  cnts n := (d.cnts n).map fun x => List.replicate x ⟨0, 0⟩
  mtrs n := (d.mtrs n).map fun x => List.replicate x.2.2 (Meter.fresh zero x.1 x.2.1 now)
  vsets n := (d.vsets n).map fun x => .mk' x.1 x.2

/-! ## Conversions -/

/-- `static_cast<size_t>` of an `int32_t`.  `/repo/src/bm_runtime/Standard_server.cpp:847,926,947,977`. -/
def toSize (i : Int32) : Nat := (i.toInt % 2 ^ 64).toNat

/-- Conversion of an `int32_t` to `cxt_id_t`.  `/repo/include/bm/bm_sim/device_id.h:24`. -/
def toCxt (i : Int32) : Nat := (i.toInt % 2 ^ 32).toNat

/-- `(uint64_t)` of an `int64_t`.  `/repo/src/bm_runtime/Standard_server.cpp:843-844`. -/
def toU64 (x : Int64) : Nat := (x.toInt % 2 ^ 64).toNat

/-- Cast of a register code.  `/repo/src/bm_runtime/Standard_server.cpp:980`, `/repo/include/bm/bm_sim/stateful.h:52-57`. -/
def regExc : Reg.Code → Option Exc
  | .success => none
  | .invalidName => some .regName
  | .invalidIndex => some .regIndex

/-- Cast of a meter code.  `/repo/src/bm_runtime/Standard_server.cpp:933`, `/repo/include/bm/bm_sim/meters.h:83-91`. -/
def mtrExc : Meter.Code → Option Exc
  | .success => none
  | .badRatesList => some .badRates
  | .invalidInfoRate => some .infoRate

/-- The common end: throw, or return the value.  `/repo/src/bm_runtime/Standard_server.cpp:978-983`. -/
def finish (e : Option Exc) (r : Reply R) : Reply R :=
  match e with
  | some e => .exc e
  | none => r

/-- The rates of a request.  `/repo/src/bm_runtime/Standard_server.cpp:921-927,939-945`. -/
def toConfigs (rs : List (R × Int32)) : List (Meter.Config R) := rs.map fun p => ⟨p.1, toSize p.2⟩

/-- The rates of a reply; `burst_size` is an `i32`.  `/repo/src/bm_runtime/Standard_server.cpp:966-970`. -/
def ofConfigs (cs : List (Meter.Config R)) : List (R × Int32) := cs.map fun c => (c.infoRate, Int32.ofInt c.burst)

/-! ## Registers -/

/-- `bm_register_read`.  `/repo/src/bm_runtime/Standard_server.cpp:973-984`. -/
def Ctx.regRead (conv : Int → Int64) (c : Ctx R) (n : Nat) (i : Int32) : Option (Reply R × Ctx R) := do
  let (rc, v) ← c.regs.read n (toSize i)
  return (finish (regExc rc) (.val (conv (v.getD 0))), c)

/-- `bm_register_read_all`.  `/repo/src/bm_runtime/Standard_server.cpp:986-996`. -/
def Ctx.regReadAll (conv : Int → Int64) (c : Ctx R) (n : Nat) : Option (Reply R × Ctx R) :=
  if (c.regs.readAll n).isEmpty then some (.exc .regName, c)
  else some (.vals ((c.regs.readAll n).map conv), c)

/-- `bm_register_write`.  `/repo/src/bm_runtime/Standard_server.cpp:998-1007`. -/
def Ctx.regWrite (c : Ctx R) (n : Nat) (i : Int32) (v : Int64) : Option (Reply R × Ctx R) := do
  let (rc, regs) ← c.regs.write n (toSize i) v.toInt
  return (finish (regExc rc) .done, { c with regs })

/-- `bm_register_write_range`.  `/repo/src/bm_runtime/Standard_server.cpp:1009-1019`. -/
def Ctx.regWriteRange (c : Ctx R) (n : Nat) (i j : Int32) (v : Int64) : Option (Reply R × Ctx R) := do
  let (rc, regs) ← c.regs.writeRange n (toSize i) (toSize j) v.toInt
  return (finish (regExc rc) .done, { c with regs })

/-- `bm_register_reset`.  `/repo/src/bm_runtime/Standard_server.cpp:1021-1030`. -/
def Ctx.regReset (c : Ctx R) (n : Nat) : Reply R × Ctx R :=
  (finish (regExc (c.regs.reset n).1) .done, { c with regs := (c.regs.reset n).2 })

/-! ## Counters -/

/-- An operation on a counter.  `/repo/src/bm_sim/counters.cpp:17-36`, `/repo/include/bm/bm_sim/counters.h:58-61`. -/
def cntOp (k : Counters.Counter) (o : Counters.Op) : Counters.Counter :=
  o.steps.foldl (fun k s => k.step s.1 s.2) k

/-- `bm_counter_read`.  `/repo/src/bm_runtime/Standard_server.cpp:815-828`, `/repo/src/bm_sim/context.cpp:519-529`. -/
def Ctx.cntRead (c : Ctx R) (n : Nat) (i : Int32) : Option (Reply R × Ctx R) :=
  match c.cnts n with
  | none => some (.exc .cntName, c)
  | some a =>
    if toSize i ≥ a.length then some (.exc .cntIndex, c)
    else (a[toSize i]?).map fun k => (.cnt (Int64.ofInt k.bytes) (Int64.ofInt k.packets), c)

/-- `bm_counter_write`.  `/repo/src/bm_runtime/Standard_server.cpp:841-852`, `/repo/src/bm_sim/context.cpp:540-550`. -/
def Ctx.cntWrite (c : Ctx R) (n : Nat) (i : Int32) (b p : Int64) : Option (Reply R × Ctx R) :=
  match c.cnts n with
  | none => some (.exc .cntName, c)
  | some a =>
    if toSize i ≥ a.length then some (.exc .cntIndex, c)
    else (a[toSize i]?).map fun k => (.done,
      { c with cnts := put c.cnts n (a.set (toSize i) (cntOp k (.set (toSize i) (toU64 b) (toU64 p)))) })

/-- `bm_counter_reset_all`.  `/repo/src/bm_runtime/Standard_server.cpp:830-839`, `/repo/src/bm_sim/context.cpp:531-538`,
`/repo/src/bm_sim/counters.cpp:51-56`. -/
def Ctx.cntReset (c : Ctx R) (n : Nat) : Reply R × Ctx R :=
  match c.cnts n with
  | none => (.exc .cntName, c)
  | some a => (.done, { c with cnts := put c.cnts n (a.map fun k => cntOp k (.set 0 0 0)) })

/-! ## Meters -/

/-- `bm_meter_set_rates`.  `/repo/src/bm_runtime/Standard_server.cpp:937-954`, `/repo/src/bm_sim/context.cpp:562-571`. -/
def Ctx.mtrSet (A : Meter.RateArith R) (c : Ctx R) (n : Nat) (i : Int32) (rs : List (R × Int32)) :
    Option (Reply R × Ctx R) :=
  match c.mtrs n with
  | none => some (.exc .mtrName, c)
  | some a =>
    if toSize i ≥ a.length then some (.exc .mtrIndex, c)
    else do
      let m ← a[toSize i]?
      let (rc, m) ← Meter.setRates A m (toConfigs rs)
      return (finish (mtrExc rc) .done, { c with mtrs := put c.mtrs n (a.set (toSize i) m) })

/-- `bm_meter_array_set_rates`.  `/repo/src/bm_runtime/Standard_server.cpp:919-935`, `/repo/src/bm_sim/context.cpp:552-560`. -/
def Ctx.mtrSetAll (A : Meter.RateArith R) (c : Ctx R) (n : Nat) (rs : List (R × Int32)) : Option (Reply R × Ctx R) :=
  match c.mtrs n with
  | none => some (.exc .mtrName, c)
  | some a => do
    let (rc, a) ← Meter.arraySetRates A a (toConfigs rs)
    return (finish (mtrExc rc) .done, { c with mtrs := put c.mtrs n a })

/-- `bm_meter_get_rates`.  `/repo/src/bm_runtime/Standard_server.cpp:956-971`, `/repo/src/bm_sim/context.cpp:573-583`. -/
def Ctx.mtrGet (c : Ctx R) (n : Nat) (i : Int32) : Option (Reply R × Ctx R) :=
  match c.mtrs n with
  | none => some (.exc .mtrName, c)
  | some a =>
    if toSize i ≥ a.length then some (.exc .mtrIndex, c)
    else (a[toSize i]?).map fun m => (.rates (ofConfigs (Meter.getRates m)), c)

/-! ## Value sets -/

/-- `bm_parse_vset_add`, `bm_parse_vset_remove`, `bm_parse_vset_clear`.
`/repo/src/bm_runtime/Standard_server.cpp:1032-1052,1069-1078`, `/repo/src/bm_sim/context.cpp:658-696`. -/
def Ctx.vsetOp (c : Ctx R) (n : Nat) (o : VSet.Op) : Option (Reply R × Ctx R) :=
  match c.vsets n with
  | none => some (.exc .vsetName, c)
  | some a => (a.exec o).map fun a => (.done, { c with vsets := put c.vsets n a })

/-- `bm_parse_vset_get`.  `/repo/src/bm_runtime/Standard_server.cpp:1054-1067`, `/repo/src/bm_sim/context.cpp:678-686`. -/
def Ctx.vsetGet (c : Ctx R) (n : Nat) : Reply R × Ctx R :=
  match c.vsets n with
  | none => (.exc .vsetName, c)
  | some a => (.bytes a.get, c)

/-! ## The switch -/

/-- A request to a context. -/
def Ctx.exec (conv : Int → Int64) (A : Meter.RateArith R) (c : Ctx R) : Req R → Option (Reply R × Ctx R)
  | .regRead n i => c.regRead conv n i
  | .regReadAll n => c.regReadAll conv n
  | .regWrite n i v => c.regWrite n i v
  | .regWriteRange n i j v => c.regWriteRange n i j v
  | .regReset n => some (c.regReset n)
  | .cntRead n i => c.cntRead n i
  | .cntWrite n i b p => c.cntWrite n i b p
  | .cntReset n => some (c.cntReset n)
  | .mtrSet n i rs => c.mtrSet A n i rs
  | .mtrSetAll n rs => c.mtrSetAll A n rs
  | .mtrGet n i => c.mtrGet n i
  | .vsetAdd n v => c.vsetOp n (.add v)
  | .vsetRemove n v => c.vsetOp n (.remove v)
  | .vsetGet n => some (c.vsetGet n)
  | .vsetClear n => c.vsetOp n .clear

/-- What packets do: `count`, writing a register, `execute_meter`; `none` is undefined behaviour or a failed assertion
of the data plane.  `/repo/include/bm/bm_sim/counters.h:58-61,105-125`, `/repo/src/bm_sim/stateful.cpp:19-29`,
`/repo/src/bm_sim/meters.cpp:57-93,146-150`. -/
def Ctx.dp (A : Meter.RateArith R) (c : Ctx R) : Dp → Option (Ctx R)
  | .count n i len => do
    let a ← c.cnts n
    let k ← a[i]?
    return { c with cnts := put c.cnts n (a.set i (cntOp k (.inc i len))) }
  | .regWrite n i v => do
    let a ← c.regs n
    let a ← a.set i v
    return { c with regs := c.regs.put n a }
  | .meter n i now len pre => do
    let a ← c.mtrs n
    let (_, a) ← Meter.arrayExecute A a i now len pre
    return { c with mtrs := put c.mtrs n a }

/-- `P4Objects::reset_state`, the part about these objects: value sets are not reset.
`/repo/src/bm_sim/P4Objects.cpp:2327-2346`. -/
def Ctx.resetState (c : Ctx R) : Ctx R where
  regs n := (c.regs n).map Reg.Arr.reset
  cnts n := (c.cnts n).map fun a => a.map fun k => cntOp k (.set 0 0 0)
  mtrs n := (c.mtrs n).map Meter.arrayReset
  vsets := c.vsets

/-- What an event leads to: the reply if any, and the new state; the server is gone; the data plane did something
undefined. -/
inductive Out (α : Type)
  | ok (x : α)
  | crash
  | undefined

/-- An event.  `contexts.at` throws `std::out_of_range`.  `/repo/include/bm/bm_sim/switch.h:698,705,749-790`,
`/repo/src/bm_sim/switch.cpp:372-379`. -/
def step (conv : Int → Int64) (A : Meter.RateArith R) (s : List (Ctx R)) :
    Ev R → Out (Option (Reply R) × List (Ctx R))
  | .req cxt r =>
    match s[toCxt cxt]? with
    | none => .ok (some .undeclared, s)
    | some c =>
      match c.exec conv A r with
      | none => .crash
      | some (rep, c) => .ok (some rep, s.set (toCxt cxt) c)
  | .resetState => .ok (some .done, s.map Ctx.resetState)
  | .pkt k a =>
    match s[k]? with
    | none => .undefined
    | some c =>
      match c.dp A a with
      | none => .undefined
      | some c => .ok (none, s.set k c)

/-- A history. -/
def run (conv : Int → Int64) (A : Meter.RateArith R) (s : List (Ctx R)) :
    List (Ev R) → Out (List (Option (Reply R)) × List (Ctx R))
  | [] => .ok ([], s)
  | e :: es =>
    match step conv A s e with
    | .crash => .crash
    | .undefined => .undefined
    | .ok (rep, s) =>
      match run conv A s es with
      | .crash => .crash
      | .undefined => .undefined
      | .ok (reps, s) => .ok (rep :: reps, s)

end Bm.ThriftExt
