import Verif.Model.MatchUnit
import Verif.Model.Meter
import Verif.Model.Dbl

/-!
# Idle timeouts, direct counters and direct meters through PI

`/repo/PI/src/pi_tables_imp.cpp`, `/repo/PI/src/direct_res_spec.cpp`, `/repo/PI/src/pi_counter_imp.cpp`,
`/repo/PI/src/pi_meter_imp.cpp`, on a table with the match unit of `Verif.Model.MatchUnit`, whose
meters have rates in `double` (`Verif.Model.Dbl`).  Outer `none`: undefined behaviour.

Simplifications: one thread; names of tables are resolved; the two units of meters (packets, bytes)
are treated by the code in the same way and are left out; action data are part of the value `V`.
-/

namespace Bm.PiRes

/-- The meters of the table. -/
abbrev Mtr := Meter.Meter Nat

/-- The arithmetic of rates.  `/repo/src/bm_sim/meters.cpp:37, 75-76`. -/
def arith : Meter.RateArith Nat where
  acc r t := Dbl.trunc (Dbl.mul (Dbl.ofNat t) r)
  gt a b := decide (b < a)

/-- A table: match unit and what the program enabled.
`/repo/include/bm/bm_sim/match_tables.h:214-224`. -/
structure Tbl {K : Type} (L : LookupStr K) (V : Type) where
  mu : MUnit L V Mtr
  ageing : Bool
  counters : Bool
  meters : Bool

/-- Status returned to PI: success, `..._DISABLED`, an error of the match unit, or
`PI_STATUS_NOT_IMPLEMENTED_BY_TARGET`.  `/repo/PI/src/common.h:43-47`. -/
inductive St
  | success | disabled | unit (c : MCode) | notImplemented
deriving DecidableEq, Repr

/-- Status of an error code of the match unit.  `/repo/PI/src/common.h:43-47`. -/
def stOf (c : MCode) : St := if c = .success then .success else .unit c

/-- `pi_counter_data_t`: the values whose unit is marked valid.
`/repo/PI/src/direct_res_spec.cpp:19-29`. -/
structure CounterData where
  bytes : Option Nat
  packets : Option Nat
deriving DecidableEq, Repr

/-- `pi_meter_spec_t` without unit and type.  `/repo/PI/src/direct_res_spec.cpp:39-71`. -/
structure MeterSpec where
  cir : Nat
  cburst : Nat
  pir : Nat
  pburst : Nat
deriving DecidableEq, Repr

/-- The specification that stands for "not configured".  `/repo/PI/src/direct_res_spec.cpp:43-50`. -/
def MeterSpec.default : MeterSpec := ⟨2 ^ 64 - 1, 2 ^ 32 - 1, 2 ^ 64 - 1, 2 ^ 32 - 1⟩

/-- `convert_from_counter_data`: bytes and packets, 0 for a unit that is not valid.
`/repo/PI/src/direct_res_spec.cpp:19-29`. -/
def fromCounter (d : CounterData) : Nat × Nat := (d.bytes.getD 0, d.packets.getD 0)

/-- `convert_to_counter_data`.  `/repo/PI/src/direct_res_spec.cpp:31-37`. -/
def toCounter (b p : Nat) : CounterData := ⟨some b, some p⟩

/-- `static_cast<double>(r) / 1000000.`  `/repo/PI/src/direct_res_spec.cpp:54, 60`. -/
def rateOf (r : Nat) : Nat := Dbl.div (Dbl.ofNat r) (Dbl.ofNat 1000000)

/-- `static_cast<uint64_t>(rate.info_rate * 1000000.)`  `/repo/PI/src/direct_res_spec.cpp:81, 86`. -/
def rateBack (x : Nat) : Nat := Dbl.trunc (Dbl.mul x (Dbl.ofNat 1000000))

/-- `convert_from_meter_spec`; empty for the default specification.
`/repo/PI/src/direct_res_spec.cpp:39-72`. -/
def fromSpec (s : MeterSpec) : List (Meter.Config Nat) :=
  if s = MeterSpec.default then []
  else [⟨rateOf s.cir, s.cburst⟩, ⟨rateOf s.pir, s.pburst⟩]

/-- `convert_to_meter_spec`; `at` throws on a missing rate.
`/repo/PI/src/direct_res_spec.cpp:74-107`. -/
def toSpec : List (Meter.Config Nat) → Option MeterSpec
  | [] => some MeterSpec.default
  | a :: b :: _ => some ⟨rateBack a.infoRate, a.burst % 2 ^ 32, rateBack b.infoRate, b.burst % 2 ^ 32⟩
  | [_] => none

variable {K : Type} {L : LookupStr K} {V : Type}

/-- `set_entry_ttl` of the table.  `/repo/src/bm_sim/match_tables.cpp:290-295`. -/
def mtSetTtl (t : Tbl L V) (h ttl now : Nat) : Option (St × Tbl L V) :=
  if t.ageing then do
    let (c, mu) ← t.mu.setEntryTtl h ttl now
    return (stOf c, { t with mu := mu })
  else some (.disabled, t)

/-- `write_counters` of the table.  `/repo/src/bm_sim/match_tables.cpp:242-253`. -/
def mtWriteCounters (t : Tbl L V) (h b p : Nat) : Option (St × Tbl L V) :=
  if t.counters then do
    let (c, mu) ← t.mu.writeCounters h b p
    return (stOf c, { t with mu := mu })
  else some (.disabled, t)

/-- `query_counters` of the table.  `/repo/src/bm_sim/match_tables.cpp:221-232`. -/
def mtReadCounters (t : Tbl L V) (h : Nat) : Option (St × Option (Nat × Nat)) :=
  if t.counters then do
    let (c, r) ← t.mu.queryCounters h
    return (stOf c, r)
  else some (.disabled, none)

/-- The operation of `set_meter_rates` and `reset_meter_rates` on the meter.
`/repo/src/bm_sim/match_tables.cpp:262-265, 284-287`. -/
def applyRates (cs : List (Meter.Config Nat)) (m : Mtr) : Mtr × Bool :=
  match Meter.setRates arith m cs with
  | some (.success, m') => (m', true)
  | some (_, m') => (m', false)
  | none => (m, false)

/-- `set_meter_rates`, or `reset_meter_rates` for the empty list, as PI calls them.
`/repo/PI/src/pi_tables_imp.cpp:684-694`, `/repo/src/bm_sim/match_tables.cpp:255-288`. -/
def mtSetRates (t : Tbl L V) (h : Nat) (cs : List (Meter.Config Nat)) : Option (St × Tbl L V) :=
  if t.meters then do
    let (c, mu) ← t.mu.meterOp h (if cs.isEmpty then fun m => (Meter.resetRates m, true) else applyRates cs)
    return (stOf c, { t with mu := mu })
  else some (.disabled, t)

/-- `get_meter_rates` of the table.  `/repo/src/bm_sim/match_tables.cpp:268-277`. -/
def mtGetRates (t : Tbl L V) (h : Nat) : Option (St × List (Meter.Config Nat)) :=
  if t.meters then do
    let (c, r) ← t.mu.queryMeter h
    return (stOf c, (r.map Meter.getRates).getD [])
  else some (.disabled, [])

/-- `static_cast<unsigned int>(properties->ttl_ns / 1000000)`.
`/repo/PI/src/pi_tables_imp.cpp:147, 161`. -/
def ttlMs (ns : Nat) : Nat := (ns / 1000000) % 2 ^ 32

/-- `set_ttl`, `set_indirect_ttl`; `ttl`: the property, if set.
`/repo/PI/src/pi_tables_imp.cpp:140-165`. -/
def setTtl (t : Tbl L V) (h : Nat) (ttl : Option Nat) (now : Nat) : Option (St × Tbl L V) :=
  match ttl with
  | none => some (.success, t)
  | some ns => mtSetTtl t h (ttlMs ns) now

/-- A direct resource given with an entry.  `/repo/PI/src/pi_tables_imp.cpp:669-704`. -/
inductive Res
  | counter (d : CounterData)
  | meter (s : MeterSpec)
deriving DecidableEq, Repr

/-- One iteration of `set_direct_resources`.  `/repo/PI/src/pi_tables_imp.cpp:669-704`. -/
def setRes (t : Tbl L V) (h : Nat) : Res → Option (St × Tbl L V)
  | .counter d => mtWriteCounters t h (fromCounter d).1 (fromCounter d).2
  | .meter s => mtSetRates t h (fromSpec s)

/-- `set_direct_resources`: stops at the first error.  `/repo/PI/src/pi_tables_imp.cpp:662-705`. -/
def setAllRes (t : Tbl L V) (h : Nat) : List Res → Option (St × Tbl L V)
  | [] => some (.success, t)
  | r :: rs => do
    let (c, t') ← setRes t h r
    if c = .success then setAllRes t' h rs else some (c, t')

/-- `_pi_table_entry_add` from the call of bmv2 on: the status, the handle given out, the table.
`/repo/PI/src/pi_tables_imp.cpp:778-801, 167-212`. -/
def entryAdd (t : Tbl L V) (key : Option K) (v : V) (ttl : Option Nat) (rs : List Res) (now : Nat) :
    Option (St × Nat × Tbl L V) := do
  let ((c, h), mu) ← t.mu.addEntry key v now
  let t1 := { t with mu := mu }
  if c ≠ .success then some (stOf c, 0, t1) else do
  let (c2, t2) ← setTtl t1 h ttl now
  if c2 ≠ .success then some (c2, 0, t2) else do
  let (c3, t3) ← setAllRes t2 h rs
  some (c3, h, t3)

/-- `_pi_table_entry_modify`.  `/repo/PI/src/pi_tables_imp.cpp:951-981`. -/
def entryModify (t : Tbl L V) (h : Nat) (v : V) (ttl : Option Nat) (rs : List Res) (now : Nat) :
    Option (St × Tbl L V) := do
  let (c, mu) ← t.mu.modifyEntry h v
  let t1 := { t with mu := mu }
  if c ≠ .success then some (stOf c, t1) else do
  let (c2, t2) ← setTtl t1 h ttl now
  if c2 ≠ .success then some (c2, t2) else
  setAllRes t2 h rs

/-- `get_default_handle`.  `/repo/PI/src/common.h:84-86`. -/
def defaultHandle : Nat := 2 ^ 64 - 1

/-- `_pi_counter_read_direct`.  `/repo/PI/src/pi_counter_imp.cpp:113-138`. -/
def counterRead (t : Tbl L V) (h : Nat) : Option (St × Option CounterData) :=
  if h = defaultHandle then some (.notImplemented, none)
  else do
    let (c, r) ← mtReadCounters t h
    return (c, r.map fun x => toCounter x.1 x.2)

/-- `merge_current_value`.  `/repo/PI/src/pi_counter_imp.cpp:32-45`. -/
def merge (d cur : CounterData) : CounterData :=
  ⟨if d.bytes.isSome then d.bytes else cur.bytes, if d.packets.isSome then d.packets else cur.packets⟩

/-- `_pi_counter_write_direct`.  `/repo/PI/src/pi_counter_imp.cpp:140-177`. -/
def counterWrite (t : Tbl L V) (h : Nat) (d : CounterData) : Option (St × Tbl L V) :=
  if h = defaultHandle then some (.notImplemented, t)
  else if d.bytes.isSome && d.packets.isSome then
    mtWriteCounters t h (fromCounter d).1 (fromCounter d).2
  else do
    let (c, r) ← counterRead t h
    match c, r with
    | .success, some cur =>
      mtWriteCounters t h (fromCounter (merge d cur)).1 (fromCounter (merge d cur)).2
    | .success, none => none
    | c, _ => some (c, t)

/-- `_pi_meter_read_direct`.  `/repo/PI/src/pi_meter_imp.cpp:87-111`. -/
def meterRead (t : Tbl L V) (h : Nat) : Option (St × Option MeterSpec) :=
  if h = defaultHandle then some (.notImplemented, none)
  else do
    let (c, r) ← mtGetRates t h
    if c = .success then do
      let s ← toSpec r
      return (.success, some s)
    else return (c, none)

/-- `_pi_meter_set_direct`.  `/repo/PI/src/pi_meter_imp.cpp:113-143`. -/
def meterSet (t : Tbl L V) (h : Nat) (s : MeterSpec) : Option (St × Tbl L V) :=
  if h = defaultHandle then some (.notImplemented, t) else mtSetRates t h (fromSpec s)

/-- The value `_pi_table_entry_get_remaining_ttl` gives for an entry with the timeout `timeout`
(milliseconds) last hit `since` milliseconds ago; all of type `uint32_t`, like the products.
`/repo/PI/src/pi_tables_imp.cpp:1103-1109`, `/repo/src/bm_sim/match_tables.cpp:339-340`. -/
def remainingNs (timeout since : Nat) : Nat :=
  if timeout = 0 then 2 ^ 64 - 1
  else if timeout > since % 2 ^ 32 then (timeout - since % 2 ^ 32) * 1000 % 2 ^ 32 * 1000 % 2 ^ 32
  else 0

/-- `_pi_table_entry_get_remaining_ttl` for a valid handle.  `get_match_entry` fails if the entry is
gone; the version of the handle is checked there.  `/repo/PI/src/pi_tables_imp.cpp:1090-1115`. -/
def remaining (t : Tbl L V) (h now : Nat) : Option (St × Nat) := do
  let c ← t.mu.checkHandle h
  if c ≠ .success then return (stOf c, 0)
  let m := t.mu.metas (handleInternal h)
  if t.ageing then return (.success, remainingNs m.timeoutMs (now - m.ts))
  else return (.success, remainingNs 0 0)

end Bm.PiRes
