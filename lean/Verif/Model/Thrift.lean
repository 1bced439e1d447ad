import Verif.Model.MatchTable
import Verif.Model.PiEntry
import Verif.Model.LookupIface
import Verif.Spec.Thrift

/-!
# Model of the table requests of the Thrift server

Transcribes the part of `/repo/src/bm_runtime/Standard_server.cpp` about tables whose entries hold actions, together
with the methods of `Context` (`/repo/src/bm_sim/context.cpp`) that it calls, on top of the key builder
(`Model/KeyBuilder`) and the tables (`Model/MatchTable`).  Outer `none`: exception that Thrift does not declare, failed
assertion or undefined behaviour.

Simplifications: one context; a request is atomic; the fields about ageing are left out; a handle is a `uint32_t` (Thrift
carries the same 32 bits as an `i32`); a parameter has the member that its type announces (a type outside of
the enumeration is a failed assertion); tables with action profiles are opaque.
-/

namespace Bm.Thrift
open Bm.Spec

/-- The match unit of a table, for keys of `n` bytes.  `/repo/src/bm_sim/match_tables.cpp:28-54`,
`/repo/include/bm/bm_sim/match_units.h:500-514`. -/
@[reducible] def Kind.tk : Kind → Nat → TableKind
  | .exact, n => .exact n
  | .lpm, n => .lpm n
  | .ternary c, n => .ternary n c
  | .range c, n => .range n c

/-- `build_entry_from_match_key`: malformed keys are refused, and the priority is set in the keys that have
one.  `/repo/src/bm_sim/match_units.cpp:885-937`. -/
def buildKey (k : Kind) (kb : KeyB) (n : Nat) (ps : List MParam) (prio : Int) : Option (Option (k.tk n).K) :=
  match k with
  | .exact => kb.buildExact ps
  | .lpm => kb.buildLpm ps
  | .ternary _ => kb.buildTern ps prio
  | .range _ => kb.buildRange ps prio

/-- `entry_to_match_params` and `get_priority`, as `MatchUnitGeneric::get_entry_` uses them.
`/repo/src/bm_sim/match_units.cpp:873-883, 1014-1030`. -/
def backKey (k : Kind) (kb : KeyB) (n : Nat) : (k.tk n).K → Option (List MParam × Int) :=
  match k with
  | .exact => fun key => (kb.fromExact key).map fun ps => (ps, -1)
  | .lpm => fun key => (kb.fromLpm key).map fun ps => (ps, -1)
  | .ternary _ => fun key => (kb.fromTern key.data key.mask).map fun ps => (ps, key.priority)
  | .range _ => fun key => (kb.fromTern key.data key.mask).map fun ps => (ps, key.priority)

/-- A table with actions, together with its entries of `P4Objects::t_actions_map`.
`/repo/include/bm/bm_sim/P4Objects.h:439-441`. -/
structure DTab (R : Type) where
  kind : Kind
  kb : KeyB
  names : List (String × ActFn)
  tab : MT.Tab (kind.tk kb.nbytesKey).str R

/-- What `get_abstract_match_table_rt` and the `dynamic_cast` distinguish.  `/repo/src/bm_sim/context.cpp:59-62`. -/
inductive AnyTab (R : Type)
  | direct (t : DTab R)
  | indirect

/-- The tables of a context.  `/repo/src/bm_sim/P4Objects.cpp:2607-2612`. -/
abbrev Ctx (R : Type) := String → Option (AnyTab R)

variable {R : Type}

/-! ## Conversions -/

/-- `build_match_key`, one parameter.  `/repo/src/bm_runtime/Standard_server.cpp:98-126`. -/
def buildParam : TParam → MParam
  | .exact k => { type := .exact, key := k }
  | .lpm k len => { type := .lpm, key := k, prefixLength := len }
  | .ternary k m => { type := .ternary, key := k, mask := m }
  | .valid b => { type := .valid, key := if b then [1] else [0] }
  | .range s e => { type := .range, key := s, mask := e }

/-- `retrieve_match_key`, one parameter.  `/repo/src/bm_runtime/Standard_server.cpp:128-186`. -/
def retrieveParam (p : MParam) : TParam :=
  match p.type with
  | .exact => .exact p.key
  | .lpm => .lpm p.key p.prefixLength
  | .ternary => .ternary p.key p.mask
  | .valid => .valid (decide (p.key = [1]))
  | .range => .range p.key p.mask

/-- `push_back_action_data` for each string.  `/repo/src/bm_runtime/Standard_server.cpp:217-220`,
`/repo/include/bm/bm_sim/actions.h:149-151`. -/
def actionData (data : List Bytes) : List Int := data.map Data.importBytes

/-- `get_exception_code` for the codes of a match unit; success is not an exception.
`/repo/src/bm_runtime/Standard_server.cpp:36-96`. -/
def unitExc : MCode → Option Exc
  | .success => none
  | .tableFull => some .tableFull
  | .invalidHandle => some .invalidHandle
  | .expiredHandle => some .expiredHandle
  | .duplicateEntry => some .duplicateEntry
  | .badMatchKey => some .badMatchKey
  | .noTableKey => some .noTableKey
  | .error => some .error

/-- `get_exception_code`.  `/repo/src/bm_runtime/Standard_server.cpp:36-96`. -/
def codeExc : MT.Code → Option Exc
  | .unit c => unitExc c
  | .badActionData => some .badActionData
  | .immutableEntries => some .immutableTableEntries
  | .defaultEntryConst => some .defaultEntryIsConst
  | .defaultActionConst => some .defaultActionIsConst
  | .noDefaultEntry => some .noDefaultEntry

/-- The common end of the requests: throw, or return the value.
`/repo/src/bm_runtime/Standard_server.cpp:224-229, 240-244`. -/
def finish (c : MT.Code) (r : Res) : Res :=
  match codeExc c with
  | some e => .exc e
  | none => r

/-- `get_action_rt`.  `/repo/src/bm_sim/P4Objects.cpp:2594-2598`. -/
def DTab.action (t : DTab R) (a : String) : Option ActFn := (t.names.find? fun x => x.1 = a).map Prod.snd

/-- `action_fn->get_name()`; a null pointer is undefined.  `/repo/src/bm_runtime/Standard_server.cpp:1259`. -/
def DTab.nameOf (t : DTab R) (f : ActFn) : Option String := (t.names.find? fun x => x.2 = f).map Prod.fst

/-- `build_action_entry`.  `/repo/src/bm_runtime/Standard_server.cpp:1252-1261`. -/
def DTab.actionEntry (t : DTab R) (f : ActFn) (data : List Int) : Option (String × List Bytes) := do
  let n ← t.nameOf f
  let bs ← data.mapM PiEntry.getString
  return (n, bs)

/-- `copy_match_part_entry` and `build_action_entry`.
`/repo/src/bm_runtime/Standard_server.cpp:569-575, 617-618`. -/
def DTab.showEntry (t : DTab R) (h : Nat) (k : (t.kind.tk t.kb.nbytesKey).K) (fn : Option ActFn) (data : List Int) :
    Option BmEntry := do
  let (ps, prio) ← backKey t.kind t.kb t.kb.nbytesKey k
  let f ← fn
  let a ← t.actionEntry f data
  return { key := ps.map retrieveParam, handle := h, prio, act := some a }

/-- The key of a request. -/
def DTab.reqKey (t : DTab R) (ps : List TParam) (prio : Int) : Option (Option (t.kind.tk t.kb.nbytesKey).K) :=
  buildKey t.kind t.kb t.kb.nbytesKey (ps.map buildParam) prio

/-! ## Requests about a table with actions -/

/-- `MatchTable::add_entry`: the key is built by the match unit, after the checks of the table.
`/repo/src/bm_runtime/Standard_server.cpp:212-230`, `/repo/src/bm_sim/context.cpp:50-68`. -/
def DTab.add (t : DTab R) (ps : List TParam) (f : ActFn) (data : List Bytes) (prio : Int) (now : Nat) :
    Option (Res × DTab R) := do
  let k ← t.reqKey ps prio
  let ((c, h), tab) ← t.tab.addEntry k f (actionData data) now
  return (finish c (.handle h), { t with tab })

/-- The reply to a request for one entry: throw, or present the entry.
`/repo/src/bm_runtime/Standard_server.cpp:610-620, 720-731`. -/
def DTab.replyEntry (t : DTab R) :
    MCode × Option (Nat × (t.kind.tk t.kb.nbytesKey).K × Option ActFn × List Int) → Option Res
  | (c, none) => (unitExc c).map .exc
  | (_, some (h, k, fn, data)) => (t.showEntry h k fn data).map .entry

/-- `bm_mt_get_entry`.  `/repo/src/bm_runtime/Standard_server.cpp:605-620, 644-651`. -/
def DTab.get (t : DTab R) (h : Nat) : Option Res := do
  let (c, r) ← t.tab.getEntry h
  t.replyEntry (c, r.map fun e => (h, e))

/-- `bm_mt_get_default_entry`: no default entry is not an error.
`/repo/src/bm_runtime/Standard_server.cpp:666-694`. -/
def DTab.getDefault (t : DTab R) : Option (Option (String × List Bytes)) :=
  match t.tab.getDefault with
  | none => some none
  | some (f, data) => (t.actionEntry f data).map some

/-- `bm_mt_get_entry_from_key`; without parameters, the default entry.
`/repo/src/bm_runtime/Standard_server.cpp:710-746`. -/
def DTab.getByKey (t : DTab R) (ps : List TParam) (prio : Int) : Option Res :=
  if ps = [] then t.getDefault.map fun a => .entry { act := a }
  else do
    let k ← t.reqKey ps prio
    t.replyEntry (← t.tab.getEntryFromKey k)

/-- `bm_mt_get_entries`.  `/repo/src/bm_runtime/Standard_server.cpp:590-603, 622-630`. -/
def DTab.entries (t : DTab R) : Option (List BmEntry) := do
  let l ← t.tab.getEntries
  l.mapM fun e => t.showEntry e.1 e.2.1 e.2.2.1 e.2.2.2

/-- A packet reaches the table.  `/repo/src/bm_sim/match_tables.cpp:84-131`,
`/repo/src/bm_sim/match_units.cpp:774-792`. -/
def DTab.packet (t : DTab R) (vals : List Bytes) (nbytes ts : Nat) : Option (Res × DTab R) := do
  let q ← t.kb.packetKey vals
  let (r, tab) ← t.tab.apply q nbytes ts
  return (.ran r.act r.hit r.index r.next, { t with tab })

/-- The requests that name an action.  `/repo/src/bm_sim/context.cpp:63-65, 79-81, 118-120`. -/
def DTab.withAct (t : DTab R) (a : String) (k : ActFn → Option (Res × DTab R)) : Option (Res × DTab R) :=
  match t.action a with
  | none => some (.exc .invalidActionName, t)
  | some f => k f

/-- The requests about a table with actions.  `/repo/src/bm_runtime/Standard_server.cpp:188-286, 590-760`,
`/repo/src/bm_sim/context.cpp:30-123`. -/
def DTab.exec (t : DTab R) : Call → Option (Res × DTab R)
  | .add ps a data prio now => t.withAct a fun f => t.add ps f data prio now
  | .delete h => (t.tab.deleteEntry h).map fun r => (finish r.1 .done, { t with tab := r.2 })
  | .modify h a data => t.withAct a fun f =>
      (t.tab.modifyEntry h f (actionData data)).map fun r => (finish r.1 .done, { t with tab := r.2 })
  | .setDefault a data => t.withAct a fun f =>
      (t.tab.setDefault f (actionData data)).map fun r => (finish r.1 .done, { t with tab := r.2 })
  | .resetDefault => some (.done, { t with tab := t.tab.resetDefault })
  | .get h => (t.get h).map fun r => (r, t)
  | .getByKey ps prio => (t.getByKey ps prio).map fun r => (r, t)
  | .entries => t.entries.map fun l => (.entries l, t)
  | .getDefault => t.getDefault.map fun a => (.action a, t)
  | .count => some (.num t.tab.numEntries, t)
  | .clear d => some (.done, { t with tab := t.tab.resetState d })
  | .packet vals nb ts => t.packet vals nb ts

/-! ## Requests by table name -/

/-- Requests for a name of no table: those that write, count or clear throw; those that read return without doing
anything, because `mt_get_type` is `NONE`.
`/repo/src/bm_sim/context.cpp:35-123`, `/repo/src/bm_runtime/Standard_server.cpp:624-626, 646-648, 688-690, 735-741`. -/
def noTable : Call → Option Res
  | .get _ => some (.entry {})
  | .getByKey _ _ => some (.entry {})
  | .entries => some (.entries [])
  | .getDefault => some (.action none)
  | .packet _ _ _ => none
  | _ => some (.exc .invalidTableName)

/-- Requests about a table with an action profile: those that write throw; the others are not modelled.
`/repo/src/bm_sim/context.cpp:61-62, 77-78, 93, 104-105, 116-117`. -/
def otherTable : Call → Option Res
  | .add _ _ _ _ _ | .delete _ | .modify _ _ _ | .setDefault _ _ | .resetDefault => some (.exc .wrongTableType)
  | _ => none

/-- One request. -/
def Ctx.exec (c : Ctx R) (n : String) (call : Call) : Option (Res × Ctx R) :=
  match c n with
  | none => (noTable call).map fun r => (r, c)
  | some .indirect => (otherTable call).map fun r => (r, c)
  | some (.direct t) => (t.exec call).map fun r => (r.1, fun m => if m = n then some (.direct r.2) else c m)

/-- A history of requests. -/
def Ctx.run : Ctx R → List (String × Call) → Option (List Res × Ctx R)
  | c, [] => some ([], c)
  | c, (n, call) :: ops => do
    let r ← c.exec n call
    let rs ← run r.2 ops
    return (r.1 :: rs.1, rs.2)

/-! ## Loading -/

/-- The keys of the constant entries; a malformed one is an exception.
`/repo/src/bm_sim/P4Objects.cpp:1957-2002`. -/
def loadKeys (k : Kind) (kb : KeyB) (n : Nat) :
    List ((List MParam × Int) × ActFn × List Int) → Option (List ((k.tk n).K × ActFn × List Int))
  | [] => some []
  | (x, y) :: l => do
    let key ← (buildKey k kb n x.1 x.2).join
    return (key, y) :: (← loadKeys k kb n l)

/-- The constant entries, if there are any declared. -/
def loadEntries (k : Kind) (kb : KeyB) (n : Nat) :
    Option (List ((List MParam × Int) × ActFn × List Int)) → Option (Option (List ((k.tk n).K × ActFn × List Int)))
  | none => some none
  | some l => (loadKeys k kb n l).map some

/-- Loading of a table.  `/repo/src/bm_sim/P4Objects.cpp:1650-1740, 1871-2009`. -/
def DTab.load (d : Decl) (meters : Nat → R) : Option (DTab R) := do
  let kb ← KeyB.build d.fs
  let es ← loadEntries d.kind kb kb.nbytesKey d.prog.entries
  let tab ← MT.Tab.load (d.kind.tk kb.nbytesKey).str d.size kb.nbytesKey meters
    { actions := d.prog.actions, hitMiss := d.prog.hitMiss, base := d.prog.base, dflt := d.prog.dflt, entries := es }
  return { kind := d.kind, kb, names := d.names, tab }

/-- Loading of a table of either sort. -/
def AnyTab.load (meters : Nat → R) : Spec.Table → Option (AnyTab R)
  | .indirect => some .indirect
  | .direct d => (DTab.load d meters).map .direct

/-- Loading of the tables, by name.  `/repo/src/bm_sim/P4Objects.cpp:1618-1740`,
`/repo/include/bm/bm_sim/P4Objects.h:445-446`. -/
def Ctx.load (meters : Nat → R) : List (String × Spec.Table) → Option (Ctx R)
  | [] => some fun _ => none
  | (n, tb) :: l => do
    let c ← load meters l
    let t ← AnyTab.load meters tb
    return fun m => if m = n then some t else c m

end Bm.Thrift
