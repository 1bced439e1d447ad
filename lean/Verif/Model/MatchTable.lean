import Verif.Model.MatchUnit
import Verif.Spec.MatchTable

/-!
# Model of `MatchTable` (tables whose entries hold actions)

Transcribes `MatchTableAbstract` and `MatchTable` of `/repo/src/bm_sim/match_tables.cpp`, on top of the match units
(`Model/MatchUnit`).  Control-flow nodes are numbers; an action function (`Spec.ActFn`) is an id and a number of
parameters.  The declaration of a table in the JSON is a `Spec.TableDecl`.  A null pointer is `none`.  Outer `none`: exception (`next_nodes.at`), failed assertion or undefined
behaviour.

Simplifications: calls are atomic (the locks are not modelled); `get_entry` gives the key as stored (conversion to
match parameters: `Model/KeyBuilder`), without the fields about ageing.
-/

namespace Bm.MT
open Spec

/-- `ActionFnEntry`, and the next node (`ActionEntry`).  `/repo/include/bm/bm_sim/action_entry.h`. -/
structure ActEntry where
  fn : Option ActFn := none
  data : List Int := []
  next : Option Nat := none
  deriving DecidableEq, Repr

/-- What loading a program sets.  Inner `none`: null pointer.
`/repo/include/bm/bm_sim/match_tables.h:218-238,373-374`. -/
structure Cfg where
  nextNodes : Nat → Option (Option Nat) := fun _ => none
  nextHit : Option (Option Nat) := none
  hasMiss : Bool := false
  missNode : Option Nat := none
  dfltDflt : ActEntry := {}
  constEntry : Bool := false
  constAction : Option ActFn := none
  immutable : Bool := false

/-- `MatchTable`.  `/repo/include/bm/bm_sim/match_tables.h:370-375`. -/
structure Tab {K : Type} (L : LookupStr K) (R : Type) where
  cfg : Cfg
  mu : MUnit L ActEntry R
  dflt : ActEntry

variable {K R : Type} {L : LookupStr K}

/-- `get_next_node`.  `/repo/src/bm_sim/match_tables.cpp:315-320`. -/
def Cfg.next (c : Cfg) (a : Nat) : Option (Option Nat) :=
  match c.nextHit with
  | some n => some n
  | none => c.nextNodes a

/-- `get_next_node_default`.  `/repo/src/bm_sim/match_tables.cpp:322-327`. -/
def Cfg.nextDefault (c : Cfg) (a : Nat) : Option (Option Nat) :=
  if c.hasMiss then some c.missNode else c.nextNodes a

/-! ## Loading -/

/-- Constructor.  `/repo/src/bm_sim/match_tables.cpp:352-358`. -/
def Tab.init (L : LookupStr K) (size sizeKey : Nat) (meters : Nat → R) : Tab L R :=
  { cfg := {}, mu := MUnit.init L ActEntry size sizeKey meters, dflt := {} }

/-- `set_next_node`.  `/repo/src/bm_sim/match_tables.cpp:181-185`. -/
def Tab.setNext (t : Tab L R) (a : Nat) (n : Option Nat) : Tab L R :=
  { t with cfg := { t.cfg with nextNodes := fun i => if i = a then some n else t.cfg.nextNodes i } }

/-- `set_next_node_hit`.  `/repo/src/bm_sim/match_tables.cpp:187-191`. -/
def Tab.setNextHit (t : Tab L R) (n : Option Nat) : Tab L R := { t with cfg := { t.cfg with nextHit := some n } }

/-- `set_default_default_entry_` of `MatchTable`, after a change of the default of the program.
`/repo/src/bm_sim/match_tables.cpp:607-610`. -/
def Tab.setDD (t : Tab L R) (e : ActEntry) : Tab L R := { t with cfg := { t.cfg with dfltDflt := e }, dflt := e }

/-- `set_next_node_miss`.  `/repo/src/bm_sim/match_tables.cpp:193-199`. -/
def Tab.setNextMiss (t : Tab L R) (n : Option Nat) : Tab L R :=
  { t with cfg := { t.cfg with hasMiss := true, missNode := n } }.setDD { t.cfg.dfltDflt with next := n }

/-- `set_next_node_miss_default`.
`/repo/src/bm_sim/match_tables.cpp:201-208`. -/
def Tab.setNextMissDefault (t : Tab L R) (n : Option Nat) : Tab L R :=
  if t.cfg.hasMiss then t
  else { t with cfg := { t.cfg with missNode := n } }.setDD { t.cfg.dfltDflt with next := n }

/-- `set_default_default_entry`.  `/repo/src/bm_sim/match_tables.cpp:139-155`. -/
def Tab.setDefaultDefault (t : Tab L R) (fn : ActFn) (data : List Int) (isConst : Bool) : Option (Tab L R) :=
  if data.length = fn.nparams then do
    let n ← t.cfg.nextDefault fn.id
    return { t with cfg := { t.cfg with constEntry := isConst } }.setDD { fn := some fn, data, next := n }
  else none

/-- `set_const_default_action_fn`.  `/repo/src/bm_sim/match_tables.cpp:612-617`. -/
def Tab.setConstAction (t : Tab L R) (fn : ActFn) : Option (Tab L R) :=
  if t.cfg.constAction = none then some { t with cfg := { t.cfg with constAction := some fn } } else none

/-- `set_immutable_entries`.  `/repo/src/bm_sim/match_tables.cpp:619-622`. -/
def Tab.setImmutable (t : Tab L R) : Tab L R := { t with cfg := { t.cfg with immutable := true } }

/-! ## Run time -/

/-- `MatchErrorCode`: those of the match unit, and those of the table.
`/repo/include/bm/bm_sim/match_error_codes.h:18-48`. -/
inductive Code
  | unit (c : MCode)
  | badActionData
  | immutableEntries
  | defaultEntryConst
  | defaultActionConst
  | noDefaultEntry
  deriving DecidableEq, Repr

/-- `MatchTable::add_entry`.  `/repo/src/bm_sim/match_tables.cpp:371-412`. -/
def Tab.addEntry (t : Tab L R) (key : Option K) (fn : ActFn) (data : List Int) (now : Nat) :
    Option ((Code × Nat) × Tab L R) :=
  if t.cfg.immutable then some ((.immutableEntries, 0), t)
  else if data.length ≠ fn.nparams then some ((.badActionData, 0), t)
  else do
    let n ← t.cfg.next fn.id
    let ((c, h), mu) ← t.mu.addEntry key { fn := some fn, data, next := n } now
    return ((.unit c, h), { t with mu })

/-- `MatchTable::delete_entry`.  `/repo/src/bm_sim/match_tables.cpp:414-433`. -/
def Tab.deleteEntry (t : Tab L R) (h : Nat) : Option (Code × Tab L R) :=
  if t.cfg.immutable then some (.immutableEntries, t)
  else do
    let (c, mu) ← t.mu.deleteEntry h
    return (.unit c, { t with mu })

/-- `MatchTable::modify_entry`.  `/repo/src/bm_sim/match_tables.cpp:435-463`. -/
def Tab.modifyEntry (t : Tab L R) (h : Nat) (fn : ActFn) (data : List Int) : Option (Code × Tab L R) :=
  if t.cfg.immutable then some (.immutableEntries, t)
  else if data.length ≠ fn.nparams then some (.badActionData, t)
  else do
    let n ← t.cfg.next fn.id
    let (c, mu) ← t.mu.modifyEntry h { fn := some fn, data, next := n }
    return (.unit c, { t with mu })

/-- The check of the constant default action.  `/repo/src/bm_sim/match_tables.cpp:470-471`. -/
def Cfg.otherAction (c : Cfg) (fn : ActFn) : Bool :=
  match c.constAction with
  | none => false
  | some a => decide (a ≠ fn)

/-- `MatchTable::set_default_action`.  `/repo/src/bm_sim/match_tables.cpp:465-488`. -/
def Tab.setDefault (t : Tab L R) (fn : ActFn) (data : List Int) : Option (Code × Tab L R) :=
  if t.cfg.constEntry then some (.defaultEntryConst, t)
  else if t.cfg.otherAction fn then some (.defaultActionConst, t)
  else if data.length ≠ fn.nparams then some (.badActionData, t)
  else do
    let n ← t.cfg.nextDefault fn.id
    return (.unit .success, { t with dflt := { fn := some fn, data, next := n } })

/-- `MatchTable::reset_default_entry`.  `/repo/src/bm_sim/match_tables.cpp:490-501`. -/
def Tab.resetDefault (t : Tab L R) : Tab L R := { t with dflt := t.cfg.dfltDflt }

/-- `MatchTable::get_entry_`.  `/repo/src/bm_sim/match_tables.cpp:503-523`. -/
def Tab.getEntry (t : Tab L R) (h : Nat) : Option (MCode × Option (K × Option ActFn × List Int)) := do
  let (c, r) ← t.mu.getEntry h
  return (c, r.map fun (k, e) => (k, e.fn, e.data))

/-- `MatchTable::get_entry_from_key`; the handle is part of the entry.
`/repo/src/bm_sim/match_tables.cpp:552-560`. -/
def Tab.getEntryFromKey (t : Tab L R) (key : Option K) :
    Option (MCode × Option (Nat × K × Option ActFn × List Int)) := do
  let (c, h) ← t.mu.retrieveHandle key
  if c ≠ .success then return (c, none)
  let (c, r) ← t.getEntry h
  return (c, r.map fun e => (h, e))

/-- One pass of the loop of `get_entries`.  `/repo/src/bm_sim/match_tables.cpp:571-573`. -/
def Tab.entryOf (t : Tab L R) (h : Nat) : Option (Nat × K × Option ActFn × List Int) := do
  match ← t.getEntry h with
  | (.success, some e) => return (h, e)
  | _ => none

/-- `MatchTable::get_entries`; the vector has `get_num_entries()` elements, writing outside of it is undefined.
`/repo/src/bm_sim/match_tables.cpp:562-577`. -/
def Tab.getEntries (t : Tab L R) : Option (List (Nat × K × Option ActFn × List Int)) := do
  let hs ← t.mu.handleList
  if hs.length = t.mu.numEntries then hs.mapM t.entryOf else none

/-- `MatchTable::get_default_entry`.  `/repo/src/bm_sim/match_tables.cpp:579-586`. -/
def Tab.getDefault (t : Tab L R) : Option (ActFn × List Int) := t.dflt.fn.map fun f => (f, t.dflt.data)

/-- `get_num_entries`.  `/repo/include/bm/bm_sim/match_tables.h:332-334`, `/repo/src/bm_sim/context.cpp:30-39`. -/
def Tab.numEntries (t : Tab L R) : Nat := t.mu.numEntries

/-- `reset_state`, as called by `mt_clear_entries` and by `P4Objects::reset_state`.
`/repo/src/bm_sim/match_tables.cpp:133-137,600-605`, `/repo/src/bm_sim/context.cpp:41-49`. -/
def Tab.resetState (t : Tab L R) (d : Bool) : Tab L R :=
  { t with mu := t.mu.resetState, dflt := if d then t.cfg.dfltDflt else t.dflt }

/-- `MatchTable::lookup`: handle if hit, entry.  `/repo/src/bm_sim/match_tables.cpp:360-369`. -/
def Tab.lookup (t : Tab L R) (q : Bytes) (nbytes ts : Nat) : Option ((Option Nat × ActEntry) × Tab L R) := do
  let (r, mu) ← t.mu.lookup q nbytes ts
  match r with
  | .miss => return ((none, t.dflt), { t with mu })
  | .hit h e => return ((some h, e), { t with mu })

/-- `Packet::INVALID_ENTRY_INDEX`.  `/repo/include/bm/bm_sim/packet.h:107-108`. -/
def invalidIndex : Nat := 2 ^ 64 - 1

/-- What `apply_action` does to the packet and returns: entry index, hit (for the direct meter), action with its
data (none: the empty action), next node. -/
structure Applied where
  index : Nat
  hit : Option Nat
  act : Option (ActFn × List Int)
  next : Option Nat
  deriving DecidableEq, Repr

/-- `apply_action`.  `/repo/src/bm_sim/match_tables.cpp:84-131`, `/repo/src/bm_sim/actions.cpp:423-425`. -/
def Tab.apply (t : Tab L R) (q : Bytes) (nbytes ts : Nat) : Option (Applied × Tab L R) := do
  let ((hit, e), t) ← t.lookup q nbytes ts
  return ({ index := match hit with | some h => h &&& 0x00ffffff | none => invalidIndex
            hit
            act := e.fn.map fun f => (f, e.data)
            next := e.next }, t)

/-! ## The loader -/

/-- The flags of the default entry.  `/repo/src/bm_sim/P4Objects.cpp:1925-1938`. -/
def Tab.loadConst (t : Tab L R) (d : DefaultDecl) : Option (Tab L R) :=
  if d.constAction then t.setConstAction d.fn else some t

/-- The default entry.  `/repo/src/bm_sim/P4Objects.cpp:1918-1955`. -/
def Tab.loadDefault (t : Tab L R) : Option DefaultDecl → Option (Tab L R)
  | none => some t
  | some d => do (← t.loadConst d).setDefaultDefault d.fn d.data d.constEntry

/-- One constant entry: anything but success is an exception or a failed assertion.
`/repo/src/bm_sim/P4Objects.cpp:1971-2002`. -/
def Tab.loadEntry (t : Tab L R) (e : K × ActFn × List Int) : Option (Tab L R) := do
  match ← t.addEntry (some e.1) e.2.1 e.2.2 0 with
  | ((.unit .success, _), t) => some t
  | _ => none

/-- The constant entries.  `/repo/src/bm_sim/P4Objects.cpp:1957-2008`. -/
def Tab.loadEntries (t : Tab L R) : Option (List (K × ActFn × List Int)) → Option (Tab L R)
  | none => some t
  | some l => do return (← l.foldlM Tab.loadEntry t).setImmutable

/-- `next_is_hit_miss`.  `/repo/src/bm_sim/P4Objects.cpp:1901-1904`. -/
def Tab.loadHitMiss (t : Tab L R) : Option (Option Nat × Option Nat) → Tab L R
  | none => t
  | some (h, m) => (t.setNextHit h).setNextMiss m

/-- `base_default_next`.  `/repo/src/bm_sim/P4Objects.cpp:1906-1909`. -/
def Tab.loadBase (t : Tab L R) : Option (Option Nat) → Tab L R
  | none => t
  | some n => t.setNextMissDefault n

/-- Loading of one table.  `/repo/src/bm_sim/P4Objects.cpp:1871-2009`. -/
def Tab.load (L : LookupStr K) (size sizeKey : Nat) (meters : Nat → R) (P : TableDecl K) : Option (Tab L R) := do
  let t := P.actions.foldl (fun t x => t.setNext x.1.id x.2) (Tab.init L size sizeKey meters)
  let t ← ((t.loadHitMiss P.hitMiss).loadBase P.base).loadDefault P.dflt
  t.loadEntries P.entries

end Bm.MT
