import Verif.Model.LookupIface

/-!
# Model of the match units (storage behind every match table)

Transcribes `MatchUnitAbstract_`, `MatchUnitAbstract<V>` and `MatchUnitGeneric<K, V>` of
`/repo/src/bm_sim/match_units.cpp` and `/repo/include/bm/bm_sim/match_units.h`, and the
per-entry counter / meter / time-to-live accessors of `/repo/src/bm_sim/match_tables.cpp`
(with counters, meters and ageing enabled).

Simplifications: locks are omitted (operations are atomic); the key of a new entry is the result
of `build_entry_from_match_key` (`none` for `BAD_MATCH_KEY`; the key builder is modelled in
`KeyBuilder.lean`); the clock is an argument; a meter is an abstract state `R`; the key
and value of an entry that was never written are `none`.  Undefined behaviour, exceptions and
failed assertions are the outer `none`.
-/

namespace Bm

/-- `MatchErrorCode` (the codes used here).
`/repo/include/bm/bm_sim/match_error_codes.h:18-48`. -/
inductive MCode
  | success | tableFull | invalidHandle | expiredHandle | duplicateEntry | badMatchKey
  | noTableKey | error
deriving DecidableEq, Repr

/-- `HANDLE_VERSION`.  `/repo/src/bm_sim/match_units.cpp:31`. -/
def handleVersion (h : Nat) : Nat := h >>> 24

/-- `HANDLE_INTERNAL`.  `/repo/src/bm_sim/match_units.cpp:32`. -/
def handleInternal (h : Nat) : Nat := h &&& 0x00ffffff

/-- `HANDLE_SET`, stored in an `entry_handle_t` (32 bits).
`/repo/src/bm_sim/match_units.cpp:33`, `/repo/include/bm/bm_sim/match_key_types.h:25`. -/
def handleSet (v i : Nat) : Nat := (((v &&& 0xff) <<< 24) ||| i) % 2 ^ 32

/-- `MatchUnitGeneric::Entry`; `kv` is `none` for a default-constructed entry.
`/repo/include/bm/bm_sim/match_units.h:445-451`. -/
structure MEntry (K V : Type) where
  version : Nat := 0
  kv : Option (K × V) := none

/-- `MatchUnit::EntryMeta`.  `/repo/include/bm/bm_sim/match_units.h:205-217`. -/
structure MMeta where
  ts : Nat := 0
  timeoutMs : Nat := 0
  bytes : Nat := 0
  packets : Nat := 0
  version : Nat := 0
deriving DecidableEq, Repr

/-- `EntryMeta::reset`: counters and timestamp, *not* the timeout.
`/repo/include/bm/bm_sim/match_units.h:213-216`. -/
def MMeta.reset (m : MMeta) (now : Nat) : MMeta := { m with bytes := 0, packets := 0, ts := now }

/-- Data members of the match unit classes.
`/repo/include/bm/bm_sim/match_units.h:330-340,441-500`. -/
structure MUnit {K : Type} (L : LookupStr K) (V R : Type) where
  size : Nat
  sizeKey : Nat
  numEntries : Nat := 0
  handles : HandleMgr := {}
  entries : Nat → MEntry K V := fun _ => {}
  lstr : L.S
  metas : Nat → MMeta := fun _ => {}
  meters : Nat → R

/-- Write one element of a vector. -/
def setAt {α : Type} (f : Nat → α) (i : Nat) (a : α) : Nat → α := fun j => if j = i then a else f j

namespace MUnit
variable {K : Type} {L : LookupStr K} {V R : Type}

/-- Constructors.  `/repo/src/bm_sim/match_units.cpp:631-643`,
`/repo/include/bm/bm_sim/match_units.h:454-459`.  (The attempt to clamp `size` assigns the
parameter, not the member, so it has no effect.) -/
def init (L : LookupStr K) (V : Type) (size sizeKey : Nat) (meters : Nat → R) : MUnit L V R :=
  { size, sizeKey, lstr := L.init size, meters }

/-- `add_entry`, `add_entry_`, `get_and_set_handle`.
`/repo/src/bm_sim/match_units.cpp:794-805,939-971,645-655`. -/
def addEntry (mu : MUnit L V R) (key : Option K) (v : V) (now : Nat) :
    Option ((MCode × Nat) × MUnit L V R) :=
  if mu.sizeKey = 0 then some ((.noTableKey, 0), mu)
  else match key with
  | none => some ((.badMatchKey, 0), mu)
  | some k => do
    let ex ← L.existsKey mu.lstr k
    if ex then return ((.duplicateEntry, 0), mu)
    if mu.numEntries ≥ mu.size then return ((.tableFull, 0), mu)
    let (i, handles) ← mu.handles.getHandle
    if i < mu.size then
      let version := (mu.entries i).version
      let handle := handleSet version i
      let lstr ← L.add mu.lstr k i
      let j := handleInternal handle
      if j < mu.size then
        return ((.success, handle),
          { mu with
            numEntries := mu.numEntries + 1
            handles := handles
            entries := setAt mu.entries i { version := version, kv := some (k, v) }
            lstr := lstr
            metas := setAt mu.metas j
              { (mu.metas j).reset now with version := handleVersion handle } })
      else none
    else none

/-- Check common to `delete_entry_`, `modify_entry_`, `get_value_`, `get_entry_`.
`/repo/src/bm_sim/match_units.cpp:976-980,991-995,1004-1008,1019-1023`. -/
def checkHandle (mu : MUnit L V R) (h : Nat) : Option MCode := do
  let i := handleInternal h
  let valid ← mu.handles.validHandle i
  if !valid then return .invalidHandle
  if i < mu.size then
    if handleVersion h ≠ (mu.entries i).version then return .expiredHandle
    else return .success
  else none

/-- `delete_entry_`, `unset_handle`.  `/repo/src/bm_sim/match_units.cpp:973-986,657-663`. -/
def deleteEntry (mu : MUnit L V R) (h : Nat) : Option (MCode × MUnit L V R) := do
  let c ← mu.checkHandle h
  if c ≠ .success then return (c, mu)
  let i := handleInternal h
  let e := mu.entries i
  let version := handleVersion (handleSet (e.version + 1) i)
  let (k, _) ← e.kv
  let lstr ← L.delete mu.lstr k
  let (ok, handles) ← mu.handles.releaseHandle i
  let mu1 := { mu with
    entries := setAt mu.entries i { e with version := version }
    lstr := lstr
    handles := handles }
  if ok then return (.success, { mu1 with numEntries := mu1.numEntries - 1 })
  else return (.invalidHandle, mu1)

/-- `modify_entry_`.  `/repo/src/bm_sim/match_units.cpp:988-999`. -/
def modifyEntry (mu : MUnit L V R) (h : Nat) (v : V) : Option (MCode × MUnit L V R) := do
  let c ← mu.checkHandle h
  if c ≠ .success then return (c, mu)
  let i := handleInternal h
  let e := mu.entries i
  let (k, _) ← e.kv
  return (.success, { mu with entries := setAt mu.entries i { e with kv := some (k, v) } })

/-- `get_entry_` (and `get_value_`).  `/repo/src/bm_sim/match_units.cpp:1001-1030`. -/
def getEntry (mu : MUnit L V R) (h : Nat) : Option (MCode × Option (K × V)) := do
  let c ← mu.checkHandle h
  if c ≠ .success then return (c, none)
  let kv ← (mu.entries (handleInternal h)).kv
  return (.success, some kv)

/-- `retrieve_handle_`.  `/repo/src/bm_sim/match_units.cpp:1032-1049`. -/
def retrieveHandle (mu : MUnit L V R) (key : Option K) : Option (MCode × Nat) :=
  match key with
  | none => some (.badMatchKey, 0)
  | some k => do
    match ← L.retrieve mu.lstr k with
    | none => return (.badMatchKey, 0)
    | some i =>
      if i < mu.size then return (.success, handleSet (mu.entries i).version i) else none

/-- Result of a lookup. -/
inductive Lookup (V : Type)
  | miss
  | hit (handle : Nat) (value : V)
deriving DecidableEq, Repr

/-- `lookup`, `lookup_key`, with the counter and timestamp updates.
`/repo/src/bm_sim/match_units.cpp:775-792,898-909`,
`/repo/include/bm/bm_sim/match_units.h:319-325`, `/repo/include/bm/bm_sim/counters.h:58-61`. -/
def lookup (mu : MUnit L V R) (q : Bytes) (nbytes ts : Nat) :
    Option (Lookup V × MUnit L V R) := do
  let (r, lstr) ← L.lookup mu.lstr q
  match r with
  | none => return (.miss, { mu with lstr := lstr })
  | some i =>
    if i < mu.size then
      let e := mu.entries i
      let handle := handleSet e.version i
      let (_, v) ← e.kv
      let j := handleInternal handle
      if j < mu.size then
        let m := mu.metas j
        return (.hit handle v,
          { mu with
            lstr := lstr
            metas := setAt mu.metas j
              { m with
                bytes := (m.bytes + nbytes) % 2 ^ 64
                packets := (m.packets + 1) % 2 ^ 64
                ts := ts } })
      else none
    else none

/-- `handle_iterator` loop from `handles_begin()` to `handles_end()`.
`/repo/src/bm_sim/match_units.cpp:606-629`; `entry_meta.at` throws when out of range. -/
def handleList (mu : MUnit L V R) : Option (List Nat) := do
  let l ← mu.handles.iterate
  l.mapM fun i => if i < mu.size then some (handleSet (mu.metas i).version i) else none

/-- `reset_state`.  `/repo/src/bm_sim/match_units.cpp:862-869,1067-1072`. -/
def resetState (mu : MUnit L V R) : MUnit L V R :=
  { mu with
    numEntries := 0
    handles := mu.handles.clear
    metas := fun _ => {}
    lstr := L.clear mu.lstr
    entries := fun _ => {} }

/-- `valid_handle`.  `/repo/src/bm_sim/match_units.cpp:670-673`. -/
def validHandle (mu : MUnit L V R) (h : Nat) : Option Bool :=
  mu.handles.validHandle (handleInternal h)

/-- `set_entry_ttl`.  `/repo/src/bm_sim/match_units.cpp:706-716`. -/
def setEntryTtl (mu : MUnit L V R) (h ttl now : Nat) : Option (MCode × MUnit L V R) := do
  let i := handleInternal h
  let valid ← mu.handles.validHandle i
  if !valid then return (.invalidHandle, mu)
  if i < mu.size then
    return (.success,
      { mu with metas := setAt mu.metas i { mu.metas i with timeoutMs := ttl, ts := now } })
  else none

/-- `query_counters`.  `/repo/src/bm_sim/match_tables.cpp:221-232`. -/
def queryCounters (mu : MUnit L V R) (h : Nat) : Option (MCode × Option (Nat × Nat)) := do
  let valid ← mu.validHandle h
  if !valid then return (.invalidHandle, none)
  let i := handleInternal h
  if i < mu.size then return (.success, some ((mu.metas i).bytes, (mu.metas i).packets)) else none

/-- `write_counters`.  `/repo/src/bm_sim/match_tables.cpp:242-253`. -/
def writeCounters (mu : MUnit L V R) (h bytes packets : Nat) : Option (MCode × MUnit L V R) := do
  let valid ← mu.validHandle h
  if !valid then return (.invalidHandle, mu)
  let i := handleInternal h
  if i < mu.size then
    return (.success,
      { mu with metas := setAt mu.metas i { mu.metas i with bytes := bytes, packets := packets } })
  else none

/-- `set_meter_rates` and `reset_meter_rates`: an operation `f` on the direct meter, which
reports success or failure.  `/repo/src/bm_sim/match_tables.cpp:255-266,279-288`. -/
def meterOp (mu : MUnit L V R) (h : Nat) (f : R → R × Bool) : Option (MCode × MUnit L V R) := do
  let valid ← mu.validHandle h
  if !valid then return (.invalidHandle, mu)
  let i := handleInternal h
  if i < mu.size then
    let (r, ok) := f (mu.meters i)
    return (if ok then .success else .error, { mu with meters := setAt mu.meters i r })
  else none

/-- `get_meter_rates`: read the direct meter.  `/repo/src/bm_sim/match_tables.cpp:268-277`. -/
def queryMeter (mu : MUnit L V R) (h : Nat) : Option (MCode × Option R) := do
  let valid ← mu.validHandle h
  if !valid then return (.invalidHandle, none)
  let i := handleInternal h
  if i < mu.size then return (.success, some (mu.meters i)) else none

/-- `sweep_entries`.  `/repo/src/bm_sim/match_units.cpp:718-732`. -/
def sweepEntries (mu : MUnit L V R) (now : Nat) : Option (List Nat) := do
  let l ← mu.handles.iterate
  let r ← l.mapM fun i =>
    if i < mu.size then
      let m := mu.metas i
      if now ≥ m.ts then
        some (if m.timeoutMs > 0 ∧ now - m.ts ≥ m.timeoutMs then [handleSet m.version i] else [])
      else none
    else none
  return r.flatten

end MUnit
end Bm
