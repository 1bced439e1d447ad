/-!
# Model of `AgeingMonitor`

Transcribes `/repo/src/bm_sim/ageing.cpp:30-210`.  A sweep holds the mutex of the monitor.  What each
table reports as expired (`MatchTableAbstract::sweep_entries`, modelled by `Bm.MUnit.sweepEntries`)
is an input of the sweep.  The sets and the table map are lists; the map is kept in increasing order
of ids as `std::map` does.  `buffer_id` does not overflow.
-/

namespace Bm.Ageing

/-- `TableData`: the table is its id.  `/repo/src/bm_sim/ageing.cpp:57-69`. -/
structure TableData where
  id : Nat
  prev : List Nat := []
deriving DecidableEq

/-- `AgeingMonitor`, data members.  `/repo/src/bm_sim/ageing.cpp:71-89`. -/
structure Monitor where
  tables : List TableData := []
  entries : List Nat := []
  entriesTmp : List Nat := []
  bufferId : Nat := 0
deriving DecidableEq

/-- The notification: header fields `buffer_id`, `table_id`, `num_entries` and the handles. -/
structure Msg where
  bufferId : Nat
  table : Nat
  num : Nat
  handles : List Nat
deriving DecidableEq

/-- `std::map::insert`: keeps the order of ids, does nothing when the id is present. -/
def insertTable (d : TableData) : List TableData → List TableData
  | [] => [d]
  | e :: es => if d.id < e.id then d :: e :: es else if d.id = e.id then e :: es
    else e :: insertTable d es

/-- `add_table`.  `/repo/src/bm_sim/ageing.cpp:109-112`. -/
def addTable (s : Monitor) (id : Nat) : Monitor :=
  { s with tables := insertTable { id := id } s.tables }

/-- `reset_state`.  `/repo/src/bm_sim/ageing.cpp:126-136`. -/
def reset (s : Monitor) : Monitor :=
  { s with entries := [], entriesTmp := [], bufferId := 0,
           tables := s.tables.map fun d => { d with prev := [] } }

/-- The body of the loop of `do_sweep` for one table; returns the updated table data, the monitor
(whose `tables` is not touched) and the message sent, if any.
`/repo/src/bm_sim/ageing.cpp:161-209`. -/
def sweepTable (s : Monitor) (d : TableData) (expired : List Nat) :
    TableData × Monitor × Option Msg :=
  let s := { s with entriesTmp := s.entriesTmp ++ expired }
  if s.entriesTmp = [] then ({ d with prev := [] }, s, none)
  else
    let s := { s with entries := s.entries ++ s.entriesTmp.filter fun h => decide (h ∉ d.prev) }
    let s := { s with entriesTmp := [] }
    if s.entries = [] then ({ d with prev := [] }, s, none)
    else
      ({ d with prev := s.entries },
       { s with entries := [], bufferId := s.bufferId + 1 },
       some ⟨s.bufferId, d.id, s.entries.length, s.entries⟩)

/-- The loop of `do_sweep`. -/
def sweepTables (s : Monitor) (expired : Nat → List Nat) :
    List TableData → List TableData × Monitor × List Msg
  | [] => ([], s, [])
  | d :: ds =>
    let (d', s1, m) := sweepTable s d (expired d.id)
    let (ds', s2, ms) := sweepTables s1 expired ds
    (d' :: ds', s2, m.toList ++ ms)

/-- `do_sweep`.  `/repo/src/bm_sim/ageing.cpp:159-210`. -/
def doSweep (s : Monitor) (expired : Nat → List Nat) : List Msg × Monitor :=
  let (ds, s', ms) := sweepTables s expired s.tables
  (ms, { s' with tables := ds })

/-- Operations: sweeps, additions of tables, resets. -/
inductive Op
  | sweep (expired : Nat → List Nat)
  | addTable (id : Nat)
  | reset

/-- One operation; the messages it sends. -/
def exec (s : Monitor) : Op → List Msg × Monitor
  | .sweep e => doSweep s e
  | .addTable id => ([], addTable s id)
  | .reset => ([], reset s)

/-- A history: the messages of each operation, and the final state. -/
def run (s : Monitor) : List Op → List (List Msg) × Monitor
  | [] => ([], s)
  | op :: ops =>
    let (m, s1) := exec s op
    let (ms, s2) := run s1 ops
    (m :: ms, s2)

end Bm.Ageing
