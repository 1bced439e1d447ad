import Verif.Model.HandleMgr
import Verif.Model.UMap

/-!
# Model of the packet replication engine (`McSimplePre`, `McSimplePreLAG`)

Transcribes `/repo/src/bm_sim/simple_pre.cpp`, `/repo/src/bm_sim/simple_pre_lag.cpp` and their
headers.  One state type serves both classes: `McSimplePreLAG` derives from `McSimplePre` and adds
`lag_entries`, which the base class never touches.  Identifiers (32/64-bit unsigned) are natural
numbers; the only arithmetic on them is done by the handle managers.  Locking and logging are left
out: every public function holds the lock for its whole duration.

`none` stands for an exception leaving the function (`std::unordered_map::at` on an absent key), a
failed assertion or undefined behaviour.
-/

namespace Bm.Pre

/-- `McReturnCode`.  `/repo/include/bm/bm_sim/simple_pre.h:52-59`. -/
inductive Code
  | success | tableFull | invalidMgid | invalidMgrpHandle | invalidL1Handle | error
deriving DecidableEq, Repr

/-- `PortMap`/`LagMap`: `McPre::Set<512>`, a wrapper around `std::bitset<512>`.
`/repo/include/bm/bm_sim/pre.h:25-44`, `/repo/include/bm/bm_sim/simple_pre.h:80-84`. -/
abbrev PortSet := BitVec 512

/-- `MgidEntry` (the member `mgid` equals the key and is never read).
`/repo/include/bm/bm_sim/simple_pre.h:147-154`. -/
structure MgidEntry where
  l1List : List Nat := []
deriving DecidableEq

/-- `L1Entry`.  `/repo/include/bm/bm_sim/simple_pre.h:156-165`. -/
structure L1Entry where
  mgrpHdl : Nat := 0
  rid : Nat := 0
  l2Hdl : Nat := 0
  isAssociated : Bool := false
deriving DecidableEq

/-- `L2Entry`.  `/repo/include/bm/bm_sim/simple_pre.h:167-178`. -/
structure L2Entry where
  l1Hdl : Nat := 0
  portMap : PortSet := 0
  lagMap : PortSet := 0
deriving DecidableEq

/-- `LagEntry`.  `/repo/include/bm/bm_sim/simple_pre_lag.h:58-65`. -/
structure LagEntry where
  memberCount : Nat
  portMap : PortSet
deriving DecidableEq

/-- Data members.  `/repo/include/bm/bm_sim/simple_pre.h:143-145,189-193`,
`/repo/include/bm/bm_sim/simple_pre_lag.h:67`. -/
structure State where
  mgidTableSize : Nat
  l1MaxEntries : Nat
  l2MaxEntries : Nat
  mgids : UMap MgidEntry := {}
  l1s : UMap L1Entry := {}
  l2s : UMap L2Entry := {}
  l1Handles : HandleMgr := {}
  l2Handles : HandleMgr := {}
  lags : UMap LagEntry := {}

/-- `mc_mgrp_create`.  `/repo/src/bm_sim/simple_pre.cpp:25-38`. -/
def mgrpCreate (s : State) (mgid : Nat) : Code × State :=
  if s.mgids.size ≥ s.mgidTableSize then (.tableFull, s)
  else (.success, { s with mgids := s.mgids.insert mgid {} })

/-- `mc_mgrp_destroy`.  `/repo/src/bm_sim/simple_pre.cpp:40-46`. -/
def mgrpDestroy (s : State) (mgrp : Nat) : Code × State :=
  (.success, { s with mgids := s.mgids.erase mgrp })

/-- Common part of the two `mc_node_create`.  `/repo/src/bm_sim/simple_pre.cpp:48-78`,
`/repo/src/bm_sim/simple_pre_lag.cpp:23-55`.  `get_handle` always returns 0
(`/repo/include/bm/bm_sim/handle_mgr.h:140-154`), so the two `return ERROR` are unreachable.
The third component is the handle written through the pointer. -/
def nodeCreateWith (s : State) (rid : Nat) (mk : Nat → L2Entry) :
    Option (Code × Nat × State) := do
  if s.l1s.size ≥ s.l1MaxEntries then return (.tableFull, 0, s)
  if s.l2s.size ≥ s.l2MaxEntries then return (.tableFull, 0, s)
  let (l1, h1) ← s.l1Handles.getHandle
  let (l2, h2) ← s.l2Handles.getHandle
  let l1s := (s.l1s.insert l1 { rid := rid }).modify l1 fun e => { e with l2Hdl := l2 }
  let l2s := s.l2s.insert l2 (mk l1)
  return (.success, l1, { s with l1s := l1s, l2s := l2s, l1Handles := h1, l2Handles := h2 })

/-- `McSimplePre::mc_node_create`.  `/repo/src/bm_sim/simple_pre.cpp:48-78`. -/
def nodeCreate (s : State) (rid : Nat) (ports : PortSet) : Option (Code × Nat × State) :=
  nodeCreateWith s rid fun l1 => { l1Hdl := l1, portMap := ports }

/-- `McSimplePreLAG::mc_node_create`.  `/repo/src/bm_sim/simple_pre_lag.cpp:23-55`. -/
def nodeCreateLag (s : State) (rid : Nat) (ports lags : PortSet) : Option (Code × Nat × State) :=
  nodeCreateWith s rid fun l1 => { l1Hdl := l1, portMap := ports, lagMap := lags }

/-- `mc_node_associate`.  `/repo/src/bm_sim/simple_pre.cpp:80-104`. -/
def nodeAssociate (s : State) (mgrp l1 : Nat) : Option (Code × State) := do
  if !(← s.l1Handles.validHandle l1) then return (.invalidL1Handle, s)
  match s.mgids.find? mgrp with
  | none => return (.invalidMgrpHandle, s)
  | some _ =>
    let e ← s.l1s.find? l1
    if e.isAssociated then return (.error, s)
    return (.success, { s with
      mgids := s.mgids.modify mgrp fun m => { m with l1List := m.l1List ++ [l1] }
      l1s := s.l1s.modify l1 fun e => { e with mgrpHdl := mgrp, isAssociated := true } })

/-- `node_dissociate` (erase-remove of the handle).  `/repo/src/bm_sim/simple_pre.cpp:289-294`. -/
def dissociateFrom (m : MgidEntry) (l1 : Nat) : MgidEntry :=
  { m with l1List := m.l1List.filter fun h => h ≠ l1 }

/-- `mc_node_dissociate`.  `/repo/src/bm_sim/simple_pre.cpp:106-130`. -/
def nodeDissociate (s : State) (mgrp l1 : Nat) : Option (Code × State) := do
  if !(← s.l1Handles.validHandle l1) then return (.invalidL1Handle, s)
  match s.mgids.find? mgrp with
  | none => return (.invalidMgrpHandle, s)
  | some _ =>
    let e ← s.l1s.find? l1
    if !e.isAssociated || e.mgrpHdl ≠ mgrp then return (.error, s)
    return (.success, { s with
      mgids := s.mgids.modify mgrp fun m => dissociateFrom m l1
      l1s := s.l1s.modify l1 fun e => { e with isAssociated := false } })

/-- The `if (l1_entry.is_associated)` block of `mc_node_destroy`; `mgid_entries.at` throws when the
group is gone.  `/repo/src/bm_sim/simple_pre.cpp:141-145`. -/
def destroyAssoc (s : State) (e : L1Entry) (l1 : Nat) : Option (UMap MgidEntry) :=
  if e.isAssociated then
    match s.mgids.find? e.mgrpHdl with
    | none => none
    | some _ => some (s.mgids.modify e.mgrpHdl fun m => dissociateFrom m l1)
  else some s.mgids

/-- `mc_node_destroy`.  `/repo/src/bm_sim/simple_pre.cpp:132-157`. -/
def nodeDestroy (s : State) (l1 : Nat) : Option (Code × State) := do
  if !(← s.l1Handles.validHandle l1) then return (.invalidL1Handle, s)
  let e ← s.l1s.find? l1
  let mgids ← destroyAssoc s e l1
  let (ok2, h2) ← s.l2Handles.releaseHandle e.l2Hdl
  if !ok2 then none
  let (ok1, h1) ← s.l1Handles.releaseHandle l1
  if !ok1 then none
  return (.success, { s with
    mgids := mgids
    l1s := s.l1s.erase l1
    l2s := s.l2s.erase e.l2Hdl
    l1Handles := h1
    l2Handles := h2 })

/-- Common part of the two `mc_node_update`.  `/repo/src/bm_sim/simple_pre.cpp:159-173`,
`/repo/src/bm_sim/simple_pre_lag.cpp:57-73`. -/
def nodeUpdateWith (s : State) (l1 : Nat) (f : L2Entry → L2Entry) : Option (Code × State) := do
  if !(← s.l1Handles.validHandle l1) then return (.invalidL1Handle, s)
  let e ← s.l1s.find? l1
  let _ ← s.l2s.find? e.l2Hdl
  return (.success, { s with l2s := s.l2s.modify e.l2Hdl f })

/-- `McSimplePre::mc_node_update`.  `/repo/src/bm_sim/simple_pre.cpp:159-173`. -/
def nodeUpdate (s : State) (l1 : Nat) (ports : PortSet) : Option (Code × State) :=
  nodeUpdateWith s l1 fun e => { e with portMap := ports }

/-- `McSimplePreLAG::mc_node_update`.  `/repo/src/bm_sim/simple_pre_lag.cpp:57-73`. -/
def nodeUpdateLag (s : State) (l1 : Nat) (ports lags : PortSet) : Option (Code × State) :=
  nodeUpdateWith s l1 fun e => { e with portMap := ports, lagMap := lags }

/-- The counting loop of `mc_set_lag_membership`, positions `0 .. n-1`.  The `uint16_t` counter
cannot wrap: there are 512 positions.  `/repo/src/bm_sim/simple_pre_lag.cpp:79,84-88`. -/
def countMembers (pm : PortSet) : Nat → Nat
  | 0 => 0
  | j + 1 => if pm.getLsbD j then countMembers pm j + 1 else countMembers pm j

/-- `LAG_MAX_ENTRIES`.  `/repo/include/bm/bm_sim/simple_pre_lag.h:31`. -/
def lagMaxEntries : Nat := 256

/-- `mc_set_lag_membership`.  `/repo/src/bm_sim/simple_pre_lag.cpp:75-94`. -/
def setLagMembership (s : State) (lag : Nat) (ports : PortSet) : Code × State :=
  if lag > lagMaxEntries then (.error, s)
  else (.success, { s with
    lags := s.lags.assign lag { memberCount := countMembers ports 512, portMap := ports } })

/-- `McSimplePre::reset_state`.  `/repo/src/bm_sim/simple_pre.cpp:243-257`. -/
def resetState (s : State) : State :=
  { s with mgids := {}, l1s := {}, l2s := {}, l1Handles := s.l1Handles.clear,
           l2Handles := s.l2Handles.clear }

/-- `McSimplePreLAG::reset_state`.  `/repo/src/bm_sim/simple_pre_lag.cpp:127-133`. -/
def resetStateLag (s : State) : State := { resetState s with lags := {} }

/-- `McOut`: replication id and port.  `/repo/include/bm/bm_sim/simple_pre.h:68-73`. -/
abbrev Out := Nat × Nat

/-- The port loop for the positions listed.  `/repo/src/bm_sim/simple_pre.cpp:277-282`,
`/repo/src/bm_sim/simple_pre_lag.cpp:156-161`. -/
def portLoop (rid : Nat) (pm : PortSet) : List Nat → List Out → List Out
  | [], out => out
  | p :: ps, out => portLoop rid pm ps (if pm.getLsbD p then out ++ [(rid, p)] else out)

/-- Loop over the nodes of a group, base class.  `/repo/src/bm_sim/simple_pre.cpp:272-283`. -/
def nodeLoop (s : State) : List Nat → List Out → Option (List Out)
  | [], out => some out
  | l1 :: l1s, out => do
    let e ← s.l1s.find? l1
    let e2 ← s.l2s.find? e.l2Hdl
    nodeLoop s l1s (portLoop e.rid e2.portMap (List.range 512) out)

/-- `McSimplePre::replicate`.  `/repo/src/bm_sim/simple_pre.cpp:259-287`. -/
def replicate (s : State) (mgid : Nat) : Option (List Out) :=
  match s.mgids.find? mgid with
  | none => some []
  | some m => nodeLoop s m.l1List []

/-- The member-selection loop of the LAG class: `target` is `port_count1`, `cnt` is
`port_count2`.  `/repo/src/bm_sim/simple_pre_lag.cpp:180-189`. -/
def pickLoop (rid : Nat) (pm : PortSet) (target : Nat) : List Nat → Nat → List Out → List Out
  | [], _, out => out
  | p :: ps, cnt, out =>
    let cnt' := if pm.getLsbD p then cnt + 1 else cnt
    if target = cnt' then out ++ [(rid, p)] else pickLoop rid pm target ps cnt' out

/-- The LAG loop for the positions listed; `lag_hash` is the constant `0xFF`.
`/repo/src/bm_sim/simple_pre_lag.cpp:140,163-191`. -/
def lagLoop (s : State) (rid : Nat) (lm : PortSet) : List Nat → List Out → List Out
  | [], out => out
  | i :: is, out =>
    lagLoop s rid lm is
      (if lm.getLsbD i then
        match s.lags.find? i with
        | none => out
        | some e =>
          if e.memberCount = 0 then out
          else pickLoop rid e.portMap (0xFF % e.memberCount + 1) (List.range 512) 0 out
      else out)

/-- Loop over the nodes of a group, LAG class.  `/repo/src/bm_sim/simple_pre_lag.cpp:151-192`. -/
def nodeLoopLag (s : State) : List Nat → List Out → Option (List Out)
  | [], out => some out
  | l1 :: l1s, out => do
    let e ← s.l1s.find? l1
    let e2 ← s.l2s.find? e.l2Hdl
    nodeLoopLag s l1s
      (lagLoop s e.rid e2.lagMap (List.range 512) (portLoop e.rid e2.portMap (List.range 512) out))

/-- `McSimplePreLAG::replicate`.  `/repo/src/bm_sim/simple_pre_lag.cpp:135-196`. -/
def replicateLag (s : State) (mgid : Nat) : Option (List Out) :=
  match s.mgids.find? mgid with
  | none => some []
  | some m => nodeLoopLag s m.l1List []

end Bm.Pre
