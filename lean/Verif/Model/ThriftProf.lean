import Verif.Model.Thrift
import Verif.Model.ActionProfile
import Verif.Spec.ThriftProf

/-!
# Model of the requests of the Thrift server about action profiles

Transcribes the part of `/repo/src/bm_runtime/Standard_server.cpp` about action profiles and the tables that use them,
together with the methods of `Context` (`/repo/src/bm_sim/context.cpp`) that it calls, on top of the key builder
(`Model/KeyBuilder`) and the profile with its tables (`Model/ActionProfile`).  Outer `none`: exception that Thrift
does not declare, failed assertion or undefined behaviour.

Simplifications: those of `Model/Thrift` and `Model/ActionProfile`; one action profile with all its tables; other tables
are names.
-/

namespace Bm.Thrift
open Bm.Spec

/-- What does not change: the profile with its actions (`aprof_actions_map`), and its tables with their types.
`/repo/include/bm/bm_sim/P4Objects.h:439-450`, `/repo/src/bm_sim/P4Objects.cpp:2601-2612`. -/
structure PCtx (n : Nat) where
  name : String
  acts : List (String × ActFn)
  tname : Fin n → String
  ws : Fin n → Bool
  direct : List String
  kd : Fin n → Kind
  kb : Fin n → KeyB

/-- The match units of the tables. -/
abbrev PCtx.kind {n : Nat} (c : PCtx n) : Fin n → TableKind := fun i => (c.kd i).tk (c.kb i).nbytesKey

/-- The profile and its tables. -/
abbrev PCtx.Sys {n : Nat} (c : PCtx n) (R : Type) := ISys (Fin n) c.kind R (ActFn × List Int)

namespace PCtx
variable {n : Nat} {R : Type}

/-! ## Conversions -/

/-- `get_exception_code`, for the refusals of a profile; `group`: about a group.
`/repo/src/bm_runtime/Standard_server.cpp:36-96`. -/
def errExc (group : Bool) : PErr → PExc
  | .badData => .badActionData
  | .noMember => .invalidMbrHandle
  | .noGroup => .invalidGrpHandle
  | .inUse => if group then .grpStillUsed else .mbrStillUsed
  | .already => .mbrAlreadyInGrp
  | .notIn => .mbrNotInGrp
  | .emptyGroup => .emptyGrp
  | .constDefault => .defaultEntryIsConst

/-- `get_exception_code`, for the codes of a match unit; success is not an exception.
`/repo/src/bm_runtime/Standard_server.cpp:36-96`. -/
def codeExc : MCode → Option PExc
  | .success => none
  | .tableFull => some .tableFull
  | .invalidHandle => some .invalidHandle
  | .expiredHandle => some .expiredHandle
  | .duplicateEntry => some .duplicateEntry
  | .badMatchKey => some .badMatchKey
  | .noTableKey => some .noTableKey
  | .error => some .error

/-- The same for the refusals of a table; `stale` is the exception for the handle of the request.
`/repo/src/bm_runtime/Standard_server.cpp:36-96`. -/
def tabExc (stale : PExc) : TErr → PExc
  | .full => .tableFull
  | .duplicate => .duplicateEntry
  | .badKey => .badMatchKey
  | .noKey => .noTableKey
  | .stale => stale

/-- The common end of the requests that write: throw, or return the handle.
`/repo/src/bm_runtime/Standard_server.cpp:295-492`. -/
def finish {ι : Type} {K : ι → Type} {A : Type} (group : Bool) (stale : PExc) : POut ι K A → Option PRes
  | .err e => some (.exc (errExc group e))
  | .done => some .done
  | .id m => some (.handle m)
  | .tab _ (.err e) => some (.exc (tabExc stale e))
  | .tab _ .done => some .done
  | .tab _ (.handle h) => some (.handle h)
  | _ => none

/-- `copy_one_member`: a null pointer to the action is undefined.
`/repo/src/bm_runtime/Standard_server.cpp:1297-1306`. -/
def showMember (c : PCtx n) (x : ActFn × List Int) : Option (String × List Bytes) := do
  let a ← (c.acts.find? fun y => y.2 = x.1).map Prod.fst
  let bs ← x.2.mapM PiEntry.getString
  return (a, bs)

/-- `MatchTableIndirect::get_entry_` and `MatchTableIndirectWS::get_entry_` with `build_action_entry`: the member or the
group of an index.  `/repo/src/bm_sim/match_tables.cpp:868-869, 1111-1117, 918-924, 1163-1171`,
`/repo/src/bm_runtime/Standard_server.cpp:1264-1285`. -/
def showRef (ws : Bool) (w : Nat) : Option Ref :=
  if ws then do
    let x : Nat × Nat ← (if IIdx.isMbr w then return (IIdx.get w, 2 ^ 32 - 1)
      else do return (2 ^ 32 - 1, ← IIdx.getGrp w))
    return if x.1 < x.2 then .mbr x.1 else .grp x.2
  else (IIdx.getMbr w).map .mbr

/-- `copy_match_part_entry` and `build_action_entry`.
`/repo/src/bm_runtime/Standard_server.cpp:569-575, 1264-1285`. -/
def showEntry (c : PCtx n) (i : Fin n) (h : Nat) (k : (c.kind i).K) (w : Nat) : Option IEntry := do
  let (ps, prio) ← backKey (c.kd i) (c.kb i) (c.kb i).nbytesKey k
  let r ← showRef (c.ws i) w
  return { key := ps.map retrieveParam, handle := h, prio, ref := some r }

/-! ## Requests about the profile -/

/-- A call of the profile or of a table. -/
def call (c : PCtx n) (st : c.Sys R) (group : Bool) (stale : PExc)
    (op : POp (Fin n) (fun i => (c.kind i).K) (ActFn × List Int)) : Option (PRes × c.Sys R) := do
  let (out, st') ← st.exec op
  let r ← finish group stale out
  return (r, st')

/-- The requests that name an action.  `/repo/src/bm_sim/context.cpp:139-150, 162-174`. -/
def withAct (c : PCtx n) (st : c.Sys R) (a : String) (k : ActFn → Option (PRes × c.Sys R)) : Option (PRes × c.Sys R) :=
  match (c.acts.find? fun x => x.1 = a).map Prod.snd with
  | none => some (.exc .invalidActionName, st)
  | some f => k f

/-- The check of the number of parameters in `add_member` and `modify_member`.
`/repo/src/bm_sim/action_profile.cpp:197-201, 261-265`. -/
def actData (f : ActFn) (data : List Bytes) : Option (ActFn × List Int) :=
  if (actionData data).length = f.nparams then some (f, actionData data) else none

/-- Requests about the profile.  `/repo/src/bm_runtime/Standard_server.cpp:295-383, 762-813`,
`/repo/src/bm_sim/context.cpp:139-247`. -/
def profExec (c : PCtx n) (st : c.Sys R) : PCall → Option (PRes × c.Sys R)
  | .addMember a data => c.withAct st a fun f => c.call st false .invalidHandle (.addMember (actData f data))
  | .delMember m => c.call st false .invalidHandle (.delMember m)
  | .modMember m a data => c.withAct st a fun f => c.call st false .invalidHandle (.modMember m (actData f data))
  | .newGroup => c.call st true .invalidHandle .newGroup
  | .delGroup g => c.call st true .invalidHandle (.delGroup g)
  | .join m g => c.call st true .invalidHandle (.join m g)
  | .leave m g => c.call st true .invalidHandle (.leave m g)
  | .getMember m => do
    match ← st.prof.getMember m with
    | none => return (.exc .invalidMbrHandle, st)
    | some x =>
      let y ← c.showMember x
      return (.member m y.1 y.2, st)
  | .getMembers => do
    let l ← st.prof.getMembers
    let l' ← l.mapM fun x => (c.showMember x.2).map fun y => (x.1, y)
    return (.members l', st)
  | .getGroup g => do
    match ← st.prof.getGroup g with
    | none => return (.exc .invalidGrpHandle, st)
    | some l => return (.group g l, st)
  | .getGroups => do
    let l ← st.prof.getGroups
    return (.groups l, st)

/-- Requests for a name of no profile: those that read all members or groups return an empty list.
`/repo/src/bm_sim/context.cpp:139-247`. -/
def noProf : PCall → PRes
  | .getMembers => .members []
  | .getGroups => .groups []
  | _ => .exc .invalidProfileName

/-! ## Requests about a table -/

/-- The requests called `indirect_ws` are for tables with selection only, those called `indirect` are for both sorts.
`/repo/src/bm_sim/context.cpp:129-137, 312-321`. -/
def withRef (c : PCtx n) (st : c.Sys R) (i : Fin n) (r : Ref) (k : Option (PRes × c.Sys R)) : Option (PRes × c.Sys R) :=
  match r with
  | .mbr _ => k
  | .grp _ => if c.ws i then k else some (.exc .wrongTableType, st)

/-- The exception for a handle; for the handle of an entry it is not used.
`/repo/src/bm_sim/match_tables.cpp:756-760, 784-788, 1037-1041`. -/
def staleExc (c : PCtx n) (st : c.Sys R) (i : Fin n) (h : Nat) : Option PExc := do
  let (code, _) ← (st.tabs i).mu.getEntry h
  return (codeExc code).getD .error

/-- The reply to a request for one entry: throw, or present the entry.
`/repo/src/bm_runtime/Standard_server.cpp:605-620, 710-731`. -/
def replyEntry (c : PCtx n) (i : Fin n) (h : Nat) : MCode × Option ((c.kind i).K × Nat) → Option PRes
  | (code, none) => (codeExc code).map .exc
  | (_, some (k, w)) => (c.showEntry i h k w).map .entry

/-- `get_default_entry` with `build_action_entry`; no default entry is not an error.
`/repo/src/bm_runtime/Standard_server.cpp:666-694`, `/repo/src/bm_sim/match_tables.cpp:917-924, 1160-1173`. -/
def getDefault (c : PCtx n) (st : c.Sys R) (i : Fin n) : Option (Option Ref) :=
  if (st.tabs i).defaultSet then (showRef (c.ws i) (st.tabs i).defaultIndex).map some else some none

/-- `get_entry_from_key`; without parameters, the default entry.  `/repo/src/bm_runtime/Standard_server.cpp:710-760`,
`/repo/src/bm_sim/match_tables.cpp:892-901, 1132-1141`. -/
def getByKey (c : PCtx n) (st : c.Sys R) (i : Fin n) (ps : List TParam) (prio : Int) : Option PRes :=
  if ps = [] then (c.getDefault st i).map fun r => .entry { ref := r }
  else do
    let key ← buildKey (c.kd i) (c.kb i) (c.kb i).nbytesKey (ps.map buildParam) prio
    let (code, h) ← (st.tabs i).mu.retrieveHandle key
    if code ≠ .success then (codeExc code).map .exc
    else c.replyEntry i h (← (st.tabs i).mu.getEntry h)

/-- One pass of the loop of `get_entries`, and the presentation of the entry.
`/repo/src/bm_sim/match_tables.cpp:908-912, 1148-1152`, `/repo/src/bm_runtime/Standard_server.cpp:596-602`. -/
def entryOf (c : PCtx n) (st : c.Sys R) (i : Fin n) (h : Nat) : Option IEntry := do
  match ← (st.tabs i).mu.getEntry h with
  | (.success, some (k, w)) => c.showEntry i h k w
  | _ => none

/-- `get_entries`; the vector has `get_num_entries()` elements, writing outside of it is undefined.
`/repo/src/bm_sim/match_tables.cpp:903-915, 1143-1155`, `/repo/src/bm_runtime/Standard_server.cpp:590-603`. -/
def entries (c : PCtx n) (st : c.Sys R) (i : Fin n) : Option (List IEntry) := do
  let hs ← (st.tabs i).mu.handleList
  if hs.length = (st.tabs i).mu.numEntries then hs.mapM (c.entryOf st i) else none

/-- A packet reaches the table.  `/repo/src/bm_sim/match_tables.cpp:84-131, 686-717`,
`/repo/src/bm_sim/match_units.cpp:774-792`. -/
def packet (c : PCtx n) (st : c.Sys R) (i : Fin n) (vals : List Bytes) (nb ts hash : Nat) : Option (PRes × c.Sys R) := do
  let q ← (c.kb i).packetKey vals
  match ← st.exec (.tLookup i q nb ts hash) with
  | (.look hit r, st') => return (.look hit r, st')
  | _ => none

/-- Requests about a table with the profile.  `/repo/src/bm_runtime/Standard_server.cpp:385-492, 590-760`,
`/repo/src/bm_sim/context.cpp:30-49, 249-370`. -/
def tabExec (c : PCtx n) (st : c.Sys R) (i : Fin n) : TCall → Option (PRes × c.Sys R)
  | .add ps r prio now => c.withRef st i r (do
      let key ← buildKey (c.kd i) (c.kb i) (c.kb i).nbytesKey (ps.map buildParam) prio
      c.call st false .invalidHandle (.tAdd i key r now))
  | .delete h => do c.call st false (← c.staleExc st i h) (.tDel i h)
  | .modify h r => c.withRef st i r (do c.call st false (← c.staleExc st i h) (.tMod i h r))
  | .setDefault r => c.withRef st i r (c.call st false .invalidHandle (.setDflt i r))
  | .resetDefault => c.call st false .invalidHandle (.unsetDflt i)
  | .clear d => c.call st false .invalidHandle (.clear i d)
  | .get h => do
    let x ← (st.tabs i).mu.getEntry h
    (c.replyEntry i h x).map fun r => (r, st)
  | .getByKey ps prio => (c.getByKey st i ps prio).map fun r => (r, st)
  | .entries => (c.entries st i).map fun l => (.entries l, st)
  | .getDefault => (c.getDefault st i).map fun r => (.ref r, st)
  | .count => some (.num (st.tabs i).mu.numEntries, st)
  | .packet vals nb ts hash => c.packet st i vals nb ts hash

/-- Requests for a name of no table.  `/repo/src/bm_sim/context.cpp:30-49, 129-137, 312-321`,
`/repo/src/bm_runtime/Standard_server.cpp:624-626, 646-648, 688-690, 735-741`. -/
def noTab : TCall → Option PRes
  | .get _ => some (.entry {})
  | .getByKey _ _ => some (.entry {})
  | .entries => some (.entries [])
  | .getDefault => some (.ref none)
  | .packet _ _ _ _ => none
  | _ => some (.exc .invalidTableName)

/-- Requests about a table without action profile: those that write throw; the others are those of `Model/Thrift`.
`/repo/src/bm_sim/context.cpp:129-137, 312-321`. -/
def directTab : TCall → Option PRes
  | .add _ _ _ _ | .delete _ | .modify _ _ | .setDefault _ | .resetDefault => some (.exc .wrongTableType)
  | _ => none

/-- The table of a name.  `/repo/src/bm_sim/P4Objects.cpp:2607-2612`. -/
def find (c : PCtx n) (nm : String) : Option (Fin n) := (List.finRange n).find? fun i => c.tname i = nm

/-- One request. -/
def exec (c : PCtx n) (st : c.Sys R) : PReq → Option (PRes × c.Sys R)
  | .prof nm call => if nm = c.name then c.profExec st call else some (noProf call, st)
  | .tab nm call =>
    match c.find nm with
    | some i => c.tabExec st i call
    | none => (if nm ∈ c.direct then directTab call else noTab call).map fun r => (r, st)

/-- A history of requests. -/
def run (c : PCtx n) : c.Sys R → List PReq → Option (List PRes × c.Sys R)
  | st, [] => some ([], st)
  | st, q :: qs => do
    let (r, st1) ← c.exec st q
    let (rs, st2) ← run c st1 qs
    return (r :: rs, st2)

/-! ## Loading -/

/-- The key builders of the tables.  `/repo/src/bm_sim/P4Objects.cpp:1669-1732`. -/
def loadKb (d : PDecl n) : Option (Fin n → KeyB) :=
  if h : ∀ i, (KeyB.build (d.tab i).fs).isSome = true then some fun i => (KeyB.build (d.tab i).fs).get (h i) else none

/-- Loading of the profile and its tables.  `/repo/src/bm_sim/P4Objects.cpp:1641-1780`. -/
def load (d : PDecl n) : Option (PCtx n) :=
  (loadKb d).map fun kb =>
    { name := d.name, acts := d.acts, tname := fun i => (d.tab i).name, ws := fun i => (d.tab i).ws
      direct := d.direct, kd := fun i => (d.tab i).kind, kb }

/-- The state after loading.  `/repo/src/bm_sim/P4Objects.cpp:1738-1780`. -/
def start (c : PCtx n) (d : PDecl n) (meters : Nat → R) : c.Sys R where
  tabs := fun i =>
    { mu := MUnit.init (c.kind i).str Nat (d.tab i).size (c.kb i).nbytesKey meters
      constDefault := (d.tab i).constDflt }

end PCtx
end Bm.Thrift
