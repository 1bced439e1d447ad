import Verif.Model.MatchUnit
import Verif.Lemmas.MatchUnitRun
import Verif.Spec.Profile

/-!
# Model of action profiles and indirect match tables

`/repo/src/bm_sim/action_profile.cpp`, `/repo/include/bm/bm_sim/action_profile.h`,
`/repo/include/bm/bm_sim/ras.h` and `MatchTableIndirect`, `MatchTableIndirectWS` of
`/repo/src/bm_sim/match_tables.cpp:652-1186`.

Simplifications: an action with its data is an element of a type `A`; `add_member` with the wrong
number of action parameters is `none`; every table has selection (`MatchTableIndirectWS`, a
superset of `MatchTableIndirect`); the value of the selection hash is an argument of the lookup;
the next node is not modelled; the group selector is the built-in `GroupMgr`; locks, logging and
(de)serialisation are left out.  Handles are natural numbers.  Outer `none` is a failed assertion,
an uncaught exception or an access outside a vector.
-/

namespace Bm
open Spec

/-! ## Indices with a tag -/

namespace IIdx

/-- `make_mbr_index`.  `/repo/include/bm/bm_sim/action_profile.h:67-70`. -/
def makeMbr (i : Nat) : Option Nat := if i ≤ 0x00FFFFFF then some ((0x00 <<< 24) ||| i) else none

/-- `make_grp_index`.  `/repo/include/bm/bm_sim/action_profile.h:72-75`. -/
def makeGrp (i : Nat) : Option Nat := if i ≤ 0x00FFFFFF then some ((0x01 <<< 24) ||| i) else none

/-- `is_mbr`.  `/repo/include/bm/bm_sim/action_profile.h:46`. -/
def isMbr (w : Nat) : Bool := w >>> 24 == 0x00

/-- `is_grp`.  `/repo/include/bm/bm_sim/action_profile.h:47`. -/
def isGrp (w : Nat) : Bool := w >>> 24 == 0x01

/-- `get`.  `/repo/include/bm/bm_sim/action_profile.h:48`. -/
def get (w : Nat) : Nat := w &&& 0x00FFFFFF

/-- `get_mbr`.  `/repo/include/bm/bm_sim/action_profile.h:49`. -/
def getMbr (w : Nat) : Option Nat := if isMbr w then some (get w) else none

/-- `get_grp`.  `/repo/include/bm/bm_sim/action_profile.h:50`. -/
def getGrp (w : Nat) : Option Nat := if isGrp w then some (get w) else none

/-- Interface glue: the index word for a reference (the member/group overloads of the API). -/
def make : Ref → Option Nat
  | .mbr m => makeMbr m
  | .grp g => makeGrp g

/-- Interface glue: the reference shown for an index word (`get_entry_`).
`/repo/src/bm_sim/match_tables.cpp:1111-1117`. -/
def toRef (w : Nat) : Ref := if isMbr w then .mbr (get w) else .grp (get w)

end IIdx

/-! ## Reference counts -/

/-- `IndirectIndexRefCount`.  `/repo/include/bm/bm_sim/action_profile.h:163-205`. -/
structure RefCounts where
  mbr : List Nat := []
  grp : List Nat := []
deriving DecidableEq, Repr

namespace RefCounts

/-- `v.push_back(value)` or `v[i] = value`, with the assertion.
`/repo/include/bm/bm_sim/action_profile.h:171-175`. -/
def setIn (v : List Nat) (i x : Nat) : Option (List Nat) :=
  if i ≤ v.length then some (if i = v.length then v ++ [x] else v.set i x) else none

/-- `set`.  `/repo/include/bm/bm_sim/action_profile.h:168-176`. -/
def set (rc : RefCounts) (w x : Nat) : Option RefCounts :=
  if IIdx.isMbr w then (setIn rc.mbr (IIdx.get w) x).map fun v => { rc with mbr := v }
  else (setIn rc.grp (IIdx.get w) x).map fun v => { rc with grp := v }

/-- `get`.  `/repo/include/bm/bm_sim/action_profile.h:178-181`. -/
def get (rc : RefCounts) (w : Nat) : Option Nat :=
  if IIdx.isMbr w then rc.mbr[IIdx.get w]? else rc.grp[IIdx.get w]?

/-- One element changed in place, unsigned 32-bit arithmetic. -/
def changeIn (v : List Nat) (i d : Nat) : Option (List Nat) := do
  let x ← v[i]?
  return v.set i ((x + d) % 2 ^ 32)

/-- `increase`.  `/repo/include/bm/bm_sim/action_profile.h:183-189`. -/
def increase (rc : RefCounts) (w : Nat) : Option RefCounts :=
  if IIdx.isMbr w then (changeIn rc.mbr (IIdx.get w) 1).map fun v => { rc with mbr := v }
  else (changeIn rc.grp (IIdx.get w) 1).map fun v => { rc with grp := v }

/-- `decrease`.  `/repo/include/bm/bm_sim/action_profile.h:191-197`. -/
def decrease (rc : RefCounts) (w : Nat) : Option RefCounts :=
  if IIdx.isMbr w then
    (changeIn rc.mbr (IIdx.get w) (2 ^ 32 - 1)).map fun v => { rc with mbr := v }
  else (changeIn rc.grp (IIdx.get w) (2 ^ 32 - 1)).map fun v => { rc with grp := v }

end RefCounts

/-! ## Groups: `RandAccessUIntSet` over a sorted `flat_set` -/

namespace Ras

/-- `flat_set::insert`, `RandAccessUIntSet::add`.  `/repo/include/bm/bm_sim/ras.h:45-48`.
The boolean is true when the element was inserted. -/
def add : List Nat → Nat → Bool × List Nat
  | [], x => (true, [x])
  | y :: l, x =>
    if x < y then (true, x :: y :: l)
    else if x = y then (false, y :: l)
    else ((add l x).1, y :: (add l x).2)

/-- `flat_set::erase`, `RandAccessUIntSet::remove`.  `/repo/include/bm/bm_sim/ras.h:51-54`. -/
def remove : List Nat → Nat → Bool × List Nat
  | [], _ => (false, [])
  | y :: l, x => if x = y then (true, l) else ((remove l x).1, y :: (remove l x).2)

/-- `get_nth`; dereferencing the end iterator is undefined.
`/repo/include/bm/bm_sim/ras.h:65-68`. -/
def getNth (l : List Nat) (n : Nat) : Option Nat := l[n]?

end Ras

/-! ## Action profiles -/

/-- `ActionProfile`, data members.  `/repo/include/bm/bm_sim/action_profile.h:288-300`. -/
structure AProf (A : Type) where
  withSelection : Bool := true
  entries : List A := []
  rc : RefCounts := {}
  mbrH : HandleMgr := {}
  grpH : HandleMgr := {}
  numMembers : Nat := 0
  numGroups : Nat := 0
  groups : List (List Nat) := []

/-- Error codes of the profile operations (part of `MatchErrorCode`). -/
inductive PCode
  | success | badActionData | invalidMbr | invalidGrp | mbrStillUsed | grpStillUsed
  | alreadyInGrp | notInGrp
deriving DecidableEq, Repr

namespace AProf
variable {A : Type}

/-- `is_valid_mbr`.  `/repo/include/bm/bm_sim/action_profile.h:275-277`. -/
def isValidMbr (p : AProf A) (m : Nat) : Option Bool := p.mbrH.validHandle m

/-- `is_valid_grp`.  `/repo/include/bm/bm_sim/action_profile.h:279-281`. -/
def isValidGrp (p : AProf A) (g : Nat) : Option Bool := p.grpH.validHandle g

/-- `entries_insert`.  `/repo/src/bm_sim/action_profile.cpp:180-190`. -/
def entriesInsert (p : AProf A) (m : Nat) (a : A) : Option (AProf A) :=
  if m ≤ p.entries.length then do
    let es := if m = p.entries.length then p.entries ++ [a] else p.entries.set m a
    let w ← IIdx.makeMbr m
    let rc ← p.rc.set w 0
    return { p with entries := es, rc := rc }
  else none

/-- `add_member`.  `/repo/src/bm_sim/action_profile.cpp:192-224`. -/
def addMember (p : AProf A) (a : Option A) : Option ((PCode × Nat) × AProf A) :=
  match a with
  | none => some ((.badActionData, 0), p)
  | some a => do
    let (m, mbrH) ← p.mbrH.getHandle
    let p1 ← entriesInsert { p with mbrH := mbrH } m a
    return ((.success, m), { p1 with numMembers := p1.numMembers + 1 })

/-- `delete_member`.  `/repo/src/bm_sim/action_profile.cpp:226-254`. -/
def deleteMember (p : AProf A) (m : Nat) : Option (PCode × AProf A) := do
  if !(← p.isValidMbr m) then return (.invalidMbr, p)
  let w ← IIdx.makeMbr m
  let c ← p.rc.get w
  if c > 0 then return (.mbrStillUsed, p)
  let (ok, mbrH) ← p.mbrH.releaseHandle m
  if ok then return (.success, { p with mbrH := mbrH, numMembers := p.numMembers - 1 }) else none

/-- `modify_member`.  `/repo/src/bm_sim/action_profile.cpp:256-286`. -/
def modifyMember (p : AProf A) (m : Nat) (a : Option A) : Option (PCode × AProf A) :=
  match a with
  | none => some (.badActionData, p)
  | some a => do
    if !(← p.isValidMbr m) then return (.invalidMbr, p)
    if m < p.entries.length then return (.success, { p with entries := p.entries.set m a }) else none

/-- `GroupMgr::insert_group`.  `/repo/src/bm_sim/action_profile.cpp:122-130`. -/
def insertGroup (gs : List (List Nat)) (g : Nat) : Option (List (List Nat)) :=
  if g ≤ gs.length then some (if g = gs.length then gs ++ [[]] else gs.set g []) else none

/-- `create_group`.  `/repo/src/bm_sim/action_profile.cpp:288-314`. -/
def createGroup (p : AProf A) : Option (Nat × AProf A) := do
  let (g, grpH) ← p.grpH.getHandle
  let gs ← insertGroup p.groups g
  let w ← IIdx.makeGrp g
  let rc ← p.rc.set w 0
  return (g, { p with grpH := grpH, groups := gs, rc := rc, numGroups := p.numGroups + 1 })

/-- Loop of `delete_group`: the members lose one reference each.
`/repo/src/bm_sim/action_profile.cpp:332-336`. -/
def decreaseAll (rc : RefCounts) : List Nat → Option RefCounts
  | [] => some rc
  | m :: l => do
    let w ← IIdx.makeMbr m
    let rc1 ← rc.decrease w
    decreaseAll rc1 l

/-- `delete_group`.  `/repo/src/bm_sim/action_profile.cpp:316-355`. -/
def deleteGroup (p : AProf A) (g : Nat) : Option (PCode × AProf A) := do
  if !(← p.isValidGrp g) then return (.invalidGrp, p)
  let w ← IIdx.makeGrp g
  let c ← p.rc.get w
  if c > 0 then return (.grpStillUsed, p)
  let info ← p.groups[g]?
  let rc ← decreaseAll p.rc info
  let (ok, grpH) ← p.grpH.releaseHandle g
  if ok then return (.success, { p with rc := rc, grpH := grpH, numGroups := p.numGroups - 1 })
  else none

/-- `add_member_to_group`, `GroupInfo::add_member`.
`/repo/src/bm_sim/action_profile.cpp:357-390,56-60`. -/
def addMemberToGroup (p : AProf A) (m g : Nat) : Option (PCode × AProf A) := do
  if !(← p.isValidMbr m) then return (.invalidMbr, p)
  if !(← p.isValidGrp g) then return (.invalidGrp, p)
  let info ← p.groups[g]?
  let r := Ras.add info m
  let gs := p.groups.set g r.2
  if r.1 then
    let w ← IIdx.makeMbr m
    let rc ← p.rc.increase w
    return (.success, { p with groups := gs, rc := rc })
  else return (.alreadyInGrp, { p with groups := gs })

/-- `remove_member_from_group`, `GroupInfo::delete_member`.
`/repo/src/bm_sim/action_profile.cpp:392-425,62-66`. -/
def removeMemberFromGroup (p : AProf A) (m g : Nat) : Option (PCode × AProf A) := do
  if !(← p.isValidMbr m) then return (.invalidMbr, p)
  if !(← p.isValidGrp g) then return (.invalidGrp, p)
  let info ← p.groups[g]?
  let r := Ras.remove info m
  let gs := p.groups.set g r.2
  if r.1 then
    let w ← IIdx.makeMbr m
    let rc ← p.rc.decrease w
    return (.success, { p with groups := gs, rc := rc })
  else return (.notInGrp, { p with groups := gs })

/-- `get_member`, `get_member_`.  `/repo/src/bm_sim/action_profile.cpp:427-443`.  Inner `none`:
invalid handle. -/
def getMember (p : AProf A) (m : Nat) : Option (Option A) := do
  if !(← p.isValidMbr m) then return none
  let a ← p.entries[m]?
  return some a

/-- `get_members`: the vector has `num_members` elements; element `idx++` is written for every
handle.  `/repo/src/bm_sim/action_profile.cpp:445-456`.  Writing outside the vector is undefined
(elements not written would be default members; the model then also gives no result, which never
happens according to `C15_conforms_partial`). -/
def getMembers (p : AProf A) : Option (List (Nat × A)) := do
  let hs ← p.mbrH.iterate
  if hs.length = p.numMembers then
    hs.mapM fun m => (p.entries[m]?).map fun a => (m, a)
  else none

/-- `get_group`, `get_group_`.  `/repo/src/bm_sim/action_profile.cpp:458-474`. -/
def getGroup (p : AProf A) (g : Nat) : Option (Option (List Nat)) := do
  if !(← p.isValidGrp g) then return none
  let info ← p.groups[g]?
  return some info

/-- `get_groups`, with the same remark as for `getMembers`.
`/repo/src/bm_sim/action_profile.cpp:476-487`. -/
def getGroups (p : AProf A) : Option (List (Nat × List Nat)) := do
  let hs ← p.grpH.iterate
  if hs.length = p.numGroups then
    hs.mapM fun g => (p.groups[g]?).map fun l => (g, l)
  else none

/-- `group_is_empty`, `GroupMgr::group_size`.
`/repo/src/bm_sim/action_profile.cpp:521-524,132-135`. -/
def groupIsEmpty (p : AProf A) (g : Nat) : Option Bool := do
  let info ← p.groups[g]?
  return info.length == 0

/-- `choose_from_group`, `GroupMgr::get_from_hash`; `hash` is the 32-bit value of the selection
hash (0 without hash).  `/repo/src/bm_sim/action_profile.cpp:603-608,115-120`. -/
def getFromHash (p : AProf A) (g hash : Nat) : Option Nat := do
  let info ← p.groups[g]?
  if info.length = 0 then none else Ras.getNth info (hash % info.length)

/-- `lookup`.  `/repo/src/bm_sim/action_profile.cpp:158-175`. -/
def lookup (p : AProf A) (w hash : Nat) : Option A := do
  if IIdx.isMbr w || p.withSelection then
    let m ← (if IIdx.isMbr w then IIdx.getMbr w else do
      let g ← IIdx.getGrp w
      if ← p.isValidGrp g then p.getFromHash g hash else none)
    if ← p.isValidMbr m then p.entries[m]? else none
  else none

/-- `reset_state`.  `/repo/src/bm_sim/action_profile.cpp:526-536`.  `grp_handles` is not
cleared. -/
def resetState (p : AProf A) : AProf A :=
  { p with
    rc := {}
    mbrH := p.mbrH.clear
    entries := []
    numMembers := 0
    numGroups := 0
    groups := [] }

end AProf

/-! ## Indirect tables -/

/-- `MatchTableIndirect`, data members.  `/repo/include/bm/bm_sim/match_tables.h:461-466`. -/
structure ITab {K : Type} (L : LookupStr K) (R : Type) where
  mu : MUnit L Nat R
  defaultSet : Bool := false
  defaultIndex : Nat := 0
  constDefault : Bool := false

/-- One action profile and the tables that use it. -/
structure ISys (ι : Type) (kind : ι → TableKind) (R A : Type) where
  prof : AProf A := {}
  tabs : ∀ i, ITab (kind i).str R

namespace ISys
variable {ι : Type} [DecidableEq ι] {kind : ι → TableKind} {R A : Type}

/-- Replace the match unit of a table. -/
def setMu (s : ISys ι kind R A) (i : ι) (mu : MUnit (kind i).str Nat R) : ISys ι kind R A :=
  { s with tabs := upd s.tabs i { s.tabs i with mu := mu } }

/-- Replace the reference counts. -/
def setRc (s : ISys ι kind R A) (rc : RefCounts) : ISys ι kind R A :=
  { s with prof := { s.prof with rc := rc } }

/-- Check of the reference in `add_entry`, `modify_entry` (member) and `add_entry_ws`,
`modify_entry_ws` (group).  `/repo/src/bm_sim/match_tables.cpp:729-730,791-792,1006-1010,1044-1048`.
Inner `none`: the reference can be used. -/
def checkRef (s : ISys ι kind R A) : Ref → Option (Option PErr)
  | .mbr m => do
    if !(← s.prof.isValidMbr m) then return some .noMember
    return none
  | .grp g => do
    if !(← s.prof.isValidGrp g) then return some .noGroup
    if ← s.prof.groupIsEmpty g then return some .emptyGroup
    return none

/-- Result of a call on the match unit, with references instead of index words. -/
def outRef {K : Type} : TOut K Nat → TOut K Ref
  | .err e => .err e
  | .done => .done
  | .handle h => .handle h
  | .entry k w => .entry k (IIdx.toRef w)
  | .miss => .miss
  | .hit h w => .hit h (IIdx.toRef w)
  | .handles l => .handles l
  | .num n => .num n

/-- `add_entry`, `add_entry_ws`.  `/repo/src/bm_sim/match_tables.cpp:719-747,996-1028`.  The
reference count is increased before the match unit may refuse the entry. -/
def tAdd (s : ISys ι kind R A) (i : ι) (key : Option (kind i).K) (r : Ref) (now : Nat) :
    Option (POut ι (fun i => (kind i).K) A × ISys ι kind R A) := do
  match ← s.checkRef r with
  | some e => return (.err e, s)
  | none =>
    let w ← IIdx.make r
    let rc ← s.prof.rc.increase w
    let (o, mu) ← (s.tabs i).mu.exec (.add key w now)
    return (.tab i (outRef o), (s.setRc rc).setMu i mu)

/-- `delete_entry`.  `/repo/src/bm_sim/match_tables.cpp:749-775`. -/
def tDel (s : ISys ι kind R A) (i : ι) (h : Nat) :
    Option (POut ι (fun i => (kind i).K) A × ISys ι kind R A) := do
  match ← (s.tabs i).mu.getEntry h with
  | (.success, some (_, w)) =>
    let rc ← s.prof.rc.decrease w
    let (o, mu) ← (s.tabs i).mu.exec (.delete h)
    return (.tab i (outRef o), (s.setRc rc).setMu i mu)
  | (c, _) => return (.tab i c.out, s)

/-- `modify_entry`, `modify_entry_ws`.
`/repo/src/bm_sim/match_tables.cpp:777-811,1030-1067`.  The old reference is dropped before the
new one is checked. -/
def tMod (s : ISys ι kind R A) (i : ι) (h : Nat) (r : Ref) :
    Option (POut ι (fun i => (kind i).K) A × ISys ι kind R A) := do
  match ← (s.tabs i).mu.getEntry h with
  | (.success, some (_, w)) =>
    let rc ← s.prof.rc.decrease w
    match ← (s.setRc rc).checkRef r with
    | some e => return (.err e, s.setRc rc)
    | none =>
      let w' ← IIdx.make r
      let rc' ← rc.increase w'
      let (o, mu) ← (s.tabs i).mu.exec (.modify h w')
      return (.tab i (outRef o), (s.setRc rc').setMu i mu)
  | (c, _) => return (.tab i c.out, s)

/-- `get_entry_`.  `/repo/src/bm_sim/match_tables.cpp:1102-1122`. -/
def tGet (s : ISys ι kind R A) (i : ι) (h : Nat) :
    Option (POut ι (fun i => (kind i).K) A × ISys ι kind R A) := do
  let (o, _) ← (s.tabs i).mu.exec (.get h)
  return (.tab i (outRef o), s)

/-- Second half of `lookup`: the action for an index.
`/repo/src/bm_sim/match_tables.cpp:703-716`.  (For an empty group the C++ function returns the
empty action without setting the next node.) -/
def chosen (s : ISys ι kind R A) (w hash : Nat) : Option (Look A) := do
  if IIdx.isGrp w then
    if ← s.prof.groupIsEmpty (← IIdx.getGrp w) then return .empty
  let a ← s.prof.lookup w hash
  return .act a

/-- `lookup`.  `/repo/src/bm_sim/match_tables.cpp:686-717`. -/
def tLookup (s : ISys ι kind R A) (i : ι) (q : Bytes) (nb ts hash : Nat) :
    Option (POut ι (fun i => (kind i).K) A × ISys ι kind R A) := do
  let (o, mu) ← (s.tabs i).mu.exec (.lookup q nb ts)
  match o with
  | .hit h w =>
    let a ← s.chosen w hash
    return (.look (some h) a, s.setMu i mu)
  | _ =>
    if (s.tabs i).defaultSet then
      let a ← s.chosen (s.tabs i).defaultIndex hash
      return (.look none a, s.setMu i mu)
    else return (.look none .builtin, s.setMu i mu)

/-- The validity check of `set_default_member`, `set_default_group`.
`/repo/src/bm_sim/match_tables.cpp:824,1080`. -/
def validRef (s : ISys ι kind R A) : Ref → Option Bool
  | .mbr m => s.prof.isValidMbr m
  | .grp g => s.prof.isValidGrp g

/-- The error returned when that check fails. -/
def missing : Ref → PErr
  | .mbr _ => .noMember
  | .grp _ => .noGroup

/-- `if (default_set) ref_count_decrease(default_index)`.
`/repo/src/bm_sim/match_tables.cpp:827,850,1083`. -/
def dropDefault (s : ISys ι kind R A) (i : ι) : Option RefCounts :=
  if (s.tabs i).defaultSet then s.prof.rc.decrease (s.tabs i).defaultIndex else some s.prof.rc

/-- `set_default_member`, `set_default_group`.
`/repo/src/bm_sim/match_tables.cpp:813-843,1069-1100`. -/
def setDflt (s : ISys ι kind R A) (i : ι) (r : Ref) :
    Option (POut ι (fun i => (kind i).K) A × ISys ι kind R A) := do
  if (s.tabs i).constDefault then return (.err .constDefault, s)
  if !(← s.validRef r) then return (.err (missing r), s)
  let rc ← s.dropDefault i
  let w ← IIdx.make r
  let rc' ← rc.increase w
  let s1 := s.setRc rc'
  return (.done, { s1 with
    tabs := upd s1.tabs i { s1.tabs i with defaultSet := true, defaultIndex := w } })

/-- `reset_default_entry`.  `/repo/src/bm_sim/match_tables.cpp:845-858`. -/
def unsetDflt (s : ISys ι kind R A) (i : ι) :
    Option (POut ι (fun i => (kind i).K) A × ISys ι kind R A) := do
  let rc ← s.dropDefault i
  let s1 := s.setRc rc
  return (.done, { s1 with tabs := upd s1.tabs i { s1.tabs i with defaultSet := false } })

/-- `reset_state`, `reset_state_`: `mt_clear_entries`.
`/repo/src/bm_sim/match_tables.cpp:133-137,941-946`.  The references are not given back. -/
def clearTab {K : Type} {L : LookupStr K} (t : ITab L R) (d : Bool) : ITab L R :=
  { t with mu := t.mu.resetState, defaultSet := if d then false else t.defaultSet }

/-- `P4Objects::reset_state`, the part about tables and profiles.
`/repo/src/bm_sim/P4Objects.cpp:2326-2334`. -/
def resetAll (s : ISys ι kind R A) : ISys ι kind R A :=
  { s with prof := s.prof.resetState, tabs := fun i => clearTab (s.tabs i) true }

/-- Result of a profile operation. -/
def code : PCode → POut ι (fun i => (kind i).K) A
  | .success => .done
  | .badActionData => .err .badData
  | .invalidMbr => .err .noMember
  | .invalidGrp => .err .noGroup
  | .mbrStillUsed => .err .inUse
  | .grpStillUsed => .err .inUse
  | .alreadyInGrp => .err .already
  | .notInGrp => .err .notIn

/-- Execute one call of the specification's interface. -/
def exec (s : ISys ι kind R A) :
    POp ι (fun i => (kind i).K) A → Option (POut ι (fun i => (kind i).K) A × ISys ι kind R A)
  | .addMember a => (s.prof.addMember a).map fun ((c, m), p) =>
      (if c = .success then .id m else code c, { s with prof := p })
  | .delMember m => (s.prof.deleteMember m).map fun (c, p) => (code c, { s with prof := p })
  | .modMember m a => (s.prof.modifyMember m a).map fun (c, p) => (code c, { s with prof := p })
  | .newGroup => s.prof.createGroup.map fun (g, p) => (.id g, { s with prof := p })
  | .delGroup g => (s.prof.deleteGroup g).map fun (c, p) => (code c, { s with prof := p })
  | .join m g => (s.prof.addMemberToGroup m g).map fun (c, p) => (code c, { s with prof := p })
  | .leave m g =>
      (s.prof.removeMemberFromGroup m g).map fun (c, p) => (code c, { s with prof := p })
  | .getMember m => (s.prof.getMember m).map fun r =>
      (match r with | some a => .member a | none => .err .noMember, s)
  | .getMembers => s.prof.getMembers.map fun l => (.members l, s)
  | .getGroup g => (s.prof.getGroup g).map fun r =>
      (match r with | some l => .group l | none => .err .noGroup, s)
  | .getGroups => s.prof.getGroups.map fun l => (.groups l, s)
  | .counts => some (.num s.prof.numMembers s.prof.numGroups, s)
  | .tAdd i key r now => s.tAdd i key r now
  | .tDel i h => s.tDel i h
  | .tMod i h r => s.tMod i h r
  | .tGet i h => s.tGet i h
  | .tLookup i q nb ts hash => s.tLookup i q nb ts hash
  | .setDflt i r => s.setDflt i r
  | .unsetDflt i => s.unsetDflt i
  | .clear i d => some (.done, { s with tabs := upd s.tabs i (clearTab (s.tabs i) d) })
  | .resetAll => some (.done, s.resetAll)

/-- Execute a history. -/
def run : ISys ι kind R A → List (POp ι (fun i => (kind i).K) A) →
    Option (List (POut ι (fun i => (kind i).K) A) × ISys ι kind R A)
  | s, [] => some ([], s)
  | s, op :: ops => do
    let (o, s1) ← s.exec op
    let (os, s2) ← run s1 ops
    return (o :: os, s2)

end ISys
end Bm
