import Verif.Model.ActionProfile
import Verif.Model.UMap
import Verif.Spec.PiSel

/-!
# Model of action profiles with the selector of PI

`/repo/PI/src/group_selection.cpp`, `/repo/PI/src/group_selection.h` and its use by
`/repo/src/bm_sim/action_profile.cpp`.  Simplifications as in `Verif.Model.ActionProfile`; what the tables do to the
profile is any change of the reference counts.  Outer `none`: failed assertion, uncaught exception, division by zero or
access outside a vector.
-/

namespace Bm.PiSel

open Bm.PiSel.Spec

/-- `GroupInfo`.  `/repo/PI/src/group_selection.h:44-56`.  `members` is an `unordered_set`. -/
structure Info where
  activated : List Nat := []
  members : List Nat := []
deriving DecidableEq, Repr

/-- Codes.  `/repo/include/bm/bm_sim/match_error_codes.h:18-48`. -/
inductive Code
  | success | error | mbrNotInGrp
deriving DecidableEq, Repr

namespace Info

/-- `GroupInfo::activate_member`.  `/repo/PI/src/group_selection.cpp:66-71`. -/
def activateMember (i : Info) (mbr : Nat) : Code × Info :=
  if i.members.contains mbr = false then (.mbrNotInGrp, i)
  else
    let r := Ras.add i.activated mbr
    (if r.1 then .success else .error, { i with activated := r.2 })

/-- `GroupInfo::deactivate_member`.  `/repo/PI/src/group_selection.cpp:73-78`. -/
def deactivateMember (i : Info) (mbr : Nat) : Code × Info :=
  if i.members.contains mbr = false then (.mbrNotInGrp, i)
  else
    let r := Ras.remove i.activated mbr
    (if r.1 then .success else .error, { i with activated := r.2 })

/-- `GroupInfo::add_member`.  `/repo/PI/src/group_selection.cpp:80-84`. -/
def addMember (i : Info) (mbr : Nat) : Info :=
  { members := if i.members.contains mbr then i.members else mbr :: i.members
    activated := (Ras.add i.activated mbr).2 }

/-- `GroupInfo::remove_member`.  `/repo/PI/src/group_selection.cpp:86-90`. -/
def removeMember (i : Info) (mbr : Nat) : Info :=
  { members := i.members.filter (· ≠ mbr)
    activated := (Ras.remove i.activated mbr).2 }

/-- `GroupInfo::get_from_hash`; the remainder by zero is undefined.  `/repo/PI/src/group_selection.cpp:92-97`. -/
def getFromHash (i : Info) (h : Nat) : Option Nat :=
  if i.activated.length = 0 then none else Ras.getNth i.activated (h % i.activated.length)

end Info

/-- `GroupSelection`.  `/repo/PI/src/group_selection.h:25-60`. -/
abbrev Sel := UMap Info

namespace Sel

/-- `activate_member`.  `/repo/PI/src/group_selection.cpp:22-28`. -/
def activateMember (s : Sel) (grp mbr : Nat) : Code × Sel :=
  match s.find? grp with
  | none => (.mbrNotInGrp, s)
  | some i => ((i.activateMember mbr).1, s.assign grp (i.activateMember mbr).2)

/-- `deactivate_member`.  `/repo/PI/src/group_selection.cpp:30-36`. -/
def deactivateMember (s : Sel) (grp mbr : Nat) : Code × Sel :=
  match s.find? grp with
  | none => (.mbrNotInGrp, s)
  | some i => ((i.deactivateMember mbr).1, s.assign grp (i.deactivateMember mbr).2)

/-- `add_member_to_group`.  `/repo/PI/src/group_selection.cpp:38-43`. -/
def addMemberToGroup (s : Sel) (grp mbr : Nat) : Sel :=
  s.assign grp (((s.find? grp).getD {}).addMember mbr)

/-- `remove_member_from_group`.  `/repo/PI/src/group_selection.cpp:45-52`. -/
def removeMemberFromGroup (s : Sel) (grp mbr : Nat) : Sel :=
  let i := ((s.find? grp).getD {}).removeMember mbr
  let s1 := s.assign grp i
  if i.members.length = 0 then s1.erase grp else s1

/-- `get_from_hash`.  `/repo/PI/src/group_selection.cpp:54-58`. -/
def getFromHash (s : Sel) (grp h : Nat) : Option Nat := do
  let i ← s.find? grp
  i.getFromHash h

/-- `reset`.  `/repo/PI/src/group_selection.cpp:60-64`. -/
def reset (s : Sel) : Sel := s.clear

end Sel

/-- A profile with the selector. -/
structure State (A : Type) where
  p : AProf A := {}
  sel : Sel := {}

namespace State
variable {A : Type}

/-- The loop of `delete_group`, the calls of the selector.  `/repo/src/bm_sim/action_profile.cpp:332-336`. -/
def removeAll (s : Sel) (grp : Nat) : List Nat → Sel
  | [] => s
  | m :: l => removeAll (s.removeMemberFromGroup grp m) grp l

/-- `delete_group`.  `/repo/src/bm_sim/action_profile.cpp:316-355`. -/
def deleteGroup (s : State A) (g : Nat) : Option (PCode × State A) := do
  let (c, p) ← s.p.deleteGroup g
  return (c, { p := p, sel := if c = .success then removeAll s.sel g ((s.p.groups[g]?).getD []) else s.sel })

/-- `add_member_to_group`.  `/repo/src/bm_sim/action_profile.cpp:357-390`. -/
def addMemberToGroup (s : State A) (m g : Nat) : Option (PCode × State A) := do
  let (c, p) ← s.p.addMemberToGroup m g
  return (c, { p := p, sel := if c = .success then s.sel.addMemberToGroup g m else s.sel })

/-- `remove_member_from_group`.  `/repo/src/bm_sim/action_profile.cpp:392-425`. -/
def removeMemberFromGroup (s : State A) (m g : Nat) : Option (PCode × State A) := do
  let (c, p) ← s.p.removeMemberFromGroup m g
  return (c, { p := p, sel := if c = .success then s.sel.removeMemberFromGroup g m else s.sel })

/-- `choose_from_group`; `hash` is 0 without hash.  `/repo/src/bm_sim/action_profile.cpp:603-608`. -/
def chooseFromGroup (s : State A) (g hash : Nat) : Option Nat := s.sel.getFromHash g hash

/-- `lookup`.  `/repo/src/bm_sim/action_profile.cpp:158-175`. -/
def lookup (s : State A) (w hash : Nat) : Option A := do
  if IIdx.isMbr w || s.p.withSelection then
    let m ← (if IIdx.isMbr w then IIdx.getMbr w else do
      let g ← IIdx.getGrp w
      if ← s.p.isValidGrp g then s.chooseFromGroup g hash else none)
    if ← s.p.isValidMbr m then s.p.entries[m]? else none
  else none

/-- The part of `MatchTableIndirect::lookup` about groups.  `/repo/src/bm_sim/match_tables.cpp:703-716`. -/
def chosen (s : State A) (w hash : Nat) : Option (Bm.Spec.Look A) := do
  if IIdx.isGrp w then
    if ← s.p.groupIsEmpty (← IIdx.getGrp w) then return .empty
  let a ← s.lookup w hash
  return .act a

/-- `reset_state`.  `/repo/src/bm_sim/action_profile.cpp:526-536`. -/
def resetState (s : State A) : State A := { p := s.p.resetState, sel := s.sel.reset }

/-- Codes of the profile as results. -/
def outP : PCode → Out
  | .success => .ok
  | .notInGrp => .notIn
  | _ => .refused

/-- Codes of the selector as results. -/
def outS : Code → Out
  | .success => .ok
  | .mbrNotInGrp => .notIn
  | .error => .refused

/-- One call.  Members and groups as in `Verif.Model.ActionProfile`; activation is
`/repo/PI/src/pi_act_prof_imp.cpp:245-275`. -/
def exec (s : State A) : Op A RefCounts → Option (Out × State A)
  | .addMember a => (s.p.addMember a).map fun ((c, m), p) => (if c = .success then .id m else outP c, { s with p := p })
  | .delMember m => (s.p.deleteMember m).map fun (c, p) => (outP c, { s with p := p })
  | .modMember m a => (s.p.modifyMember m a).map fun (c, p) => (outP c, { s with p := p })
  | .newGroup => s.p.createGroup.map fun (g, p) => (.id g, { s with p := p })
  | .delGroup g => (s.deleteGroup g).map fun (c, s') => (outP c, s')
  | .join m g => (s.addMemberToGroup m g).map fun (c, s') => (outP c, s')
  | .leave m g => (s.removeMemberFromGroup m g).map fun (c, s') => (outP c, s')
  | .activate g m => some (outS (s.sel.activateMember g m).1, { s with sel := (s.sel.activateMember g m).2 })
  | .deactivate g m => some (outS (s.sel.deactivateMember g m).1, { s with sel := (s.sel.deactivateMember g m).2 })
  | .reset => some (.ok, s.resetState)
  | .tables rc => some (.ok, { s with p := { s.p with rc := rc } })

/-- A history, with the results. -/
def run (s : State A) : List (Op A RefCounts) → Option (List (Op A RefCounts × Out) × State A)
  | [] => some ([], s)
  | op :: ops => do
    let (o, s1) ← s.exec op
    let (t, s2) ← run s1 ops
    return ((op, o) :: t, s2)

end State

end Bm.PiSel
