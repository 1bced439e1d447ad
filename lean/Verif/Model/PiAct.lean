import Verif.Spec.PiAct
import Verif.Model.PiEntry
import Verif.Model.ActionProfile

/-!
# Action profiles through PI

`/repo/PI/src/pi_act_prof_imp.cpp`, on the profile of `Verif.Model.ActionProfile` with its tables.
Outer `none`: undefined behaviour.

Simplifications: names are resolved (an action is its number in the P4 info); the functions of the PI
library that emit numbers (`emit_uint32` and so on, not in the repository) write them in the byte order
of the machine, taken as least significant byte first; the handles of PI have 64 bits and those of bmv2
32 (`/repo/include/bm/bm_sim/action_profile.h:37-38`), so passing one converts it.  Activation is in
`Verif.Model.PiSel`.
-/

namespace Bm.PiAct

open Bm.Spec Bm.PiAct.Spec Bm.PiEntry

variable {ι : Type} [DecidableEq ι] {kind : ι → TableKind} {R : Type}

/-- The conversion of a handle to `mbr_hdl_t` or `grp_hdl_t`.
`/repo/include/bm/bm_sim/action_profile.h:37-38`. -/
def hdl (h : UInt64) : Nat := h.toUInt32.toNat

/-- `build_action_data` with the action.  `/repo/PI/src/pi_act_prof_imp.cpp:96-99`. -/
def build (inf : Info) (id : Nat) (data : Bytes) : Option Act := do
  return ⟨id, ← buildActionData (← inf id) data⟩

/-- The status returned for a code; a handle is only returned by the functions that create.
`/repo/PI/src/pi_act_prof_imp.cpp:104-108`. -/
def report {K : ι → Type} {A : Type} (mk : UInt64 → UInt64) : POut ι K A → Option Res
  | .done => some .ok
  | .err e => some (.error e)
  | .id n => some (.handle (mk (UInt64.ofNat n)))
  | _ => none

/-- A member handle is passed on as it is.  `/repo/PI/src/pi_act_prof_imp.cpp:107`. -/
def same (h : UInt64) : UInt64 := h

/-- The call of the switch and what becomes of its result. -/
def call (st : ISys ι kind R Act) (op : POp ι (fun i => (kind i).K) Act) (mk : UInt64 → UInt64) :
    Option (Res × ISys ι kind R Act) := do
  let (o, st') ← st.exec op
  return (← report mk o, st')

/-- The functions that change the profile.  `/repo/PI/src/pi_act_prof_imp.cpp:86-226`. -/
def exec (inf : Info) (st : ISys ι kind R Act) : Call → Option (Res × ISys ι kind R Act)
  | .mbrCreate id data => do call st (.addMember (some (← build inf id data))) same
  | .mbrDelete h => call st (.delMember (hdl h)) same
  | .mbrModify h id data => do call st (.modMember (hdl h) (some (← build inf id data))) same
  | .grpCreate => call st .newGroup makeGrpH
  | .grpDelete g => call st (.delGroup (hdl (clearGrpH g))) same
  | .grpAdd g m => call st (.join (hdl m) (hdl (clearGrpH g))) same
  | .grpRemove g m => call st (.leave (hdl m) (hdl (clearGrpH g))) same

/-- A number in `k` bytes, least significant first.  `/repo/PI/src/pi_act_prof_imp.cpp:39-45`. -/
def put : Nat → Nat → Bytes
  | 0, _ => []
  | k + 1, n => UInt8.ofNat n :: put k (n / 256)

/-- One iteration of `emit_members`.  `/repo/PI/src/pi_act_prof_imp.cpp:36-49`. -/
def emitMember (inf : Info) (m : Nat × Act) : Option Bytes := do
  let ws ← inf m.2.id
  let size := (ws.map fun w => (w + 7) / 8).sum
  let data ← if 0 < size then dumpActionData ws m.2.vals else some []
  return put 8 m.1 ++ put 4 m.2.id ++ put 4 size ++ data

/-- `emit_members`.  `/repo/PI/src/pi_act_prof_imp.cpp:32-52`. -/
def emitMembers (inf : Info) : List (Nat × Act) → Option Bytes
  | [] => some []
  | m :: ms => do return (← emitMember inf m) ++ (← emitMembers inf ms)

/-- The second loop of `emit_groups`, from position `off` of the array of handles.
`/repo/PI/src/pi_act_prof_imp.cpp:68-78`. -/
def emitGroups (off : Nat) : List (Nat × List Nat) → Bytes
  | [] => []
  | (g, l) :: gs =>
    put 8 (makeGrpH (UInt64.ofNat g)).toNat ++ put 4 l.length ++ put 4 off ++ emitGroups (off + l.length) gs

/-- `pi_act_prof_fetch_res_t`.  `/repo/PI/src/pi_act_prof_imp.cpp:50-51,64-65,80-81`. -/
structure Fetched where
  numMembers : Nat
  members : Bytes
  numGroups : Nat
  groups : Bytes
  handles : List UInt64
deriving Repr

/-- The result for these members and groups.  `/repo/PI/src/pi_act_prof_imp.cpp:290-298`. -/
def fetched (inf : Info) (ms : List (Nat × Act)) (gs : List (Nat × List Nat)) : Option Fetched := do
  return ⟨ms.length, ← emitMembers inf ms, gs.length, emitGroups 0 gs,
    gs.flatMap fun g => g.2.map UInt64.ofNat⟩

/-- `_pi_act_prof_entries_fetch`.  `/repo/PI/src/pi_act_prof_imp.cpp:277-301`. -/
def entriesFetch (inf : Info) (st : ISys ι kind R Act) : Option Fetched := do
  fetched inf (← st.prof.getMembers) (← st.prof.getGroups)

/-- `_pi_act_prof_mbr_fetch`; inner `none`: the error for an unknown member.
`/repo/PI/src/pi_act_prof_imp.cpp:303-326`. -/
def mbrFetch (inf : Info) (st : ISys ι kind R Act) (h : UInt64) : Option (Option Fetched) := do
  match ← st.prof.getMember (hdl h) with
  | none => return none
  | some a => return some (← fetched inf [(hdl h, a)] [])

/-- `_pi_act_prof_grp_fetch`: the handle is only converted.  Inner `none`: the error for an unknown
group.  `/repo/PI/src/pi_act_prof_imp.cpp:328-351`. -/
def grpFetch (inf : Info) (st : ISys ι kind R Act) (g : UInt64) : Option (Option Fetched) := do
  match ← st.prof.getGroup (hdl g) with
  | none => return none
  | some l => return some (← fetched inf [] [(hdl g, l)])

/-- A history: calls through PI, and operations of the switch by others (`sw`). -/
inductive Ev (ι : Type) (K : ι → Type)
  | pi (c : Call)
  | sw (op : POp ι K Act)

/-- A history with the results. -/
def run (inf : Info) : ISys ι kind R Act → List (Ev ι fun i => (kind i).K) →
    Option (List (Res ⊕ POut ι (fun i => (kind i).K) Act) × ISys ι kind R Act)
  | st, [] => some ([], st)
  | st, .pi c :: es => do
    let (r, st) ← exec inf st c
    let (os, st) ← run inf st es
    return (.inl r :: os, st)
  | st, .sw op :: es => do
    let (o, st) ← st.exec op
    let (os, st) ← run inf st es
    return (.inr o :: os, st)

end Bm.PiAct
