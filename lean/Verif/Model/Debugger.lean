import Verif.Spec.Debugger

/-!
# The debugger

`/repo/src/bm_sim/debugger.cpp`.  One thread reads requests and sends replies; the threads of the
packets call the debugger.  Every function holds the mutex except while it waits, so each call is one
step that may be blocked.  A failed assertion and a write or read outside a buffer are the outcome
`bad`.

Simplifications: messages are decoded (numbers in native byte order on both sides); the length of a
request is not modelled except for the filter, the only one of varying size; the request thread writes
`req_id` without the mutex, here that is part of receiving; `switch_id` and `aux` (always 0) are left
out; hash tables are lists and functions.  Notifications of conditions and actions are updates of the
fields 2^64-2 and 2^64-3 (`/repo/include/bm/bm_sim/debugger.h:44-48`).
-/

namespace Bm.Debugger

open Bm.Debugger.Spec

/-- Where the request thread is: before `recv`, before `request_dispatch`, after it.
`/repo/src/bm_sim/debugger.cpp:853-911`. -/
inductive Phase
  | idle
  | got (r : Req)
  | waiting
deriving DecidableEq, Repr

/-- The members of `DebuggerNN`; `reply` is the stored reply with its number if `reply_ready`.
`/repo/src/bm_sim/debugger.cpp:178-216`. -/
structure State where
  canContinue : Bool := true
  attached : Bool := false
  breakIn : Bool := false
  breakNext : Bool := false
  stopIn : Bool := false
  watch : List Nat := []
  filter : List Pid := []
  filterAll : List Nat := []
  regs : Pid → Option (Nat → Option Bytes) := fun _ => none
  ctrs : Pid → Option (List Nat) := fun _ => none
  counts : Nat → Nat := fun _ => 0
  reply : Option (Nat × Msg) := none
  reqId : Nat := 0
  phase : Phase := .idle

/-- Result of a step. -/
inductive Step
  | blocked
  | bad
  | ok (s : State)

/-- Size of a message.  `/repo/src/bm_sim/debugger.cpp:241-257, 705-802`. -/
def size : Msg → Nat
  | .packetIn _ _ => 40
  | .field _ _ b => 48 + b.length
  | .backtrace _ l => 40 + 4 * l.length
  | .status _ => 32
  | .keepAlive => 32

/-- `send_rep_status`, `send_field_value`, `send_backtrace`, `send_packet_in`, `send_keep_alive`: the
storage has 256 bytes, and no reply may be there already.
`/repo/src/bm_sim/debugger.cpp:205-206, 691-802`. -/
def say (s : State) (m : Msg) : Step :=
  if 256 < size m then .bad
  else match s.reply with
    | some _ => .bad
    | none => .ok { s with reply := some (s.reqId, m) }

/-- `in_filters`.  `/repo/src/bm_sim/debugger.cpp:449-458`. -/
def inFilters (s : State) (p : Pid) : Bool :=
  if s.filter.isEmpty && s.filterAll.isEmpty then true
  else if s.filterAll.contains p.1 then true
  else s.filter.contains p

/-- `uint32_to_bytes`.  `/repo/src/bm_sim/debugger.cpp:313-319`. -/
def toBytes : Nat → Nat → Bytes
  | 0, _ => []
  | k + 1, v => toBytes k (v / 2 ^ 8) ++ [UInt8.ofNat v]

/-- Update of a register.  `/repo/src/bm_sim/debugger.cpp:279-282`. -/
def setReg (f : Nat → Option Bytes) (id : Nat) (b : Bytes) : Nat → Option Bytes :=
  fun x => if x = id then some b else f x

/-- Update of a map. -/
def put {α β : Type} [DecidableEq α] (f : α → β) (a : α) (b : β) : α → β := fun x => if x = a then b else f x

/-- `notify_update_generic`.  `/repo/src/bm_sim/debugger.cpp:294-309`. -/
def update (s : State) (p : Pid) (id : Nat) (b : Bytes) : Step :=
  match s.regs p with
  | none => .bad
  | some f =>
    let s := { s with regs := put s.regs p (some (setReg f id b)) }
    if inFilters s p && (s.breakNext || s.watch.contains id) then
      say { s with canContinue := false, breakNext := false } (.field p id b)
    else .ok s

/-- `notify_ctr_` after waiting.  `/repo/src/bm_sim/debugger.cpp:340-359`. -/
def counter (s : State) (p : Pid) (v : Nat) : Step :=
  match s.ctrs p with
  | none => .bad
  | some l =>
    if 0x80 ≤ ((toBytes 4 v).headD 0).toNat then
      if l.isEmpty then .bad
      else update { s with ctrs := put s.ctrs p (some l.dropLast) } p (2 ^ 64 - 1) (toBytes 4 v)
    else update { s with ctrs := put s.ctrs p (some (l ++ [v])) } p (2 ^ 64 - 1) (toBytes 4 v)

/-- `packet_in_` after waiting.  `/repo/src/bm_sim/debugger.cpp:371-387`. -/
def enter (s : State) (p : Pid) (port : Int) : Step :=
  if (s.regs p).isSome || (s.ctrs p).isSome then .bad
  else
    let s := { s with
      regs := put s.regs p (some fun _ => none)
      ctrs := put s.ctrs p (some [])
      counts := put s.counts p.1 (s.counts p.1 + 1) }
    if inFilters s p && (s.breakNext || s.breakIn) then
      say { s with canContinue := false, breakNext := false } (.packetIn p port)
    else .ok s

/-- `packet_out_` after waiting.  `/repo/src/bm_sim/debugger.cpp:394-406, 431-439`. -/
def leave (s : State) (p : Pid) : Step :=
  if (s.regs p).isNone || (s.ctrs p).isNone || s.counts p.1 == 0 then .bad
  else .ok { s with
    regs := put s.regs p none
    ctrs := put s.ctrs p none
    counts := put s.counts p.1 (s.counts p.1 - 1) }

/-- A call by the thread of a packet: `wait_for_continue` and, for a packet that comes in, the wait for
`resume`.  `/repo/src/bm_sim/debugger.cpp:323-406, 460-472`. -/
def pkt (s : State) : Pkt → Step
  | .enter p port => if s.canContinue && !(s.stopIn && s.counts p.1 == 0) then enter s p port else .blocked
  | .leave p => if s.canContinue then leave s p else .blocked
  | .upd p id b => if s.canContinue then update s p id b else .blocked
  | .ctr p v => if s.canContinue then counter s p v else .blocked

/-- `reset_state`.  `/repo/src/bm_sim/debugger.cpp:639-648`. -/
def resetState (s : State) : State :=
  { s with watch := [], filter := [], filterAll := [], breakIn := false, reqId := 0, stopIn := false }

/-- `config_change_`.  `/repo/src/bm_sim/debugger.cpp:408-421`. -/
def cfg (s : State) : Step :=
  if !s.attached then .ok s
  else if s.canContinue then say (resetState s) (.status 999)
  else .blocked

/-- `request_dispatch` and the functions it calls.  `/repo/src/bm_sim/debugger.cpp:474-689, 803-851`; a filter
with more than 30 packets is longer than the buffer of 512 bytes (line 864). -/
def dispatch (s : State) : Req → Step
  | .cont => .ok { s with canContinue := true }
  | .next => .ok { s with canContinue := true, breakNext := true }
  | .getValue p id => match s.regs p with
    | none => say s (.status 1)
    | some f => match f id with
      | none => say s (.status 2)
      | some b => say s (.field p id b)
  | .getBacktrace p => match s.ctrs p with
    | none => say s (.status 1)
    | some l => say s (.backtrace p l)
  | .breakIn => say { s with breakIn := true } (.status 0)
  | .removeIn => if !s.breakIn then say s (.status 1) else say { s with breakIn := false } (.status 0)
  | .stopIn => say { s with stopIn := true } (.status 0)
  | .resumeIn => if !s.stopIn then say s (.status 1) else say { s with stopIn := false } (.status 0)
  | .filter l =>
    if 512 < 24 + 16 * l.length then .bad
    else say { s with
      filterAll := (l.filter fun q => q.2 == 2 ^ 64 - 1).map Prod.fst
      filter := l.filter fun q => q.2 != 2 ^ 64 - 1 } (.status 0)
  | .watch id => say { s with watch := id :: s.watch } (.status 0)
  | .unwatch id =>
    if s.watch.contains id then say { s with watch := s.watch.filter fun x => x != id } (.status 0)
    else say s (.status 1)
  | .reset => say (resetState s) (.status 0)
  | .attach =>
    if s.attached then say s (.status 1)
    else say (resetState { s with attached := true, canContinue := false }) (.status 0)
  | .detach =>
    if !s.attached then say s (.status 1)
    else say { resetState { s with attached := false } with canContinue := true } (.status 0)

/-- What can happen. -/
inductive Act
  | recv (n : Nat) (r : Req)
  | dispatch
  | timeout
  | send
  | pkt (e : Pkt)
  | cfg

/-- The request is done, the thread waits for a reply. -/
def Step.wait : Step → Step
  | .ok s => .ok { s with phase := .waiting }
  | x => x

/-- One step.  `/repo/src/bm_sim/debugger.cpp:853-911`. -/
def step (s : State) : Act → Step
  | .recv n r => match s.phase with
    | .idle => .ok { s with reply := none, reqId := n, phase := .got r }
    | _ => .blocked
  | .dispatch => match s.phase with
    | .got r => (dispatch s r).wait
    | _ => .blocked
  | .timeout => match s.phase, s.reply with
    | .waiting, none => say { s with canContinue := false, breakNext := false } .keepAlive
    | _, _ => .blocked
  | .send => match s.phase, s.reply with
    | .waiting, some _ => .ok { s with phase := .idle }
    | _, _ => .blocked
  | .pkt e => Debugger.pkt s e
  | .cfg => Debugger.cfg s

/-- What is seen of a step; `n`: the number of the request. -/
def vis (s : State) : Act → Option Vis
  | .recv _ _ => none
  | .dispatch => match s.phase with
    | .got r => some (.req s.reqId r)
    | _ => none
  | .timeout => none
  | .send => s.reply.map fun x => .rep x.1 x.2
  | .pkt e => some (.pkt e)
  | .cfg => some .cfg

/-- The history after a step. -/
def hist (s : State) (a : Act) (h : List Vis) : List Vis :=
  match vis s a with
  | some v => v :: h
  | none => h

end Bm.Debugger
