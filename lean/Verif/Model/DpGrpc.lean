import Verif.Spec.DpGrpc
import Verif.Model.Ports
import Verif.Model.UMap

/-!
# Model of the dataplane service of simple_switch_grpc

`/repo/targets/simple_switch_grpc/switch_runner.cpp:66-260,584-606`, with the locks of
`/repo/src/bm_sim/switch.cpp:443-478,532-551` and the packet numbers of simple_switch.

The threads are: the one serving the stream, those serving other calls, any number that send packets for the controller
(`_pi_packetout_send`), the transmit thread, one that exchanges programs (`do_swap`), and those that move packets through the
switch.  What a thread does while it holds `mutex` of the service is one step unless it can be stopped in between by
`process_packet_mutex`; the thread that serves the stream holds `mutex` from `handling` to `labelling`.  `process_packet_mutex`
is held shared for the moment in which a packet is made and exclusively while `do_swap` or `block_until_no_more_packets` wait
for all packets to be gone.

Simplified: `packet_id++` is atomic (in the code it is a data race if the controller sends packets at the same time); the input
buffer has room; numbers do not overflow; writing to a stream succeeds; the packet handler has been set when the service starts
(`pkt_handler` is set before `start_`).  What becomes of a packet in the switch is arbitrary: it is copied, dropped, or comes
out at some port with some data; packets that have come out are transmitted in order.
-/

namespace Bm.DpGrpc
open Bm.DpGrpc.Spec

/-- Where the thread that serves the stream is.  The number of the packet in `labelling` is not kept by the code. -/
inductive PC where
  | none
  /-- about to read a request.  switch_runner.cpp:116 -/
  | reading (k : Nat)
  /-- holds `mutex`, about to call the packet handler.  switch_runner.cpp:124-126 -/
  | handling (k : Nat) (r : Req)
  /-- in the packet handler with a packet number, about to make the packet.  simple_switch.cpp:236, switch.cpp:537 -/
  | creating (k : Nat) (r : Req) (pid : Nat)
  /-- the packet is in the input buffer.  switch_runner.cpp:127-140 -/
  | labelling (k : Nat) (r : Req) (pid : Nat)
  /-- no more requests.  switch_runner.cpp:142-143 -/
  | draining (k : Nat)
  /-- holds `process_packet_mutex`.  switch.cpp:446-451 -/
  | drainHeld (k : Nat)
  /-- switch_runner.cpp:144-146 -/
  | closing (k : Nat)
deriving DecidableEq, Repr

/-- Who holds `process_packet_mutex` exclusively. -/
inductive Excl where
  | none
  | drain
  | swap
deriving DecidableEq, Repr

/-- `device_id` of the service and `cpu_port` of the runner. -/
structure Cfg where
  dev : Nat
  cpu : Nat

/-- The members of the service, the threads, and the packets in the switch: `live` are numbers of packets that have not come
out, `outq` those in the output buffer.  `streams`: streams opened so far.  `log`: what was seen.
`/repo/targets/simple_switch_grpc/switch_runner.cpp:247-259`. -/
structure St where
  started : Bool := false
  active : Option Nat := none
  oper : UMap Bool := {}
  stats : UMap Stats := {}
  trans : UMap Nat := {}
  mon : Ports.Mon := Ports.Mon.new false 0
  pc : PC := .none
  excl : Excl := .none
  nextId : Nat := 0
  streams : Nat := 0
  live : List Nat := []
  outq : List (Nat × Nat × Bytes) := []
  pending : List Nat := []
  log : List Ev := []

/-- `mutex` is free. -/
def PC.free : PC → Bool
  | .handling .. | .creating .. | .labelling .. => false
  | _ => true

/-- `add_port_if_new`.  `/repo/targets/simple_switch_grpc/switch_runner.cpp:178-185`. -/
def St.addPort (s : St) (p : Nat) : St :=
  match s.oper.find? p with
  | some _ => s
  | none => { s with mon := (s.mon.notifyNow p .added).notifyNow p .up, oper := s.oper.assign p true }

/-- `ports_stats[p]`, changed.  `/repo/targets/simple_switch_grpc/switch_runner.cpp:87-89,137-139`. -/
def St.count (s : St) (p : Nat) (f : Stats → Stats) : St :=
  { s with stats := s.stats.assign p (f ((s.stats.find? p).getD {})) }

/-- `my_transmit_fn`, with `mutex` free.  `/repo/targets/simple_switch_grpc/switch_runner.cpp:75-91`. -/
def St.transmitFn (s : St) (port pid : Nat) (data : Bytes) : St :=
  match s.active with
  | some k =>
    ({ s with log := s.log ++ [Ev.response k pid port ((s.trans.find? pid).getD 0) data] }).count port fun t =>
      { t with outPackets := t.outPackets + 1, outOctets := t.outOctets + data.length }
  | none => { s with log := s.log ++ [.lost pid port data] }

/-- `SetPortOperStatus`; `op` is `none` for a status that is neither up nor down.
`/repo/targets/simple_switch_grpc/switch_runner.cpp:149-173`. -/
def St.setStatus (c : Cfg) (s : St) (dev p : Nat) (op : Option Bool) : St :=
  if dev ≠ c.dev then { s with log := s.log ++ [.invalid] }
  else match op with
    | none => { s with log := s.log ++ [.invalid] }
    | some b =>
      let s := s.addPort p
      { s with oper := s.oper.assign p b, mon := s.mon.notifyNow p (if b then .up else .down), log := s.log ++ [.status p b] }

/-- `port_is_up_`.  `/repo/targets/simple_switch_grpc/switch_runner.cpp:216-220`. -/
def St.portIsUp (s : St) (p : Nat) : Bool := (s.oper.find? p).getD true

/-- `get_port_stats_`.  `/repo/targets/simple_switch_grpc/switch_runner.cpp:226-232`. -/
def St.getStats (s : St) (p : Nat) : Stats := (s.stats.find? p).getD {}

/-- `clear_port_stats_`.  `/repo/targets/simple_switch_grpc/switch_runner.cpp:234-245`. -/
def St.clearStats (s : St) (p : Nat) : St :=
  { s with stats := s.stats.modify p fun _ => {}, log := s.log ++ [.cleared p] }

/-- What may happen next. -/
inductive Label where
  | start
  | opens
  | read (r : Req)
  | take
  | create
  | label
  | eof
  | drainLock
  | drained
  | close
  | piTake
  | piCreate (pid : Nat)
  | copy (pid : Nat)
  | drop (pid : Nat)
  | emit (pid port : Nat) (data : Bytes)
  | transmit
  | setStatus (dev p : Nat) (op : Option Bool)
  | clear (p : Nat)
  | swapBegin
  | swapEnd
  | apiAdd (p : Nat)
  | apiRemove (p : Nat)

/-- One step; `none` if that cannot happen in this state. -/
def St.step (c : Cfg) (s : St) : Label → Option St
  -- switch_runner.cpp:204-207
  | .start => if s.pc.free then some { s with started := true } else none
  -- switch_runner.cpp:101-114
  | .opens =>
    if s.pc.free then
      if s.started = false then some { s with log := s.log ++ [.notReady] }
      else if s.active ≠ none then some { s with log := s.log ++ [.exhausted] }
      else some { s with active := some s.streams, pc := .reading s.streams, streams := s.streams + 1,
                         log := s.log ++ [.opened s.streams] }
    else none
  -- switch_runner.cpp:116-125
  | .read r =>
    match s.pc with
    | .reading k =>
      if r.dev ≠ c.dev ∨ r.data = [] then some { s with log := s.log ++ [.skipped k r] }
      else some { s.addPort r.port with pc := .handling k r }
    | _ => none
  -- simple_switch.cpp:236
  | .take =>
    match s.pc with
    | .handling k r => some { s with pc := .creating k r s.nextId, nextId := s.nextId + 1 }
    | _ => none
  -- switch.cpp:537-540, simple_switch.cpp:262-263
  | .create =>
    match s.pc with
    | .creating k r pid =>
      if s.excl = .none then
        some { s with pc := .labelling k r pid, live := s.live ++ [pid], log := s.log ++ [.accepted k r pid] }
      else none
    | _ => none
  -- switch_runner.cpp:130-139; simple_switch.h:124-126
  | .label =>
    match s.pc with
    | .labelling k r _ =>
      let s := if r.id ≠ 0 then { s with trans := s.trans.assign (s.nextId - 1) r.id } else s
      some ({ s with pc := .reading k }.count r.port fun t =>
        { t with inPackets := t.inPackets + 1, inOctets := t.inOctets + r.data.length })
    | _ => none
  -- switch_runner.cpp:116,142-143
  | .eof =>
    match s.pc with
    | .reading k => some { s with pc := .draining k }
    | _ => none
  -- switch.cpp:445
  | .drainLock =>
    match s.pc with
    | .draining k => if s.excl = .none then some { s with pc := .drainHeld k, excl := .drain } else none
    | _ => none
  -- switch.cpp:446-452
  | .drained =>
    match s.pc with
    | .drainHeld k => if s.live = [] ∧ s.outq = [] then some { s with pc := .closing k, excl := .none } else none
    | _ => none
  -- switch_runner.cpp:144-146
  | .close =>
    match s.pc with
    | .closing k => some { s with pc := .none, active := none, log := s.log ++ [.closed k] }
    | _ => none
  -- pi_imp.cpp:142-148, simple_switch.cpp:236
  | .piTake => some { s with pending := s.pending ++ [s.nextId], nextId := s.nextId + 1 }
  -- switch.cpp:537-540
  | .piCreate pid =>
    if pid ∈ s.pending ∧ s.excl = .none then
      some { s with pending := s.pending.erase pid, live := s.live ++ [pid], log := s.log ++ [.injected pid] }
    else none
  -- a clone has the number of the original: packet.cpp:141-198
  | .copy pid => if pid ∈ s.live then some { s with live := s.live ++ [pid] } else none
  | .drop pid => if pid ∈ s.live then some { s with live := s.live.erase pid } else none
  | .emit pid port data =>
    if pid ∈ s.live then some { s with live := s.live.erase pid, outq := s.outq ++ [(pid, port, data)] } else none
  -- simple_switch.cpp:378-390, switch_runner.cpp:584-601
  | .transmit =>
    match s.outq with
    | [] => none
    | (pid, port, data) :: q =>
      if c.cpu > 0 ∧ port = c.cpu then some { s with outq := q, log := s.log ++ [.packetIn pid data] }
      else if s.pc.free then some ({ s with outq := q }.transmitFn port pid data)
      else none
  | .setStatus dev p op => if s.pc.free then some (s.setStatus c dev p op) else none
  | .clear p => if s.pc.free then some (s.clearStats p) else none
  -- switch.cpp:353-363,454-458
  | .swapBegin => if s.excl = .none then some { s with excl := .swap } else none
  -- switch.cpp:459-478
  | .swapEnd =>
    if s.excl = .swap ∧ s.live = [] ∧ s.outq = [] then some { s with excl := .none, log := s.log ++ [.exchanged] } else none
  -- dev_mgr.cpp:111-124, switch_runner.cpp:187-198
  | .apiAdd p => some { s with mon := s.mon.notifyNow p .added }
  | .apiRemove p => some { s with mon := s.mon.notifyNow p .removed }

/-- The states that can be reached by steps that satisfy `P`. -/
inductive Reach (c : Cfg) (P : St → Label → Prop) : St → Prop
  | init : Reach c P {}
  | step {s l s'} : Reach c P s → P s l → s.step c l = some s' → Reach c P s'

/-- A sequence of steps. -/
def St.run (c : Cfg) (s : St) : List Label → Option St
  | [] => some s
  | l :: ls => (s.step c l).bind (·.run c ls)

end Bm.DpGrpc
