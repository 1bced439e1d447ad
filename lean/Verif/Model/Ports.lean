import Verif.Model.LookupStructures

/-!
# Ports: the port monitor, and the device manager that receives ports and packets as messages

`/repo/src/bm_sim/port_monitor.cpp`, `/repo/src/bm_sim/dev_mgr.cpp:111-124`,
`/repo/src/bm_sim/dev_mgr_packet_in.cpp`.

What a thread does while it holds `port_mutex` is one step; every call of `event_handler` (under `cb_map_mutex`) and
every message sent is another.  Between them other threads may do theirs.

Simplified: port numbers are natural numbers, messages to subscribers are lists of ports and statuses (not bytes),
callbacks are names (the code stores references: the functions must outlive the monitor), logging is left out.
-/

namespace Bm.Ports

/-- `PortStatus`.  `/repo/include/bm/bm_sim/port_monitor.h:35`. -/
inductive Ev where
  | added
  | removed
  | up
  | down
  deriving DecidableEq, Repr

/-- `curr_ports`: the ports known, each with whether it is up.  port_monitor.cpp:86 -/
abbrev Table := List (Nat × Bool)

/-- `it->second = b` for port `p`.  port_monitor.cpp:102,105,175 -/
def setUp (l : Table) (p : Nat) (b : Bool) : Table := l.map fun x => if x.1 = p then (p, b) else x

/-- The critical section of `notify_`: the new table, or `none` for an invalid event.
`/repo/src/bm_sim/port_monitor.cpp:93-110`. -/
def accept (l : Table) (p : Nat) (e : Ev) : Option Table :=
  match e, l.lookup p with
  | .added, none => some ((p, false) :: l)
  | .removed, some _ => some (l.filter fun x => x.1 ≠ p)
  | .up, some false => some (setUp l p true)
  | .down, some true => some (setUp l p false)
  | _, _ => none

/-- `cbs_todo.insert(...)` (`std::map`: ordered by port, no effect if the port is there).
`/repo/src/bm_sim/port_monitor.cpp:161,169-173`. -/
def todoInsert (p : Nat) (e : Ev) : List (Nat × Ev) → List (Nat × Ev)
  | [] => [(p, e)]
  | (q, f) :: l => if p < q then (p, e) :: (q, f) :: l else if p = q then (q, f) :: l else (q, f) :: todoInsert p e l

/-- One turn of the loop over the ports, in which `up` says whether a port is up.
`/repo/src/bm_sim/port_monitor.cpp:166-174`. -/
def pollOne (up : Nat → Bool) (todo : List (Nat × Ev)) (x : Nat × Bool) : List (Nat × Ev) :=
  if !up x.1 && x.2 then todoInsert x.1 .down todo
  else if up x.1 && !x.2 then todoInsert x.1 .up todo
  else todo

/-- What the active monitor finds to do.  `/repo/src/bm_sim/port_monitor.cpp:161-177`. -/
def pollTodo (l : Table) (up : Nat → Bool) : List (Nat × Ev) := l.foldl (pollOne up) []

/-- `port_e.second = is_up` for all ports.  `/repo/src/bm_sim/port_monitor.cpp:175`. -/
def pollTable (l : Table) (up : Nat → Bool) : Table := l.map fun x => (x.1, up x.1)

/-- What a thread still has to do after its critical section. -/
inductive Job where
  /-- `event_handler`.  port_monitor.cpp:52-58 -/
  | call (p : Nat) (e : Ev)
  /-- `send_notifications`.  port_monitor.cpp:62-78 -/
  | send (m : List (Nat × Bool))
  deriving DecidableEq, Repr

/-- `make_one_status`.  `/repo/src/bm_sim/port_monitor.cpp:80-82`. -/
def oneStatus (x : Nat × Ev) : Nat × Bool := (x.1, x.2 == .up)

/-- Whether the event is told to subscribers.  `/repo/src/bm_sim/port_monitor.cpp:113,185-186`. -/
def told (x : Nat × Ev) : Bool := x.2 == .up || x.2 == .down

/-- The jobs left for an event accepted by `notify_`.  `/repo/src/bm_sim/port_monitor.cpp:111-116`. -/
def notifyJobs (p : Nat) (e : Ev) : List Job :=
  .call p e :: if told (p, e) then [.send [oneStatus (p, e)]] else []

/-- The jobs left for the active monitor.  `/repo/src/bm_sim/port_monitor.cpp:178-191`. -/
def pollJobs (todo : List (Nat × Ev)) : List Job :=
  todo.map (fun x => .call x.1 x.2) ++ [.send ((todo.filter told).map oneStatus)]

/-- A monitor and the threads in it.  `acc` (not in the code) are the events accepted so far; `calls` the calls of
callbacks, `msgs` the messages sent; `jobs` what each thread still has to do.  port_monitor.cpp:84-89 -/
structure Mon where
  ports : Table
  subs : List (Ev × Nat)
  writer : Bool
  acc : List (Nat × Ev)
  calls : List (Nat × Nat × Ev)
  msgs : List (List (Nat × Bool))
  jobs : List (List Job)
  deriving DecidableEq, Repr

/-- What may happen next. -/
inductive Label where
  /-- `register_cb_` of callback `id`.  port_monitor.cpp:119-124 -/
  | register (e : Ev) (id : Nat)
  /-- thread `t` calls `notify` -/
  | notify (t p : Nat) (e : Ev)
  /-- thread `t`, that of the active monitor, wakes up -/
  | poll (t : Nat) (up : Nat → Bool)
  /-- thread `t` goes on -/
  | go (t : Nat)

/-- The calls made by `event_handler`: all callbacks registered for the type.  The order among them is not
specified (`equal_range` of an `unordered_multimap`).  `/repo/src/bm_sim/port_monitor.cpp:52-58`. -/
def handlerCalls (subs : List (Ev × Nat)) (p : Nat) (e : Ev) : List (Nat × Nat × Ev) :=
  (subs.filter fun x => x.1 = e).map fun x => (x.2, p, e)

/-- A job is done.  `/repo/src/bm_sim/port_monitor.cpp:52-78`. -/
def Mon.work (m : Mon) : Job → Mon
  | .call p e => { m with calls := m.calls ++ handlerCalls m.subs p e }
  | .send s => if !m.writer || s.isEmpty then m else { m with msgs := m.msgs ++ [s] }

/-- One step; `none` if it cannot happen in this state. -/
def Mon.step (m : Mon) : Label → Option Mon
  | .register e id => some { m with subs := m.subs ++ [(e, id)] }
  | .notify t p e =>
    match m.jobs[t]? with
    | some [] =>
      match accept m.ports p e with
      | none => some m
      | some ports => some { m with ports, acc := m.acc ++ [(p, e)], jobs := m.jobs.set t (notifyJobs p e) }
    | _ => none
  | .poll t up =>
    match m.jobs[t]? with
    | some [] =>
      some { m with ports := pollTable m.ports up, acc := m.acc ++ pollTodo m.ports up,
                    jobs := m.jobs.set t (pollJobs (pollTodo m.ports up)) }
    | _ => none
  | .go t =>
    match m.jobs[t]? with
    | some (j :: js) => some ({ m with jobs := m.jobs.set t js }.work j)
    | _ => none

/-- A sequence of steps. -/
def Mon.run (m : Mon) : List Label → Option Mon
  | [] => some m
  | l :: ls => (m.step l).bind (·.run ls)

/-- A new monitor, used by `n` threads.  `/repo/src/bm_sim/port_monitor.cpp:47-49,84-89`. -/
def Mon.new (writer : Bool) (n : Nat) : Mon := ⟨[], [], writer, [], [], [], List.replicate n []⟩

/-! ## The device manager that receives messages -/

/-- `notify` called by a thread that goes on with its jobs at once (no other thread is in the monitor).
`/repo/src/bm_sim/port_monitor.cpp:92-117`. -/
def Mon.notifyNow (m : Mon) (p : Nat) (e : Ev) : Mon :=
  match accept m.ports p e with
  | none => m
  | some ports => (notifyJobs p e).foldl Mon.work { m with ports, acc := m.acc ++ [(p, e)] }

/-- `PacketInDevMgrImp`: the ports (with `is_up`), the monitor, the packets given to the handler and the replies sent.
`/repo/src/bm_sim/dev_mgr_packet_in.cpp:184-195`. -/
structure Dev where
  enforce : Bool
  info : Table
  mon : Mon
  packets : List (Nat × Bytes)
  replies : List Bytes
  deriving DecidableEq, Repr

/-- `do_port_add`.  `/repo/src/bm_sim/dev_mgr_packet_in.cpp:128-141`; a new port is up: dev_mgr.h:67. -/
def Dev.portAdd (d : Dev) (p : Nat) : Dev :=
  match d.info.lookup p with
  | some _ => d
  | none =>
    let d := { d with info := (p, true) :: d.info }
    if !d.enforce then d
    else { d with mon := (d.mon.notifyNow p .added).notifyNow p .up }

/-- `do_port_remove`.  `/repo/src/bm_sim/dev_mgr_packet_in.cpp:143-153`. -/
def Dev.portRemove (d : Dev) (p : Nat) : Dev :=
  match d.info.lookup p with
  | none => d
  | some _ =>
    let d := { d with info := d.info.filter fun x => x.1 ≠ p }
    if !d.enforce then d else { d with mon := d.mon.notifyNow p .removed }

/-- `do_port_set_status`.  `/repo/src/bm_sim/dev_mgr_packet_in.cpp:155-165`. -/
def Dev.setStatus (d : Dev) (p : Nat) (b : Bool) : Dev :=
  match d.info.lookup p with
  | none => d
  | some _ =>
    let d := { d with info := setUp d.info p b }
    if !d.enforce then d else { d with mon := d.mon.notifyNow p (if b then .up else .down) }

/-- The `i`th `int` of the message (little endian), as the unsigned number with the same bits.
`/repo/src/bm_sim/dev_mgr_packet_in.cpp:167-175,238-239`. -/
def word (msg : Bytes) (i : Nat) : Nat :=
  (msg.getD (4 * i) 0).toNat + 256 * (msg.getD (4 * i + 1) 0).toNat + 65536 * (msg.getD (4 * i + 2) 0).toNat +
    16777216 * (msg.getD (4 * i + 3) 0).toNat

/-- Whether a packet from the port is let in.  `/repo/src/bm_sim/dev_mgr_packet_in.cpp:261-265`. -/
def Dev.lets (d : Dev) (p : Nat) : Bool := !d.enforce || d.info.lookup p == some true

/-- `handle_msg`.  The length of the message is not passed to it: `none` if it reads behind the message.  The packet
handler is given the length in the message, and reads that many bytes (a negative length is not followed further).
`/repo/src/bm_sim/dev_mgr_packet_in.cpp:224-285`. -/
def Dev.handle (d : Dev) (msg : Bytes) : Option Dev :=
  if msg.length < 12 then none
  else
    match word msg 0 with
    | 0 => some (d.portAdd (word msg 1))
    | 1 => some (d.portRemove (word msg 1))
    | 2 =>
      match word msg 2 with
      | 0 => some (d.setStatus (word msg 1) false)
      | 1 => some (d.setStatus (word msg 1) true)
      | _ => some d
    | 3 =>
      if d.lets (word msg 1) then
        if msg.length < 12 + word msg 2 then none
        else some { d with packets := d.packets ++ [(word msg 1, (msg.drop 12).take (word msg 2))] }
      else some d
    | 5 => some { d with replies := d.replies ++ [[6, 0, 0, 0] ++ (msg.drop 4).take 8 ++ [1, 0, 0, 0]] }
    | _ => some d

/-- `DevMgrIface::port_add` on this manager: the monitor is told, then the call fails (`UNSUPPORTED`).
`/repo/src/bm_sim/dev_mgr.cpp:111-117`, `/repo/src/bm_sim/dev_mgr_packet_in.cpp:57-66`. -/
def Dev.apiAdd (d : Dev) (p : Nat) : Dev := { d with mon := d.mon.notifyNow p .added }

/-- `DevMgrIface::port_remove` on this manager.  `/repo/src/bm_sim/dev_mgr.cpp:119-124`,
`/repo/src/bm_sim/dev_mgr_packet_in.cpp:68-74`. -/
def Dev.apiRemove (d : Dev) (p : Nat) : Dev := { d with mon := d.mon.notifyNow p .removed }

/-- `port_is_up_`.  `/repo/src/bm_sim/dev_mgr_packet_in.cpp:93-98`. -/
def Dev.portIsUp (d : Dev) (p : Nat) : Bool := !d.enforce || d.info.lookup p == some true

/-- `receive_loop`: messages one after another.  `/repo/src/bm_sim/dev_mgr_packet_in.cpp:287-305`. -/
def Dev.receive (d : Dev) : List Bytes → Option Dev
  | [] => some d
  | m :: ms => (d.handle m).bind (·.receive ms)

/-- A new device manager.  `/repo/src/bm_sim/dev_mgr_packet_in.cpp:35-47`. -/
def Dev.new (enforce writer : Bool) : Dev := ⟨enforce, [], Mon.new writer 0, [], []⟩

end Bm.Ports
