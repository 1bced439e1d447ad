import Verif.Spec.Bmi

/-!
# Model of the port manager (BMI)

Transcribes `/repo/src/BMI/bmi_port.c` and the parts of `/repo/src/BMI/bmi_interface.c` and
`/repo/src/bm_sim/dev_mgr_bmi.cpp` that it is used with, as a transition system: requests of the switch, the thread that
waits in `select`, and the outside (packets arriving, the system accepting a packet or not, a signal).

* An interface is known by its descriptor.  The system gives a descriptor that is not open.
* `select` is that of Linux: bits beyond the number of descriptors asked about are cleared up to the end of their 64-bit
  word, and left as they are in later words; when interrupted, it changes nothing.
* Reading from an interface without packets returns without a packet (it may also wait; then the thread makes no step).
* A request that takes the lock and does not wait while it holds it is one step.  The counters of a port are updated
  together with sending or handing over the packet.
* Out of bounds access, use of something freed or closed, a descriptor that does not fit into an `fd_set`, a failed
  assertion, closing a descriptor that the other thread selects on: `bad`.
* Not modelled: dump files (`bmi_interface_add_dumper`), `bmi_port_interface_is_up`, names of interfaces, failing
  allocations, that `memmove` moves mutexes (all of them are unlocked then).
-/

namespace Bm.Bmi

/-- `bmi_port_t`; `bmi` is a pointer.  `/repo/src/BMI/bmi_port.c:31-38`. -/
structure Slot where
  bmi : Option Nat
  port : Int
  fd : Nat
  stats : Stats
  deriving DecidableEq

/-- Memory from `calloc`.  `/repo/src/BMI/bmi_port.c:186-191`. -/
def Slot.zero : Slot := ⟨none, 0, 0, ⟨0, 0, 0, 0⟩⟩

/-- `bmi_port_mgr_t`; `sp1` is `socketpairfd[1]`.  `/repo/src/BMI/bmi_port.c:40-56`. -/
structure Mgr where
  ports : List Slot
  count : Nat
  max : Nat
  sp1 : Nat
  fds : Nat → Bool
  maxFd : Int
  handler : Bool

/-- Where the thread is: before the lock at the top of the loop; in `select`; before `read` from the socket pair; before
the second lock; in the loop over the ports, with the lock; it has ended.  `/repo/src/BMI/bmi_port.c:101-175`. -/
inductive Pc
  | copy
  | select (fds : Nat → Bool) (maxFd : Int)
  | bounce (n : Int) (fds : Nat → Bool)
  | relock (n : Int) (fds : Nat → Bool)
  | loop (n : Int) (fds : Nat → Bool) (idx : Nat)
  | ended

/-- Who holds the lock for writing: nobody; `_bmi_port_interface_remove` in its `read`, with the index of the port, and the
counter of the loop if called from `bmi_port_destroy_mgr`; the loop of `bmi_port_destroy_mgr`; nobody, but
`bmi_port_destroy_mgr` waits for the thread; the manager has been freed.  `/repo/src/BMI/bmi_port.c:304-361`. -/
inductive Ctl
  | idle
  | wait (idx : Nat) (d : Option Nat)
  | destroy (i : Nat)
  | join
  | gone
  deriving DecidableEq

/-- Everything.  `heap`: the descriptor of a `bmi_interface_t`, if not freed; `net`: open descriptors; `toThread`, `toCtl`:
whether a byte is on its way in the socket pair. -/
structure Sys where
  m : Mgr
  heap : Nat → Option Nat
  net : Nat → Option File
  pc : Pc
  ctl : Ctl
  toThread : Bool
  toCtl : Bool

/-- `bmi_port_create_mgr`, `bmi_start_mgr`: `max_fd` is 0.  `/repo/src/BMI/bmi_port.c:177-218`. -/
def Sys.create (max sp1 : Nat) : Sys where
  m := { ports := List.replicate max .zero, count := 0, max, sp1, fds := fun i => i == sp1, maxFd := 0, handler := false }
  heap := fun _ => none
  net := fun _ => none
  pc := .copy
  ctl := .idle
  toThread := false
  toCtl := false

/-! ## The table of ports -/

/-- The loop of `get_port` and of `insert_port`: the index, and whether the port is there.
`/repo/src/BMI/bmi_port.c:59-72,76-88`. -/
def search (ports : List Slot) (p : Int) (a b : Nat) : Option (Nat × Bool) :=
  if a < b then
    match ports[a + (b - a) / 2]? with
    | none => none
    | some x =>
      if p < x.port then search ports p a (a + (b - a) / 2)
      else if p > x.port then search ports p (a + (b - a) / 2 + 1) b
      else some (a + (b - a) / 2, true)
  else some (a, false)
termination_by b - a

/-- `get_port`: the index, or `NULL`.  `/repo/src/BMI/bmi_port.c:58-73`. -/
def Mgr.getPort (m : Mgr) (p : Int) : Option (Option Nat) :=
  (search m.ports p 0 m.count).map fun r => if r.2 then some r.1 else none

/-- `memmove` within the array, in elements. -/
def memmove (l : List Slot) (dst src n : Nat) : Option (List Slot) :=
  if dst + n ≤ l.length ∧ src + n ≤ l.length then some (l.take dst ++ ((l.drop src).take n ++ l.drop (dst + n)))
  else none

/-- `insert_port`.  `/repo/src/BMI/bmi_port.c:75-93`. -/
def Mgr.insertPort (m : Mgr) (p : Int) : Option (Option Nat × Mgr) := do
  let r ← search m.ports p 0 m.count
  if r.2 then return (none, m)
  let ports ← memmove m.ports (r.1 + 1) r.1 (m.count - r.1)
  return (some r.1, { m with ports })

/-- `delete_port`.  `/repo/src/BMI/bmi_port.c:95-99`. -/
def Mgr.deletePort (m : Mgr) (idx : Nat) : Option Mgr := do
  let ports ← memmove m.ports idx (idx + 1) (m.count - idx - 1)
  return { m with ports }

/-- `FD_SET` on a set of 1024 bits. -/
def fdSet (fds : Nat → Bool) (fd : Nat) : Option (Nat → Bool) := if fd < 1024 then some (Spec.upd fds fd true) else none

/-! ## Requests -/

/-- What a step leads to: it cannot be taken now; something undefined; an event and a new state. -/
inductive Res
  | blocked
  | bad
  | ok (e : Ev) (s : Sys)

/-- Undefined behaviour in a step. -/
def Res.of : Option (Ev × Sys) → Res
  | none => .bad
  | some (e, s) => .ok e s

/-- `_bmi_port_interface_add` from the call of `insert_port` on.  `/repo/src/BMI/bmi_port.c:265-288`. -/
def Sys.attach (s : Sys) (p : Int) (b fd : Nat) : Option Sys := do
  let (r, m) ← s.m.insertPort p
  let a ← r
  let x ← m.ports[a]?
  let fds ← fdSet m.fds fd
  return { s with
    m := { m with
      ports := m.ports.set a { x with port := p, bmi := some b, stats := ⟨0, 0, 0, 0⟩, fd }
      maxFd := if (fd : Int) > m.maxFd then fd else m.maxFd
      fds
      count := m.count + 1 }
    heap := Spec.upd s.heap b (some fd)
    net := Spec.upd s.net fd (some ⟨[], []⟩) }

/-- `_bmi_port_interface_add`; `os`: the address and the descriptor of the interface, if it can be opened.
`/repo/src/BMI/bmi_port.c:252-302`, `/repo/src/BMI/bmi_interface.c:34-85`. -/
def Sys.add (s : Sys) (p : Int) (os : Option (Nat × Nat)) : Option (Ev × Sys) := do
  let r ← s.m.getPort p
  if r.isSome then return (.add p (os.map Prod.snd) false, s)
  if s.m.count ≥ s.m.max then return (.add p (os.map Prod.snd) false, s)
  match os with
  | none => return (.add p none false, s)
  | some (b, fd) => return (.add p (some fd) true, ← s.attach p b fd)

/-- `_bmi_port_interface_remove` up to the `write`.  `/repo/src/BMI/bmi_port.c:305-314`. -/
def Sys.removeBegin (s : Sys) (p : Int) (d : Option Nat) : Option (Ev × Sys) := do
  let r ← s.m.getPort p
  match r with
  | none =>
    match d with
    | none => return (.noRemove p, s)
    | some i => return (.tau, { s with ctl := .destroy (i + 1) })
  | some idx =>
    let x ← s.m.ports[idx]?
    return (if d.isNone then .removeBegin p else .tau,
      { s with
        m := { s.m with fds := Spec.upd s.m.fds x.fd false }
        toThread := true
        ctl := .wait idx d })

/-- Whether the thread selects on a descriptor. -/
def Pc.selects : Pc → Nat → Bool
  | .select fds _, fd => fds fd
  | _, _ => false

/-- `_bmi_port_interface_remove` from the `read` on, and `bmi_interface_destroy`.
`/repo/src/BMI/bmi_port.c:315-325`, `/repo/src/BMI/bmi_interface.c:87-93`. -/
def Sys.removeEnd (s : Sys) (idx : Nat) (d : Option Nat) : Option (Ev × Sys) := do
  let x ← s.m.ports[idx]?
  let b ← x.bmi
  let fd ← s.heap b
  let _ ← s.net fd
  if s.pc.selects fd then none
  let m ← s.m.deletePort idx
  return (if d.isNone then .removeEnd x.port else .tau,
    { s with
      m := { m with count := m.count - 1 }
      heap := Spec.upd s.heap b none
      net := Spec.upd s.net fd none
      toCtl := false
      ctl := match d with
        | none => .idle
        | some i => .destroy (i + 1) })

/-- A packet was sent. -/
def Stats.addOut (t : Stats) (len : Nat) : Stats :=
  { t with outPackets := t.outPackets + 1, outOctets := t.outOctets + .ofNat len }

/-- A packet was received. -/
def Stats.addIn (t : Stats) (len : Nat) : Stats :=
  { t with inPackets := t.inPackets + 1, inOctets := t.inOctets + .ofNat len }

/-- Changing the counters of a port. -/
def Mgr.setStats (m : Mgr) (idx : Nat) (x : Slot) (t : Stats) : Mgr := { m with ports := m.ports.set idx { x with stats := t } }

/-- `bmi_port_send`, `bmi_interface_send`; `net`: whether the system accepts the packet.
`/repo/src/BMI/bmi_port.c:230-250`, `/repo/src/BMI/bmi_interface.c:113-125`. -/
def Sys.send (s : Sys) (p : Int) (d : Bytes) (net : Bool) : Option (Ev × Sys) := do
  let r ← s.m.getPort p
  match r with
  | none => return (.send p d net false, s)
  | some idx =>
    let x ← s.m.ports[idx]?
    let b ← x.bmi
    let fd ← s.heap b
    let f ← s.net fd
    if net then
      return (.send p d net true,
        { s with
          m := s.m.setStats idx x (x.stats.addOut d.length)
          net := Spec.upd s.net fd (some { f with out := f.out ++ [d] }) })
    return (.send p d net false, s)

/-- `bmi_port_get_stats`.  `/repo/src/BMI/bmi_port.c:396-414`. -/
def Sys.stats (s : Sys) (p : Int) : Option (Ev × Sys) := do
  let r ← s.m.getPort p
  match r with
  | none => return (.stats p none, s)
  | some idx =>
    let x ← s.m.ports[idx]?
    return (.stats p (some x.stats), s)

/-- `bmi_port_clear_stats`.  `/repo/src/BMI/bmi_port.c:416-436`. -/
def Sys.clear (s : Sys) (p : Int) : Option (Ev × Sys) := do
  let r ← s.m.getPort p
  match r with
  | none => return (.clear p none, s)
  | some idx =>
    let x ← s.m.ports[idx]?
    return (.clear p (some x.stats), { s with m := s.m.setStats idx x ⟨0, 0, 0, 0⟩ })

/-- `BmiDevMgrImp::get_port_stats_`: the result of `bmi_port_get_stats` is not looked at; `none` is reading memory that was
not initialised.  `/repo/src/bm_sim/dev_mgr_bmi.cpp:126-131`. -/
def devStats (s : Sys) (p : Int) : Option Stats :=
  match s.stats p with
  | some (.stats _ r, _) => r
  | _ => none

/-! ## The thread -/

/-- Whether a descriptor is ready. -/
def Sys.ready (s : Sys) (i : Nat) : Bool :=
  if i = s.m.sp1 then s.toThread
  else match s.net i with
    | none => false
    | some f => !f.pend.isEmpty

/-- `select` returns: how many descriptors are ready, and the set; `none`: `EBADF`.  `/repo/src/BMI/bmi_port.c:122-123`. -/
def Sys.select (s : Sys) (fds : Nat → Bool) (nfds : Nat) : Option (Nat × (Nat → Bool)) :=
  if (List.range nfds).all fun i => !fds i || i == s.m.sp1 || (s.net i).isSome then
    some (((List.range nfds).filter fun i => fds i && s.ready i).length,
      fun i => if i < 64 * ((nfds + 63) / 64) then decide (i < nfds) && fds i && s.ready i else fds i)
  else none

/-- From `if (n <= 0)` on.  `/repo/src/BMI/bmi_port.c:135-139`. -/
def Pc.go (n : Int) (fds : Nat → Bool) : Pc := if n ≤ 0 then .copy else .relock n fds

/-- From `if (max_fd == -1)` on.  `/repo/src/BMI/bmi_port.c:125-139`. -/
def Sys.afterSelect (s : Sys) (maxFd n : Int) (fds : Nat → Bool) : Sys :=
  { s with
    pc := if maxFd = -1 then .ended else if fds s.m.sp1 then .bounce n fds else .go n fds }

/-- `bmi_interface_recv`, and what `run_select` does with the packet.
`/repo/src/BMI/bmi_port.c:156-166`, `/repo/src/BMI/bmi_interface.c:128-148`. -/
def Sys.recv (s : Sys) (idx : Nat) (x : Slot) : Option (Ev × Sys) := do
  let b ← x.bmi
  let fd ← s.heap b
  let f ← s.net fd
  match f.pend with
  | [] => return (.tau, s)
  | k :: rest =>
    if k.cut then return (.cut x.port, { s with net := Spec.upd s.net fd (some { f with pend := rest }) })
    return (.deliver x.port k.data,
      { s with
        m := s.m.setStats idx x (x.stats.addIn k.data.length)
        net := Spec.upd s.net fd (some { f with pend := rest }) })

/-- An iteration of the loop over the ports, or its end.  `/repo/src/BMI/bmi_port.c:149-171`. -/
def Sys.iter (s : Sys) (n : Int) (fds : Nat → Bool) (idx : Nat) : Option (Ev × Sys) := do
  if n = 0 ∨ ¬ idx < s.m.count then return (.tau, { s with pc := .copy })
  let x ← s.m.ports[idx]?
  let _ ← x.bmi
  if fds x.fd then
    let (e, s) ← s.recv idx x
    return (e, { s with pc := .loop (n - 1) fds (idx + 1) })
  return (.tau, { s with pc := .loop n fds (idx + 1) })

/-! ## Steps -/

/-- What can be tried.  In `add`: what the system gives. -/
inductive Act
  | arrive (fd : Nat) (k : Pkt)
  | add (p : Int) (os : Option (Nat × Nat))
  | removeBegin (p : Int)
  | removeEnd
  | setHandler
  | send (p : Int) (d : Bytes) (net : Bool)
  | stats (p : Int)
  | clear (p : Int)
  | destroyBegin
  | destroyNext
  | destroyEnd
  | copy
  | select
  | interrupt
  | bounce
  | relock
  | iter

/-- The lock can be taken for reading. -/
def Sys.canRead (s : Sys) : Bool := s.ctl == .idle || s.ctl == .join

/-- Requests of the switch can take the lock for reading. -/
def Sys.free (s : Sys) : Bool := s.ctl == .idle

/-- The lock can be taken for writing. -/
def Sys.canWrite (s : Sys) : Bool :=
  s.ctl == .idle && match s.pc with
    | .loop _ _ _ => false
    | _ => true

/-- The system gives a new address and a descriptor that is not open. -/
def Sys.newOs (s : Sys) : Option (Nat × Nat) → Bool
  | none => true
  | some (b, fd) => (s.heap b).isNone && (s.net fd).isNone && fd != s.m.sp1

/-- A step.  `/repo/src/BMI/bmi_port.c:101-436`. -/
def Sys.step (s : Sys) : Act → Res
  | .arrive fd k =>
    match s.net fd with
    | none => .blocked
    | some f => .ok (.arrive fd k) { s with net := Spec.upd s.net fd (some { f with pend := f.pend ++ [k] }) }
  | .add p os => if s.canWrite && s.newOs os then .of (s.add p os) else .blocked
  | .removeBegin p => if s.canWrite then .of (s.removeBegin p none) else .blocked
  | .removeEnd =>
    match s.ctl with
    | .wait idx d => if s.toCtl then .of (s.removeEnd idx d) else .blocked
    | _ => .blocked
  | .setHandler => if s.canWrite then .ok .handler { s with m := { s.m with handler := true } } else .blocked
  | .send p d net => if s.free then .of (s.send p d net) else .blocked
  | .stats p => if s.free then .of (s.stats p) else .blocked
  | .clear p => if s.free then .of (s.clear p) else .blocked
  | .destroyBegin => if s.canWrite then .ok .destroyBegin { s with ctl := .destroy 0 } else .blocked
  | .destroyNext =>
    match s.ctl with
    | .destroy i =>
      if i < s.m.count then
        match s.m.ports[i]? with
        | none => .bad
        | some x => .of (s.removeBegin x.port (some i))
      else .ok .tau { s with m := { s.m with maxFd := -1 }, ctl := .join }
    | _ => .blocked
  | .destroyEnd =>
    match s.ctl, s.pc with
    | .join, .ended => .ok .destroyEnd { s with ctl := .gone }
    | _, _ => .blocked
  | .copy =>
    match s.pc with
    | .copy => if s.canRead then .ok .tau { s with pc := .select s.m.fds s.m.maxFd } else .blocked
    | _ => .blocked
  | .select =>
    match s.pc with
    | .select fds maxFd =>
      match s.select fds (maxFd + 1).toNat with
      | none => .bad
      | some (n, r) => .ok .tau (s.afterSelect maxFd n r)
    | _ => .blocked
  | .interrupt =>
    match s.pc with
    | .select fds maxFd => .ok .tau (s.afterSelect maxFd (-1) fds)
    | _ => .blocked
  | .bounce =>
    match s.pc with
    | .bounce n fds =>
      if s.toThread then .ok .tau { s with toThread := false, toCtl := true, pc := .go (n - 1) fds } else .blocked
    | _ => .blocked
  | .relock =>
    match s.pc with
    | .relock n fds =>
      if s.canRead then .ok .tau { s with pc := if s.m.handler then .loop n fds 0 else .copy } else .blocked
    | _ => .blocked
  | .iter =>
    match s.pc with
    | .loop n fds idx => .of (s.iter n fds idx)
    | _ => .blocked

/-- What a sequence of steps leads to. -/
inductive Runs
  | blocked
  | bad
  | ok (es : List Ev) (s : Sys)

/-- A sequence of steps. -/
def Sys.run (s : Sys) : List Act → Runs
  | [] => .ok [] s
  | a :: as =>
    match s.step a with
    | .blocked => .blocked
    | .bad => .bad
    | .ok e s' =>
      match s'.run as with
      | .blocked => .blocked
      | .bad => .bad
      | .ok es s'' => .ok (e :: es) s''

end Bm.Bmi
