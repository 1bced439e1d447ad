/-!
# Model of the exchange of configurations

`SwitchWContexts::load_new_config`, `swap_configs`, `do_swap`
(`/repo/src/bm_sim/switch.cpp:336-369,455-478`), `Context::load_new_config`, `swap_configs`, `do_swap`
(`/repo/src/bm_sim/context.cpp:804-863`), the pools of header vectors
(`/repo/src/bm_sim/phv_source.cpp:26-63`) and the creation and destruction of packets
(`/repo/src/bm_sim/switch.cpp:532-551`, `/repo/src/bm_sim/packet.cpp:82-121`), with any number of threads.

A configuration object (`P4Objects`) is represented by the text it was made from, of a type `C`.  What is done
under one lock is one step.  `process_packet_mutex` is held in shared mode only while a packet is created, which is
one step, so only its exclusive owner is represented.  Notifications to clients and the event log are left out.
-/

namespace Bm.Swap

/-- A context: the object packets are processed with (`p4objects`), the one of the control plane
(`p4objects_rt`; `none` if it is the same object), and `swap_ordered`.
`/repo/include/bm/bm_sim/context.h:504-513`. -/
structure Cxt (C : Type) where
  cur : C
  rt : Option C
  ordered : Bool
  deriving DecidableEq, Repr

/-- The pool of header vectors of a context: the configuration its factory belongs to, the configurations of the
header vectors that can be used again, and the number of those in use.
`/repo/src/bm_sim/phv_source.cpp:60-62`. -/
structure Pool (C : Type) where
  factory : C
  free : List C
  count : Nat
  deriving DecidableEq, Repr

/-- A packet: its context and the configuration its header vector was made for. -/
structure Pkt (C : Type) where
  cxt : Nat
  phv : C
  deriving DecidableEq, Repr

/-- Where a thread of the control plane is. -/
inductive PC (C : Type) where
  | idle
  /-- `load_new_config`, about to go to context `i`.  switch.cpp:339-345 -/
  | loading (json : C) (i : Nat)
  /-- about to set `current_config`.  switch.cpp:347-348 -/
  | storing (json : C)
  /-- `swap_configs`, about to go to context `i`.  switch.cpp:356-359 -/
  | ordering (i : Nat)
  /-- about to lock `config_mutex`.  switch.cpp:361 -/
  | locking
  /-- at the beginning of `do_swap`.  switch.cpp:457 -/
  | checking
  /-- about to lock `process_packet_mutex`.  switch.cpp:458 -/
  | lockPkt
  /-- in the loop of `do_swap`, at context `i`; `rc` is 1 (`true`) until a context is swapped.
  switch.cpp:459-465 -/
  | draining (i : Nat) (rc : Bool)
  /-- no packet was left in context `i`.  switch.cpp:466 -/
  | swapping (i : Nat) (rc : Bool)
  /-- context `i` is swapped, its pool is not.  switch.cpp:467-469 -/
  | factory (i : Nat) (rc : Bool)
  deriving DecidableEq, Repr

/-- What `load_new_config` and `swap_configs` return.
`/repo/include/bm/bm_sim/runtime_interface.h:34-39`. -/
inductive Code where
  | success
  | disabled
  | ongoing
  | noOngoing
  deriving DecidableEq, Repr

/-- The switch and the threads.  `enable`: `enable_swap`; `current`: `current_config`; the owners of
`config_mutex` and `process_packet_mutex`.  `/repo/include/bm/bm_sim/switch.h:930-955`. -/
structure Sw (C : Type) where
  enable : Bool
  cxts : List (Cxt C)
  pools : List (Pool C)
  packets : List (Pkt C)
  current : C
  cfgMutex : Bool
  pktMutex : Bool
  threads : List (PC C)
  deriving DecidableEq, Repr

/-- What may happen next. -/
inductive Label (C : Type) where
  /-- thread `t` calls `load_new_config` -/
  | load (t : Nat) (json : C)
  /-- thread `t` calls `swap_configs` -/
  | swap (t : Nat)
  /-- thread `t` goes on -/
  | go (t : Nat)
  /-- a packet is created in context `c` -/
  | newPacket (c : Nat)
  /-- packet number `p` is cloned, in the same context.  packet.cpp:141-173, 190-198 -/
  | clone (p : Nat)
  /-- packet number `p` is cloned, the clone being in context `c` (`clone_choose_context`).  packet.cpp:175-188 -/
  | cloneTo (p c : Nat)
  /-- `change_context` of packet number `p` -/
  | change (p c : Nat)
  /-- packet number `p` is destroyed -/
  | destroy (p : Nat)
  deriving DecidableEq, Repr

/-- The outcome of a step: an assertion failed, or a new state and what a thread has returned. -/
inductive Out (C : Type) where
  | bad
  | ok (s : Sw C) (ret : Option (Nat × Code))
  deriving DecidableEq, Repr

variable {C : Type}

/-- Thread `t` is at `pc`. -/
def Sw.at (s : Sw C) (t : Nat) (pc : PC C) : Sw C := { s with threads := s.threads.set t pc }

/-- `PHVPool::get`.  `/repo/src/bm_sim/phv_source.cpp:35-45`. -/
def Pool.get (p : Pool C) : C × Pool C :=
  match p.free with
  | [] => (p.factory, { p with count := p.count + 1 })
  | v :: free => (v, { p with count := p.count + 1, free })

/-- `PHVPool::release`.  `/repo/src/bm_sim/phv_source.cpp:47-51`. -/
def Pool.release (p : Pool C) (v : C) : Pool C := { p with count := p.count - 1, free := v :: p.free }

/-- The constructor of `Packet`.  `/repo/src/bm_sim/packet.cpp:82-94`. -/
def Sw.create (s : Sw C) (c : Nat) : Option (Sw C) :=
  match s.pools[c]? with
  | none => none
  | some p =>
    let (v, p) := p.get
    some { s with pools := s.pools.set c p, packets := s.packets ++ [⟨c, v⟩] }

/-- The destructor of `Packet`, or the first half of `change_context`.
`/repo/src/bm_sim/packet.cpp:96-121`. -/
def Sw.drop (s : Sw C) (n : Nat) : Option (Sw C) :=
  match s.packets[n]? with
  | none => none
  | some k =>
    match s.pools[k.cxt]? with
    | none => none
    | some p => some { s with pools := s.pools.set k.cxt (p.release k.phv), packets := s.packets.eraseIdx n }

/-- `Context::load_new_config`: `none` if a swap is going on.  The result of `init_objects` is not used.
`/repo/src/bm_sim/context.cpp:804-817`. -/
def Cxt.load (c : Cxt C) (json : C) : Option (Cxt C) :=
  match c.rt with
  | some _ => none
  | none => some { c with rt := some json }

/-- `Context::swap_configs`: `none` if no swap is going on.  `/repo/src/bm_sim/context.cpp:819-827`. -/
def Cxt.order (c : Cxt C) : Option (Cxt C) :=
  match c.rt with
  | some _ => some { c with ordered := true }
  | none => none

/-- `Context::do_swap`, from `p4objects = p4objects_rt`.  `/repo/src/bm_sim/context.cpp:858-862`. -/
def Cxt.doSwap (c : Cxt C) : Cxt C := { cur := c.rt.getD c.cur, rt := none, ordered := false }

/-- Thread `t`, at `pc`, goes on; `none` if it has to wait. -/
def Sw.go (s : Sw C) (t : Nat) : PC C → Option (Out C)
  | .idle => none
  -- switch.cpp:339-345
  | .loading json i =>
    match s.cxts[i]? with
    | none => some (.ok (s.at t (.storing json)) none)
    | some c =>
      match c.load json with
      | none => some (.ok (s.at t .idle) (some (t, .ongoing)))
      | some c => some (.ok ({ s with cxts := s.cxts.set i c }.at t (.loading json (i + 1))) none)
  -- switch.cpp:347-350
  | .storing json =>
    if s.cfgMutex then none
    else some (.ok ({ s with current := json }.at t .idle) (some (t, .success)))
  -- switch.cpp:356-359
  | .ordering i =>
    match s.cxts[i]? with
    | none => some (.ok (s.at t .locking) none)
    | some c =>
      match c.order with
      | none => some (.ok (s.at t .idle) (some (t, .noOngoing)))
      | some c => some (.ok ({ s with cxts := s.cxts.set i c }.at t (.ordering (i + 1))) none)
  -- switch.cpp:361
  | .locking => if s.cfgMutex then none else some (.ok ({ s with cfgMutex := true }.at t .checking) none)
  -- switch.cpp:457 and the assertion at 365
  | .checking =>
    if s.cxts.any Cxt.ordered then some (.ok (s.at t .lockPkt) none) else some .bad
  -- switch.cpp:458
  | .lockPkt =>
    if s.pktMutex then none else some (.ok ({ s with pktMutex := true }.at t (.draining 0 true)) none)
  -- switch.cpp:459-465, and 471-477 and 365-368 at the end
  | .draining i rc =>
    match s.cxts[i]?, s.pools[i]? with
    | some c, some p =>
      if c.ordered then
        if p.count = 0 then some (.ok (s.at t (.swapping i rc)) none) else none
      else some (.ok (s.at t (.draining (i + 1) rc)) none)
    | _, _ =>
      if rc then some .bad
      else some (.ok ({ s with cfgMutex := false, pktMutex := false }.at t .idle) (some (t, .success)))
  -- switch.cpp:466
  | .swapping i rc =>
    match s.cxts[i]? with
    | none => none
    | some c =>
      if c.ordered then some (.ok ({ s with cxts := s.cxts.set i c.doSwap }.at t (.factory i rc)) none)
      else some (.ok (s.at t (.draining (i + 1) rc)) none)
  -- switch.cpp:467-469, phv_source.cpp:28-33
  | .factory i _ =>
    match s.cxts[i]?, s.pools[i]? with
    | some c, some p =>
      if p.count = 0 then
        some (.ok ({ s with pools := s.pools.set i ⟨c.cur, [], 0⟩ }.at t (.draining (i + 1) false)) none)
      else some .bad
    | _, _ => none

/-- One step; `none` if that cannot happen in this state. -/
def Sw.step (s : Sw C) : Label C → Option (Out C)
  | .load t json =>
    match s.threads[t]? with
    | some .idle =>
      if s.enable then some (.ok (s.at t (.loading json 0)) none) else some (.ok s (some (t, .disabled)))
    | _ => none
  | .swap t =>
    match s.threads[t]? with
    | some .idle =>
      if s.enable then some (.ok (s.at t (.ordering 0)) none) else some (.ok s (some (t, .disabled)))
    | _ => none
  | .go t =>
    match s.threads[t]? with
    | none => none
    | some pc => s.go t pc
  | .newPacket c => if s.pktMutex then none else (s.create c).map fun s => .ok s none
  | .clone p =>
    match s.packets[p]? with
    | none => none
    | some k => (s.create k.cxt).map fun s => .ok s none
  | .cloneTo p c =>
    match s.packets[p]? with
    | none => none
    | some _ => (s.create c).map fun s => .ok s none
  | .change p c =>
    match s.packets[p]? with
    | none => none
    | some k => if k.cxt = c then some (.ok s none) else ((s.drop p).bind (·.create c)).map fun s => .ok s none
  | .destroy p => (s.drop p).map fun s => .ok s none

/-- A sequence of steps: the state (or a failed assertion) and what was returned. -/
def Sw.run (s : Sw C) : List (Label C) → Option (Out C × List (Nat × Code))
  | [] => some (.ok s none, [])
  | l :: ls =>
    match s.step l with
    | none => none
    | some .bad => some (.bad, [])
    | some (.ok s1 r) => (s1.run ls).map fun x => (x.1, r.toList ++ x.2)

/-- A switch with `n` contexts and a configuration, and `m` threads.
`/repo/src/bm_sim/switch.cpp:47-56,143-192`. -/
def Sw.new (json : C) (n m : Nat) : Sw C :=
  { enable := true, cxts := List.replicate n ⟨json, none, false⟩, pools := List.replicate n ⟨json, [], 0⟩,
    packets := [], current := json, cfgMutex := false, pktMutex := false, threads := List.replicate m .idle }

end Bm.Swap
