/-!
# Model of the identities of packets

`CopyIdGenerator` and the constructors, the destructor and the assignment of `Packet`, as far as the
identity is concerned.

* Each operation is one atomic update of a counter.  `remove_one` has a variable that keeps its value
  when the update has to be tried again; this value is a parameter (`stale`), 0 if there was no other
  thread.
* A packet has a header vector unless it was moved from; only packets that have one are alive.
-/

namespace Bm.PktId

/-- `CopyIdGenerator::Cntr`, two 16-bit numbers.  `/repo/include/bm/bm_sim/packet.h:55-62`. -/
structure Cntr where
  max : Nat
  num : Nat
  deriving Repr, DecidableEq

/-- `CopyIdGenerator::W`.  `/repo/include/bm/bm_sim/packet.h:54`. -/
def W : Nat := 4096

/-- `add_one`; the new `max` is the copy id.  `/repo/src/bm_sim/packet.cpp:26-36`. -/
def addOne (c : Cntr) : Cntr := ⟨(c.max + 1) % 2 ^ 16, (c.num + 1) % 2 ^ 16⟩

/-- `remove_one`.  `/repo/src/bm_sim/packet.cpp:38-51`. -/
def removeOne (stale : Nat) (c : Cntr) : Cntr :=
  if c.num = 0 then ⟨0, stale⟩ else ⟨c.max, c.num - 1⟩

/-- The identity of a packet; `phv` if it has a header vector.
`/repo/include/bm/bm_sim/packet.h:355-356,375`. -/
structure Pkt where
  id : Nat
  copy : Nat
  phv : Bool
  deriving Repr, DecidableEq

/-- The counters (`arr`) and the packets that have not been destroyed.
`/repo/include/bm/bm_sim/packet.h:74`. -/
structure St where
  slots : Nat → Cntr
  pkts : List Pkt

/-- No packets; `arr` is initialised with zeros.  `/repo/include/bm/bm_sim/packet.h:59,74`. -/
def St.init : St := ⟨fun _ => ⟨0, 0⟩, []⟩

/-- Changing the counter of a packet id (`id % W`).  `/repo/src/bm_sim/packet.cpp:27,39`. -/
def St.upd (s : St) (id : Nat) (f : Cntr → Cntr) : Nat → Cntr :=
  fun k => if k = id % W then f (s.slots k) else s.slots k

/-- Operations on packets; packets are given by their position. -/
inductive Op
  /-- `new_packet`: copy id 0 -/
  | arrive (id : Nat)
  /-- one of the clone functions -/
  | clone (i : Nat)
  /-- the destructor -/
  | destroy (i : Nat) (stale : Nat)
  /-- the move constructor, from packet `i` to a new one -/
  | moveNew (i : Nat)
  /-- the move assignment, from packet `j` to packet `i` -/
  | moveAssign (i j : Nat)
  deriving Repr, DecidableEq

/-- One operation.  `/repo/src/bm_sim/packet.cpp:82-110,141-198,203-241`,
`/repo/src/bm_sim/switch.cpp:533-553`. -/
def St.exec (s : St) : Op → Option St
  | .arrive id => some { s with pkts := s.pkts ++ [⟨id, 0, true⟩] }
  | .clone i =>
    match s.pkts[i]? with
    | some p =>
      if p.phv then
        some ⟨s.upd p.id addOne, s.pkts ++ [⟨p.id, (addOne (s.slots (p.id % W))).max, true⟩]⟩
      else none
    | none => none
  | .destroy i stale =>
    match s.pkts[i]? with
    | some p => some ⟨if p.phv then s.upd p.id (removeOne stale) else s.slots, s.pkts.eraseIdx i⟩
    | none => none
  | .moveNew i =>
    match s.pkts[i]? with
    | some p => some { s with pkts := s.pkts.set i { p with phv := false } ++ [p] }
    | none => none
  | .moveAssign i j =>
    match s.pkts[i]?, s.pkts[j]? with
    | some p, some q =>
      if i = j then some s
      else some { s with pkts := (s.pkts.set i q).set j { q with phv := p.phv } }
    | _, _ => none

/-- A history. -/
def St.run (s : St) : List Op → Option St
  | [] => some s
  | op :: ops => (s.exec op).bind (·.run ops)

/-- The identities of the packets that are alive. -/
def St.live (s : St) : List (Nat × Nat) := (s.pkts.filter (·.phv)).map fun p => (p.id, p.copy)

end Bm.PktId
