/-!
# Moving packets, and the pools of header vectors

The move constructor, the move assignment and the destructor of `Packet` (`/repo/src/bm_sim/packet.cpp:80-128,200-241`) with the pools of
`PHVSourceContextPools` (`/repo/src/bm_sim/phv_source.cpp:20-83`).

Simplifications:
- A header vector is the context it was made for and a list of values; making one and resetting one gives the empty list.
- Packet ids, copy ids and time stamps are numbers given from outside; the generator of copy ids is in `Model/PacketId`.
- A packet is never moved to itself.
-/

namespace Bm.PktMove

/-- `PHV`: the context whose factory made it, and its values. -/
structure Phv where
  home : Nat
  vals : List Nat := []
  deriving DecidableEq, Repr

/-- `Packet`.  `/repo/include/bm/bm_sim/packet.h:348-394`. -/
structure Pkt where
  cxt : Nat
  ingressPort : Nat := 0
  egressPort : Nat := 0
  id : Nat := 0
  copy : Nat := 0
  ingressLen : Nat := 0
  exit : Bool := false
  signature : Nat := 0
  payload : Nat := 0
  ts : Nat := 0
  regs : List Nat := []
  /-- `none`: moved away -/
  buffer : Option (List Nat) := none
  phv : Option Phv := none
  /-- `none`: the largest `size_t` -/
  trunc : Option Nat := none
  /-- `none`: `INVALID_ENTRY_INDEX` -/
  entry : Option Nat := none
  /-- `none`: invalid -/
  err : Option Nat := none
  cksumErr : Bool := false
  deriving DecidableEq, Repr

/-- Packets (`none`: destroyed), and per context the pool and the number of header vectors given out.
`/repo/src/bm_sim/phv_source.cpp:58-63,85`. -/
structure St where
  pkts : List (Option Pkt) := []
  pool : Nat → List Phv := fun _ => []
  count : Nat → Int := fun _ => 0

def upd {α : Type} (f : Nat → α) (c : Nat) (x : α) : Nat → α := fun d => if d = c then x else f d

/-- `PHVPool::get`: the last one put back, or a new one.  `/repo/src/bm_sim/phv_source.cpp:34-44`. -/
def St.get (s : St) (c : Nat) : Phv × St :=
  match (s.pool c).getLast? with
  | none => (⟨c, []⟩, { s with count := upd s.count c (s.count c + 1) })
  | some p => (p, { s with count := upd s.count c (s.count c + 1), pool := upd s.pool c (s.pool c).dropLast })

/-- `PHVPool::release`, after `reset`.  `/repo/src/bm_sim/phv_source.cpp:46-50`, `/repo/src/bm_sim/packet.cpp:103-105,115-117`. -/
def St.release (s : St) (c : Nat) (p : Phv) : St :=
  { s with count := upd s.count c (s.count c - 1), pool := upd s.pool c (s.pool c ++ [{ p with vals := [] }]) }

/-- The move constructor: the new packet.  `/repo/src/bm_sim/packet.cpp:203-216`. -/
def moved (p : Pkt) : Pkt :=
  { cxt := p.cxt, ingressPort := p.ingressPort, egressPort := p.egressPort, id := p.id, copy := p.copy, ingressLen := p.ingressLen,
    exit := p.exit, signature := p.signature, payload := p.payload, ts := p.ts, regs := p.regs, buffer := p.buffer, phv := p.phv }

/-- The move constructor: what is left.  `/repo/src/bm_sim/packet.cpp:211-212`. -/
def left (p : Pkt) : Pkt := { p with buffer := none, phv := none }

/-- The move assignment `p = std::move(q)`: the new `p`.  `/repo/src/bm_sim/packet.cpp:218-241`. -/
def assigned (p q : Pkt) : Pkt :=
  { p with cxt := q.cxt, ingressPort := q.ingressPort, egressPort := q.egressPort, id := q.id, copy := q.copy, ingressLen := q.ingressLen,
           exit := q.exit, signature := q.signature, payload := q.payload, ts := q.ts, regs := q.regs, buffer := q.buffer, phv := q.phv }

/-- The move assignment: the new `q` has the buffer and the header vector of `p`.  `/repo/src/bm_sim/packet.cpp:234-235`. -/
def swapped (p q : Pkt) : Pkt := { q with buffer := p.buffer, phv := p.phv }

/-- `get_data_size`.  `/repo/include/bm/bm_sim/packet.h:168-170`. -/
def Pkt.dataSize (p : Pkt) : Nat :=
  match p.trunc with
  | none => (p.buffer.getD []).length
  | some n => min (p.buffer.getD []).length n

/-- What happens to packets. -/
inductive Op
  /-- a new packet: context, port, id, bytes -/
  | create (cxt port id : Nat) (data : List Nat)
  /-- `truncate`, `set_error_code`, `set_entry_index`, `set_checksum_error`, a write to the header vector -/
  | truncate (i n : Nat)
  | setErr (i e : Nat)
  | setEntry (i e : Nat)
  | setCksum (i : Nat) (b : Bool)
  | write (i : Nat) (vals : List Nat)
  | moveNew (i : Nat)
  | moveAssign (i j : Nat)
  | changeContext (i c : Nat)
  | destroy (i : Nat)
  deriving Repr

/-- The packet at a place. -/
def St.at? (s : St) (i : Nat) : Option Pkt := (s.pkts[i]?).getD none

def St.put (s : St) (i : Nat) (p : Option Pkt) : St := { s with pkts := s.pkts.set i p }

/-- A change of one packet. -/
def St.edit (s : St) (i : Nat) (f : Pkt → Pkt) : St :=
  match s.at? i with
  | none => s
  | some p => s.put i (some (f p))

/-- One step; steps with packets which do not exist do nothing.  `/repo/src/bm_sim/packet.cpp:80-128,200-241`,
`/repo/include/bm/bm_sim/packet.h:206-208,236-250`. -/
def step (s : St) : Op → St
  | .create c port id data =>
    let (v, s') := s.get c
    { s' with pkts := s'.pkts ++ [some { cxt := c, ingressPort := port, id := id, ingressLen := data.length, buffer := some data, phv := some v }] }
  | .truncate i n => s.edit i fun p => { p with trunc := some (match p.trunc with | none => n | some m => min n m) }
  | .setErr i e => s.edit i fun p => { p with err := some e }
  | .setEntry i e => s.edit i fun p => { p with entry := some e }
  | .setCksum i b => s.edit i fun p => { p with cksumErr := b }
  | .write i vals => s.edit i fun p => { p with phv := p.phv.map fun v => { v with vals := vals } }
  | .moveNew i =>
    match s.at? i with
    | none => s
    | some p => let s := s.put i (some (left p)); { s with pkts := s.pkts ++ [some (moved p)] }
  | .moveAssign i j =>
    match s.at? i, s.at? j with
    | some p, some q => if i = j then s else (s.put i (some (assigned p q))).put j (some (swapped p q))
    | _, _ => s
  | .changeContext i c =>
    match s.at? i with
    | none => s
    | some p =>
      if p.cxt = c then s
      else
        match p.phv with
        | none => s
        | some v =>
          let (w, s') := (s.release p.cxt v).get c
          s'.put i (some { p with cxt := c, phv := some w })
  | .destroy i =>
    match s.at? i with
    | none => s
    | some p =>
      match p.phv with
      | none => s.put i none
      | some v => (s.release p.cxt v).put i none

/-- Many steps. -/
def run (s : St) : List Op → St
  | [] => s
  | o :: r => run (step s o) r

end Bm.PktMove
