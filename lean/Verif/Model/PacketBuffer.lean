import Verif.Model.Parser

/-!
# Model of the buffers of packets

`PacketBuffer` and the functions of `Packet` that use it.

* The memory is a list of bytes; `head` is the offset of the pointer `head` in it.  The code keeps
  `head` and `data_size` separately, and so does the model.
* New memory is not initialised: its content is a parameter (`junk`).
* A failed assertion, and an access outside of the memory, give `none`.
-/

namespace Bm.PBuf

/-- `PacketBuffer`.  `/repo/include/bm/bm_sim/packet_buffer.h:119-123`. -/
structure PB where
  size : Nat
  dataSize : Nat
  mem : Bytes
  head : Nat
  deriving Repr, DecidableEq

/-- `PacketBuffer::state_t`.  `/repo/include/bm/bm_sim/packet_buffer.h:43-46`. -/
structure SavedSt where
  head : Nat
  dataSize : Nat
  deriving Repr, DecidableEq

/-- The constructor with a size; `junk` is what the memory contains.
`/repo/include/bm/bm_sim/packet_buffer.h:51-55`. -/
def mkEmpty (size : Nat) (junk : Bytes) : Option PB :=
  if junk.length = size then some ⟨size, 0, junk, size⟩ else none

/-- `push`.  `/repo/include/bm/bm_sim/packet_buffer.h:81-86`. -/
def PB.push (b : PB) (n : Nat) : Option PB :=
  if b.dataSize + n ≤ b.size then
    if n ≤ b.head then some { b with dataSize := b.dataSize + n, head := b.head - n } else none
  else none

/-- `pop`.  `/repo/include/bm/bm_sim/packet_buffer.h:88-93`. -/
def PB.pop (b : PB) (n : Nat) : Option PB :=
  if n ≤ b.dataSize then some { b with dataSize := b.dataSize - n, head := b.head + n } else none

/-- Writing bytes behind the pointer `start() + off` (what `std::copy` and the deparser do).
`/repo/include/bm/bm_sim/packet_buffer.h:74,77,107`, `/repo/src/bm_sim/deparser.cpp:83`. -/
def PB.write (b : PB) (off : Nat) (bs : Bytes) : Option PB :=
  if b.head + off + bs.length ≤ b.mem.length then
    some { b with mem := b.mem.take (b.head + off) ++ bs ++ b.mem.drop (b.head + off + bs.length) }
  else none

/-- The constructor with data.  `/repo/include/bm/bm_sim/packet_buffer.h:69-75`. -/
def mkData (size : Nat) (data : Bytes) (junk : Bytes) : Option PB := do
  let b ← mkEmpty size junk
  let b ← b.push data.length
  b.write 0 data

/-- The bytes `[start(); start() + n)`.  `/repo/include/bm/bm_sim/packet_buffer.h:77`. -/
def PB.bytes (b : PB) (n : Nat) : Option Bytes :=
  if b.head + n ≤ b.mem.length then some ((b.mem.drop b.head).take n) else none

/-- `save_state`.  `/repo/include/bm/bm_sim/packet_buffer.h:95-97`. -/
def PB.save (b : PB) : SavedSt := ⟨b.head, b.dataSize⟩

/-- `restore_state`.  `/repo/include/bm/bm_sim/packet_buffer.h:99-102`. -/
def PB.restore (b : PB) (s : SavedSt) : PB := { b with head := s.head, dataSize := s.dataSize }

/-- `clone`.  `/repo/include/bm/bm_sim/packet_buffer.h:79,106-111`. -/
def PB.clone (b : PB) (n : Nat) (junk : Bytes) : Option PB := do
  if n ≤ b.dataSize then
    let c ← mkEmpty b.size junk
    let c ← c.push n
    if n ≤ b.size then c.write 0 ((b.mem.drop (b.size - n)).take n) else none
  else none

/-- The parts of `Packet` that concern the data: the buffer, `truncated_length` and `payload_size`.
`/repo/include/bm/bm_sim/packet.h:366-370`. -/
structure Pkt where
  buf : PB
  trunc : Nat
  payloadSize : Nat
  deriving Repr, DecidableEq

/-- The greatest `size_t`, the initial `truncated_length`.  `/repo/include/bm/bm_sim/packet.h:370`. -/
def noTrunc : Nat := 2 ^ 64 - 1

/-- The constructor of `Packet`.  `/repo/src/bm_sim/packet.cpp:82-94`. -/
def Pkt.mk' (b : PB) : Pkt := ⟨b, noTrunc, 0⟩

/-- `get_data_size`.  `/repo/include/bm/bm_sim/packet.h:168-170`. -/
def Pkt.dataSize (p : Pkt) : Nat := min p.buf.dataSize p.trunc

/-- What a target transmits: `data()`, `get_data_size()`.  `/repo/include/bm/bm_sim/packet.h:168-179`,
`/repo/targets/simple_switch/simple_switch.cpp:387-388`. -/
def Pkt.sent (p : Pkt) : Option Bytes := p.buf.bytes p.dataSize

/-- `truncate`.  `/repo/include/bm/bm_sim/packet.h:206-208`. -/
def Pkt.truncate (p : Pkt) (n : Nat) : Pkt := { p with trunc := min n p.trunc }

/-- `prepend`, then filling the space.  `/repo/include/bm/bm_sim/packet.h:210`,
`/repo/src/bm_sim/deparser.cpp:67-86`. -/
def Pkt.prepend (p : Pkt) (bs : Bytes) : Option Pkt := do
  let b ← p.buf.push bs.length
  let b ← b.write 0 bs
  return { p with buf := b }

/-- `remove`.  `/repo/include/bm/bm_sim/packet.h:212-215`. -/
def Pkt.remove (p : Pkt) (n : Nat) : Option Pkt := do
  if p.payloadSize + n ≤ p.buf.dataSize then return { p with buf := ← p.buf.pop n } else none

/-- The clone functions, and the move constructor they use: neither takes over `truncated_length`.
`/repo/src/bm_sim/packet.cpp:141-198,203-216`. -/
def Pkt.clone (p : Pkt) (junk : Bytes) : Option Pkt := do
  let b ← p.buf.clone p.buf.dataSize junk
  return Pkt.mk' b

/-- What happens to the data of a packet.  Snapshots are numbered. -/
inductive Op
  /-- the deparser puts headers in front -/
  | prepend (bs : Bytes)
  /-- the parser removes headers -/
  | remove (n : Nat)
  /-- bytes of the data are overwritten -/
  | overwrite (off : Nat) (bs : Bytes)
  /-- `save_buffer_state` -/
  | save
  /-- `restore_buffer_state` with snapshot `i` -/
  | restore (i : Nat)
  /-- `truncate` -/
  | truncate (n : Nat)
  deriving Repr, DecidableEq

/-- A packet and the snapshots that were taken, the oldest first. -/
structure St where
  pkt : Pkt
  snaps : List SavedSt
  deriving Repr, DecidableEq

/-- One operation.  `/repo/include/bm/bm_sim/packet.h:181-215`. -/
def St.exec (s : St) : Op → Option St
  | .prepend bs => do return { s with pkt := ← s.pkt.prepend bs }
  | .remove n => do return { s with pkt := ← s.pkt.remove n }
  | .overwrite off bs =>
    if off + bs.length ≤ s.pkt.buf.dataSize then do
      let b ← s.pkt.buf.write off bs
      return { s with pkt := { s.pkt with buf := b } }
    else none
  | .save => some { s with snaps := s.snaps ++ [s.pkt.buf.save] }
  | .restore i => do
    let x ← s.snaps[i]?
    return { s with pkt := { s.pkt with buf := s.pkt.buf.restore x } }
  | .truncate n => some { s with pkt := s.pkt.truncate n }

/-- Operations one after the other. -/
def St.run (s : St) : List Op → Option St
  | [] => some s
  | o :: os => do (← s.exec o).run os

/-- Receiving a packet in `simple_switch`, `psa_switch` and `pna_nic`: a buffer with 512 bytes to spare.
`/repo/targets/simple_switch/simple_switch.cpp:236-237`, `/repo/targets/psa_switch/psa_switch.cpp:189-190`,
`/repo/targets/pna_nic/pna_nic.cpp:81-82`. -/
def receive (data junk : Bytes) : Option Pkt := do return Pkt.mk' (← mkData (data.length + 512) data junk)

/-- Receiving a packet in `l2_switch` and `simple_router`: a buffer of 2048 bytes.
`/repo/targets/l2_switch/l2_switch.cpp:58-59`, `/repo/targets/simple_router/simple_router.cpp:50-51`. -/
def receive2048 (data junk : Bytes) : Option Pkt := do return Pkt.mk' (← mkData 2048 data junk)

/-- One pass of a packet that is recirculated: headers removed by the parser, headers put in front by the
deparser, `clone_no_phv_ptr`.  `/repo/targets/simple_switch/simple_switch.cpp:502-530,733-747`. -/
def pass (p : Pkt) (n : Nat) (hdrs junk : Bytes) : Option Pkt := do
  let p ← p.remove n
  let p ← p.prepend hdrs
  p.clone junk

/-- Several passes, each with what it removes, what it puts in front and the content of new memory. -/
def passes (p : Pkt) : List (Nat × Bytes × Bytes) → Option Pkt
  | [] => some p
  | (n, hdrs, junk) :: r => do passes (← pass p n hdrs junk) r

/-- `Deparser::deparse` with method calls (`deparser_ops`), which may change the header vector after the
size of the headers was computed; `calls` is what they do.  Checksums are updated before (C16, C42).
`/repo/src/bm_sim/deparser.cpp:56-92`. -/
def deparseCalls (calls : Phv → Option Phv) (p : Phv) (order : List Nat) (room payload : Bytes) :
    Option (Phv × Bytes) := do
  let n ← Parse.headersSize p order
  if n ≤ room.length then
    let p ← calls p
    return (p, ← Parse.emit p order (room.drop (room.length - n) ++ payload))
  else none

end Bm.PBuf
