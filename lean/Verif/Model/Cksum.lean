import Verif.Model.LookupStructures

/-!
# Model of the two `cksum16` functions

`/repo/src/bm_sim/calculations.cpp:301-345`, `/repo/src/bm_sim/checksums.cpp:33-75`; the two bodies are
the same up to the last line.  Machine words are natural numbers below `2^64`, `2^32`, `2^16`.  Memory
is read through pointers to wider words; as everywhere in the model the machine is little-endian, and
reading unaligned words is taken to work.
-/

namespace Bm.Cksum

/-- `sum += s; if (sum < s) sum++;` on words of `w` bits.
`/repo/src/bm_sim/calculations.cpp:311-312,319-320,325-326,331-332,337-338,341-342`. -/
def addc (w sum s : Nat) : Nat :=
  let sum := (sum + s) % 2 ^ w
  if sum < s then (sum + 1) % 2 ^ w else sum

/-- The word stored in the bytes, least significant byte first. -/
def le : Bytes → Nat
  | [] => 0
  | b :: bs => b.toNat + 256 * le bs

/-- The loop over 8 bytes at a time: the sum, and what is left of the buffer.
`/repo/src/bm_sim/calculations.cpp:309-314`. -/
def mainLoop : Bytes → Nat → Nat × Bytes
  | b0 :: b1 :: b2 :: b3 :: b4 :: b5 :: b6 :: b7 :: bs, sum =>
    mainLoop bs (addc 64 sum (le [b0, b1, b2, b3, b4, b5, b6, b7]))
  | bs, sum => (sum, bs)

/-- One step for the rest of the buffer, `len` bytes long: if bit `k` of `len` is set, add the next `k`
bytes.  `/repo/src/bm_sim/calculations.cpp:317-333`. -/
def tailStep (len k : Nat) (s : Nat × Bytes) : Nat × Bytes :=
  if len &&& k ≠ 0 then (addc 64 s.1 (le (s.2.take k)), s.2.drop k) else s

/-- The sum folded to 16 bits, `t3`.  `/repo/src/bm_sim/calculations.cpp:335-342`. -/
def fold (sum : Nat) : Nat :=
  let t1 := sum % 2 ^ 32
  let t2 := sum / 2 ^ 32 % 2 ^ 32
  let t1 := addc 32 t1 t2
  let t3 := t1 % 2 ^ 16
  let t4 := t1 / 2 ^ 16 % 2 ^ 16
  addc 16 t3 t4

/-- Both functions up to `~t3`.  `/repo/src/bm_sim/calculations.cpp:303-343`. -/
def core (buf : Bytes) : Nat :=
  let s := mainLoop buf 0
  let len := s.2.length
  let s := tailStep len 1 (tailStep len 2 (tailStep len 4 s))
  2 ^ 16 - 1 - fold s.1

/-- `ntohs`. -/
def swap16 (x : Nat) : Nat := x % 256 * 256 + x / 256 % 256

/-- The `cksum16` and `csum16` calculations.  `/repo/src/bm_sim/calculations.cpp:301-351`. -/
def cksum16 (buf : Bytes) : Nat := swap16 (core buf)

/-- `cksum16` of the checksum engine, as the two bytes in memory.
`/repo/src/bm_sim/checksums.cpp:33-75`. -/
def cksum16Bytes (buf : Bytes) : Bytes := [(core buf % 256).toUInt8, (core buf / 256).toUInt8]

end Bm.Cksum
