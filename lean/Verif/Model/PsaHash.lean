import Verif.Model.Field

/-!
# Model of the extern `Hash` of psa_switch

`/repo/targets/psa_switch/externs/psa_hash.cpp`.  The hash function is any function
of the bytes of the buffer; see `Verif.Model.Hash` and `Verif.Model.Crc` for those of the
`CalculationsMap`.  Sizes are not bounded (the code has `int`).
-/

namespace Bm.PsaHash

/-- One round of the second loop of `build_buffer`: the bytes before the pointer are put back in front.
`/repo/targets/psa_switch/externs/psa_hash.cpp:25-27`. -/
def put (f : Field) (buf : Bytes) (nbits : Nat) : Option (Bytes × Nat) := do
  let d ← f.deparse (buf.drop (nbits / 8)) (nbits % 8)
  return (buf.take (nbits / 8) ++ d, nbits + f.nbits)

/-- The second loop of `build_buffer`.  `/repo/targets/psa_switch/externs/psa_hash.cpp:24-28`. -/
def fill : List Field → Bytes → Nat → Option Bytes
  | [], buf, _ => some buf
  | f :: fs, buf, nbits => do
    let st ← put f buf nbits
    fill fs st.1 st.2

/-- The first loop of `build_buffer`.  `/repo/targets/psa_switch/externs/psa_hash.cpp:16-20`. -/
def totalBits (fs : List Field) : Nat := fs.foldl (fun n f => n + f.nbits) 0

/-- `build_buffer`.  `/repo/targets/psa_switch/externs/psa_hash.cpp:14-30`. -/
def buildBuffer (fs : List Field) : Option Bytes :=
  let nbits := totalBits fs
  let nbytes := (nbits + 7) / 8
  fill fs (List.replicate nbytes 0) (nbytes * 8 - nbits)

/-- `get_hash`; `inv` as in `Field.set`.  `/repo/targets/psa_switch/externs/psa_hash.cpp:43-48`. -/
def getHash (hash : Bytes → BitVec 64) (dst : Field) (inv : Bool) (fs : List Field) : Option Field := do
  let buf ← buildBuffer fs
  dst.set inv (hash buf).toNat

/-- `get<uint64_t>()`; values that do not fit are left open.  `/repo/include/bm/bm_sim/data.h:175-181`. -/
def getU64 (v : Int) : Option (BitVec 64) :=
  if 0 ≤ v ∧ v < 2 ^ 64 then some (BitVec.ofNat 64 v.toNat) else none

/-- `base + hash % max` of `uint64_t`; `max = 0` is undefined.
`/repo/targets/psa_switch/externs/psa_hash.cpp:54`. -/
def inRange (base max h : BitVec 64) : Option (BitVec 64) :=
  if max = 0 then none else some (base + h % max)

/-- `get_hash_mod`.  `/repo/targets/psa_switch/externs/psa_hash.cpp:50-56`. -/
def getHashMod (hash : Bytes → BitVec 64) (dst : Field) (inv : Bool) (base : Int) (fs : List Field)
    (max : Int) : Option Field := do
  let buf ← buildBuffer fs
  let result ← inRange (← getU64 base) (← getU64 max) (hash buf)
  dst.set inv result.toNat

end Bm.PsaHash
