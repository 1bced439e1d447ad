import Verif.Model.LookupStructures
import Verif.Model.CrcTables

/-!
# Model of the CRC calculations

`/repo/src/bm_sim/calculations.cpp:129-147,155-299`.  A value of the unsigned type `T` is a `BitVec w`;
the code uses the widths 8, 16, 32 and 64.  The loop counter of the code is `unsigned int`, so a buffer
of `2^32` bytes or more would never be finished; not modelled.  Access outside a table is `none`.
-/

namespace Bm.Crc

/-- The loop of `reflect`, `n` iterations from iteration `bit` on.
`/repo/src/bm_sim/calculations.cpp:138-144`. -/
def reflectLoop {w : Nat} (nBits : Nat) : Nat → Nat → BitVec w → BitVec w → BitVec w
  | 0, _, _, reflection => reflection
  | n + 1, bit, data, reflection =>
    let reflection :=
      if data.getLsbD 0 then reflection ||| (1#w <<< ((nBits - 1) - bit)) else reflection
    reflectLoop nBits n (bit + 1) (data >>> 1) reflection

/-- `reflect`.  `/repo/src/bm_sim/calculations.cpp:132-147`. -/
def reflect {w : Nat} (data : BitVec w) (nBits : Nat) : BitVec w := reflectLoop nBits nBits 0 data 0#w

/-- `crc_config_t`.  `/repo/include/bm/bm_sim/calculations.h:351-358`. -/
structure Config (w : Nat) where
  polynomial : BitVec w
  initialRemainder : BitVec w
  finalXor : BitVec w
  dataReflected : Bool
  remainderReflected : Bool

/-- One iteration of the inner loop of `recompute_crc_table`.
`/repo/src/bm_sim/calculations.cpp:260-264`. -/
def divideBit {w : Nat} (polynomial remainder : BitVec w) : BitVec w :=
  if remainder.getLsbD (w - 1) then (remainder <<< 1) ^^^ polynomial else remainder <<< 1

/-- The inner loop, `n` iterations.  `/repo/src/bm_sim/calculations.cpp:258-265`. -/
def divideBits {w : Nat} (polynomial : BitVec w) : Nat → BitVec w → BitVec w
  | 0, r => r
  | n + 1, r => divideBits polynomial n (divideBit polynomial r)

/-- `recompute_crc_table`.  `/repo/src/bm_sim/calculations.cpp:252-270`. -/
def mkTable {w : Nat} (polynomial : BitVec w) : List (BitVec w) :=
  (List.range 256).map fun dividend =>
    divideBits polynomial 8 (BitVec.ofNat w dividend <<< (w - 8))

/-- The loop over the bytes in all the functions: `reflected` says whether the bytes are reflected.
(`crc16` and `crc32` convert the `char` without going through `unsigned char`; only its low 8 bits are
used.)  `/repo/src/bm_sim/calculations.cpp:159-162,230-236,281-284,293-296`. -/
def loop {w : Nat} (table : List (BitVec w)) (reflected : Bool) : Bytes → BitVec w → Option (BitVec w)
  | [], r => some r
  | b :: bs, r => do
    let byte := BitVec.ofNat w b.toNat
    let data := (if reflected then reflect byte 8 else byte) ^^^ (r >>> (w - 8))
    let entry ← table[data.toNat]?
    loop table reflected bs (entry ^^^ (r <<< 8))

/-- `crc_custom::operator()`, with the table that belongs to the configuration.
`/repo/src/bm_sim/calculations.cpp:224-240`. -/
def custom {w : Nat} (c : Config w) (table : List (BitVec w)) (buf : Bytes) : Option (BitVec w) := do
  let r ← loop table c.dataReflected buf c.initialRemainder
  return (if c.remainderReflected then reflect r w else r) ^^^ c.finalXor

/-- `crc16`.  `/repo/src/bm_sim/calculations.cpp:155-165`. -/
def crc16 (buf : Bytes) : Option (BitVec 16) := do
  return reflect (← loop table16 true buf 0x0000) 16 ^^^ 0x0000

/-- `crc32`.  `/repo/src/bm_sim/calculations.cpp:277-287`. -/
def crc32 (buf : Bytes) : Option (BitVec 32) := do
  return reflect (← loop table32 true buf 0xFFFFFFFF) 32 ^^^ 0xFFFFFFFF

/-- `crcCCITT`.  `/repo/src/bm_sim/calculations.cpp:289-299`. -/
def crcCCITT (buf : Bytes) : Option (BitVec 16) := do
  return (← loop tableCCITT false buf 0xFFFF) ^^^ 0x0000

/-- A `crc_custom` object: configuration and table.  `/repo/src/bm_sim/calculations.cpp:272-273`. -/
structure Obj (w : Nat) where
  config : Config w
  table : List (BitVec w)

/-- The constructor, with the configuration of `crc_custom_init`.
`/repo/src/bm_sim/calculations.cpp:219-222`. -/
def Obj.new {w : Nat} (c : Config w) : Obj w := ⟨c, mkTable c.polynomial⟩

/-- `update_config`.  `/repo/src/bm_sim/calculations.cpp:242-249`. -/
def Obj.update {w : Nat} (_ : Obj w) (c : Config w) : Obj w := ⟨c, mkTable c.polynomial⟩

/-- `crc_custom_init`.  `/repo/src/bm_sim/calculations.cpp:179-180`. -/
def init8 : Config 8 := ⟨0x07, 0x00, 0x00, false, false⟩
/-- `crc_custom_init`.  `/repo/src/bm_sim/calculations.cpp:189-190`. -/
def init16 : Config 16 := ⟨0x8005, 0x0000, 0x0000, true, true⟩
/-- `crc_custom_init`.  `/repo/src/bm_sim/calculations.cpp:199-200`. -/
def init32 : Config 32 := ⟨0x04c11db7, 0xffffffff, 0xffffffff, true, true⟩
/-- `crc_custom_init`.  `/repo/src/bm_sim/calculations.cpp:209-211`. -/
def init64 : Config 64 := ⟨0x000000000000001b, 0x0000000000000000, 0x0000000000000000, true, true⟩

end Bm.Crc
