import Verif.Model.LookupStructures
import Mathlib.Data.List.Sort

/-!
# Model of `MatchKeyBuilder`

Transcribes the key builder of `/repo/src/bm_sim/match_units.cpp:38-603` and
`/repo/include/bm/bm_sim/match_units.h:41-160`: how the match fields of a table are reordered,
how match parameters become a table key, how the key of a packet is assembled, and how an entry
is turned back into match parameters.

Simplifications: header and field identifiers are replaced by the field bytes themselves when the
packet key is assembled; field names are dropped; `std::sort` is an insertion sort (the order is
total, so the result is the same).  `std::vector::at` out of range, reads or writes
outside a container and failed assertions are the outcome `none`.
-/

namespace Bm

/-- `MatchKeyParam::Type`.  `/repo/include/bm/bm_sim/match_units.h:47-53`. -/
inductive MType
  | range | valid | exact | lpm | ternary
deriving DecidableEq, Repr

/-- The underlying integer, used to order the fields.
`/repo/include/bm/bm_sim/match_units.h:42-53`. -/
def MType.toNat : MType → Nat
  | .range => 0 | .valid => 1 | .exact => 2 | .lpm => 3 | .ternary => 4

/-- `MatchKeyParam`; `prefix_length` is an `int`.
`/repo/include/bm/bm_sim/match_units.h:55-72`. -/
structure MParam where
  type : MType
  key : Bytes
  mask : Bytes := []
  prefixLength : Int := 0
deriving DecidableEq, Repr

/-- `KeyF` together with the static mask passed to `push_back_field` (`none`: the overload
without a mask).  `/repo/include/bm/bm_sim/match_units.h:126-131`,
`/repo/src/bm_sim/match_units.cpp:149-174`. -/
structure KeyF where
  mtype : MType
  nbits : Nat
  smask : Option Bytes := none
deriving DecidableEq, Repr

/-- `nbits_to_nbytes`.  `/repo/src/bm_sim/match_units.cpp:40-42`. -/
def nbitsToNbytes (n : Nat) : Nat := (n + 7) / 8

/-- Bytes of a field. -/
def KeyF.nbytes (f : KeyF) : Nat := nbitsToNbytes f.nbits

/-- The element of `masks` for this field.  `/repo/src/bm_sim/match_units.cpp:140-174`. -/
def KeyF.maskBytes (f : KeyF) : Bytes := f.smask.getD (List.replicate f.nbytes 0xff)

/-- A built `MatchKeyBuilder`.  `/repo/include/bm/bm_sim/match_units.h:146-159`. -/
structure KeyB where
  keyInput : List KeyF
  keyMapping : List Nat
  invMapping : List Nat
  keyOffsets : List Nat
  nbytesKey : Nat
  hasBigMask : Bool
  bigMask : Bytes
deriving Repr

/-- `static_cast<int>(key_input[i].mtype)`.  `/repo/src/bm_sim/match_units.cpp:103-104`. -/
def typeAt (fs : List KeyF) (i : Nat) : Nat :=
  match fs[i]? with | some f => f.mtype.toNat | none => 0

/-- `sort_fn`, as a non-strict order on indices.  `/repo/src/bm_sim/match_units.cpp:102-107`. -/
def sortLe (fs : List KeyF) (i j : Nat) : Bool :=
  if typeAt fs i = typeAt fs j then decide (i ≤ j) else decide (typeAt fs i < typeAt fs j)

/-- `std::copy` of `c` into `x` at an offset; `none` when it does not fit. -/
def overwrite (x : Bytes) (off : Nat) (c : Bytes) : Option Bytes :=
  if off + c.length ≤ x.length then some (x.take off ++ c ++ x.drop (off + c.length)) else none

/-- Running sum of field sizes.  `/repo/src/bm_sim/match_units.cpp:118-123`. -/
def runningOffsets : Nat → List KeyF → List Nat
  | _, [] => []
  | o, f :: fs => o :: runningOffsets (o + f.nbytes) fs

/-- Copy the static masks into the big mask.  `/repo/src/bm_sim/match_units.cpp:128-130`. -/
def copyMasks : Bytes → List KeyF → List Nat → Option Bytes
  | x, f :: fs, o :: os => do copyMasks (← overwrite x o f.maskBytes) fs os
  | x, [], [] => some x
  | _, _, _ => none

/-- `push_back_*` for each field, then `build`.
`/repo/src/bm_sim/match_units.cpp:92-174`. -/
def KeyB.build (fs : List KeyF) : Option KeyB := do
  if fs.any (fun f => decide (f.maskBytes.length ≠ f.nbytes)) then none  -- assert, line 162
  let n := fs.length
  let inv := (List.range n).insertionSort (fun i j => sortLe fs i j = true)
  let keyInput ← inv.mapM fun idx => fs[idx]?
  let keyMapping ← inv.foldlM (fun (km : List Nat) idx => do
    let p ← inv[idx]?
    if p < km.length then some (km.set p idx) else none) (List.replicate n 0)
  let offsets := runningOffsets 0 keyInput
  let keyOffsets ← keyMapping.mapM fun j => offsets[j]?
  let nbytesKey := (fs.map KeyF.nbytes).sum
  let bigMask ← copyMasks (List.replicate nbytesKey 0) fs keyOffsets
  return { keyInput, keyMapping, invMapping := inv, keyOffsets, nbytesKey,
           hasBigMask := fs.any (fun f => f.smask.isSome), bigMask }

/-- `ByteContainer::apply_mask`.  `/repo/include/bm/bm_sim/bytecontainer.h:252-256`. -/
def applyMask (x m : Bytes) : Option Bytes :=
  if x.length = m.length then some (List.zipWith (· &&& ·) x m) else none

/-- `apply_big_mask`.  `/repo/src/bm_sim/match_units.cpp:176-180`. -/
def KeyB.applyBigMask (kb : KeyB) (x : Bytes) : Option Bytes :=
  if kb.hasBigMask then applyMask x kb.bigMask else some x

/-- `operator()`: the key of a packet, from the bytes of its match fields listed in declaration
order (a byte 0 or 1 for a validity match, zero bytes for a field of an invalid header).
`/repo/src/bm_sim/match_units.cpp:182-206`. -/
def KeyB.packetKey (kb : KeyB) (vals : List Bytes) : Option Bytes := do
  let l ← kb.invMapping.mapM fun i => vals[i]?
  kb.applyBigMask l.flatten

/-- Read `n` bytes at an offset; `none` when out of range. -/
def slice (x : Bytes) (off n : Nat) : Option Bytes :=
  if off + n ≤ x.length then some ((x.drop off).take n) else none

/-- `key_to_fields`.  `/repo/src/bm_sim/match_units.cpp:208-222`. -/
def KeyB.keyToFields (kb : KeyB) (key : Bytes) : Option (List Bytes) :=
  (List.range kb.keyMapping.length).mapM fun i => do
    let imp ← kb.keyMapping[i]?
    let f ← kb.keyInput[imp]?
    let off ← kb.keyOffsets[i]?
    slice key off f.nbytes

/-- `pref_len_from_mask` for one byte: the bit count of a `char` (signed).
`/repo/src/bm_sim/match_units.cpp:258-261`. -/
def popByte (c : BitVec 8) : Nat :=
  let c := c - ((c.sshiftRight 1) &&& 0x55#8)
  let c := (c &&& 0x33#8) + ((c.sshiftRight 2) &&& 0x33#8)
  ((c + c.sshiftRight 4) &&& 0x0f#8).toNat

/-- `pref_len_from_mask`.  `/repo/src/bm_sim/match_units.cpp:249-264`. -/
def prefLenFromMask : Bytes → Nat
  | [] => 0
  | b :: bs => (if b = 0xff then 8 else popByte b.toBitVec) + prefLenFromMask bs

/-- `create_mask_from_pref_len`; writing outside the string is `none`.
`/repo/src/bm_sim/match_units.cpp:266-275`. -/
def createMask (p size : Nat) : Option Bytes :=
  if p / 8 ≤ size then
    let m := List.replicate (p / 8) (0xff : UInt8) ++ List.replicate (size - p / 8) 0
    if p % 8 ≠ 0 then
      if p / 8 < size then some (m.set (p / 8) (UInt8.ofNat (0xff <<< (8 - p % 8)))) else none
    else some m
  else none

/-- `get_byte0_mask`.  `/repo/src/bm_sim/match_units.cpp:284-288`. -/
def byte0Mask (bitwidth : Nat) : UInt8 :=
  if bitwidth % 8 = 0 then 0xff else UInt8.ofNat ((1 <<< (bitwidth % 8)) - 1)

/-- `data[i] &= m`. -/
def andAt (x : Bytes) (i : Nat) (m : UInt8) : Option Bytes := do
  let b ← x[i]?
  return x.set i (b &&& m)

/-- The loops over `inv_mapping` that fill `data`: append the parameter and mask its first byte.
`/repo/src/bm_sim/match_units.cpp:424-430,444-448,512-516`. -/
def fillData (ps : List MParam) : List (Nat × KeyF) → Nat → Bytes → Option Bytes
  | [], _, d => some d
  | (i, f) :: r, firstByte, d => do
    let p ← ps[i]?
    let d ← andAt (d ++ p.key) firstByte (byte0Mask f.nbits)
    fillData ps r (firstByte + p.key.length) d

/-- The mask appended for one parameter.  `/repo/src/bm_sim/match_units.cpp:517-532`.
(`append("\xff")` is one byte; a negative prefix length never gets here.) -/
def paramMask (p : MParam) : Option Bytes :=
  match p.type with
  | .valid => some [0xff]
  | .exact => some (List.replicate p.key.length 0xff)
  | .lpm => createMask p.prefixLength.toNat p.key.length
  | .range => some p.mask
  | .ternary => some p.mask

/-- The loop that fills `mask`.  `/repo/src/bm_sim/match_units.cpp:512-534`. -/
def fillMask (ps : List MParam) : List Nat → Option Bytes
  | [] => some []
  | i :: r => do
    let p ← ps[i]?
    let m ← paramMask p
    return m ++ (← fillMask ps r)

/-- Contribution to the LPM prefix length.  `/repo/src/bm_sim/match_units.cpp:449-462`. -/
def paramPrefix (p : MParam) : Option Nat :=
  match p.type with
  | .valid => some 8
  | .exact => some (p.key.length <<< 3)
  | .lpm => some p.prefixLength.toNat
  | .range => none
  | .ternary => none

/-- `match_params_sanity_check` for one field.  `/repo/src/bm_sim/match_units.cpp:563-584`.  The
comparison of `prefix_length` converts it to `size_t`, so negative lengths are refused. -/
def paramOk (f : KeyF) (p : MParam) : Bool :=
  decide (p.type = f.mtype) && decide (p.key.length = f.nbytes) &&
  match p.type with
  | .valid => true
  | .exact => true
  | .lpm => decide (0 ≤ p.prefixLength ∧ p.prefixLength ≤ (f.nbits : Int))
  | .ternary => decide (p.mask.length = f.nbytes)
  | .range => decide (p.mask.length = f.nbytes) &&
      (match memcmpFrom p.key p.mask 0 f.nbytes with
       | some .gt => false
       | some _ => true
       | none => false)

/-- `match_params_sanity_check`.  `/repo/src/bm_sim/match_units.cpp:553-587`. -/
def KeyB.sanityCheck (kb : KeyB) (ps : List MParam) : Option Bool :=
  if ps.length ≠ kb.keyInput.length then some false
  else do
    let l ← (kb.invMapping.zip kb.keyInput).mapM fun (i, f) => (ps[i]?).map (paramOk f)
    return l.all id

/-- `match_params_to_entry` for exact tables.  `/repo/src/bm_sim/match_units.cpp:416-433`. -/
def KeyB.toExact (kb : KeyB) (ps : List MParam) : Option Bytes :=
  fillData ps (kb.invMapping.zip kb.keyInput) 0 []

/-- `match_params_to_entry` for LPM tables.  `/repo/src/bm_sim/match_units.cpp:435-467`. -/
def KeyB.toLpm (kb : KeyB) (ps : List MParam) : Option LpmKey := do
  let data ← fillData ps (kb.invMapping.zip kb.keyInput) 0 []
  let l ← kb.invMapping.mapM fun i => (ps[i]?).bind paramPrefix
  return { data, prefixLength := l.sum }

/-- `format_ternary_key` from offset `w` on.  `/repo/src/bm_sim/match_units.cpp:277-282`. -/
def formatTernary (data mask : Bytes) (w : Nat) : Option Bytes :=
  if data.length = mask.length ∧ w ≤ data.length then
    some (data.take w ++ List.zipWith (· &&& ·) (data.drop w) (mask.drop w))
  else none

/-- `match_params_to_entry` for ternary tables.  `/repo/src/bm_sim/match_units.cpp:469-480`. -/
def KeyB.toTern (kb : KeyB) (ps : List MParam) (priority : Int) : Option TernKey := do
  let data ← fillData ps (kb.invMapping.zip kb.keyInput) 0 []
  let mask ← fillMask ps kb.invMapping
  let data ← formatTernary data mask 0
  return { data, mask, priority }

/-- `match_params_to_entry` for range tables.  `/repo/src/bm_sim/match_units.cpp:482-503`. -/
def KeyB.toRange (kb : KeyB) (ps : List MParam) (priority : Int) : Option RangeKey := do
  let data ← fillData ps (kb.invMapping.zip kb.keyInput) 0 []
  let mask ← fillMask ps kb.invMapping
  let l ← kb.invMapping.mapM fun i => ps[i]?
  let widths := (l.filter (fun p => p.type = .range)).map (fun p => p.key.length)
  let data ← formatTernary data mask widths.sum
  return { data, mask, priority, rangeWidths := widths }

/-- `build_entry_from_match_key`; inner `none` is `BAD_MATCH_KEY`.
`/repo/src/bm_sim/match_units.cpp:911-937`. -/
def KeyB.buildExact (kb : KeyB) (ps : List MParam) : Option (Option Bytes) := do
  if !(← kb.sanityCheck ps) then return none
  let k ← kb.toExact ps
  return some (← kb.applyBigMask k)

/-- `build_entry_from_match_key`, LPM.  `/repo/src/bm_sim/match_units.cpp:911-937`. -/
def KeyB.buildLpm (kb : KeyB) (ps : List MParam) : Option (Option LpmKey) := do
  if !(← kb.sanityCheck ps) then return none
  let k ← kb.toLpm ps
  return some { k with data := ← kb.applyBigMask k.data }

/-- `build_entry_from_match_key`, ternary.  `/repo/src/bm_sim/match_units.cpp:911-937`. -/
def KeyB.buildTern (kb : KeyB) (ps : List MParam) (priority : Int) : Option (Option TernKey) := do
  if !(← kb.sanityCheck ps) then return none
  let k ← kb.toTern ps priority
  return some { k with data := ← kb.applyBigMask k.data }

/-- `build_entry_from_match_key`, range.  `/repo/src/bm_sim/match_units.cpp:911-937`. -/
def KeyB.buildRange (kb : KeyB) (ps : List MParam) (priority : Int) :
    Option (Option RangeKey) := do
  if !(← kb.sanityCheck ps) then return none
  let k ← kb.toRange ps priority
  return some { k with data := ← kb.applyBigMask k.data }

/-- The loop common to the `entry_to_match_params`: the slices of the entry, in declaration order.
`/repo/src/bm_sim/match_units.cpp:301-312,326-336,358-392`. -/
def KeyB.slices (kb : KeyB) {α : Type} (g : KeyF → Nat → Option α) : Option (List α) :=
  (List.range kb.keyMapping.length).mapM fun i => do
    let imp ← kb.keyMapping[i]?
    let f ← kb.keyInput[imp]?
    let off ← kb.keyOffsets[i]?
    g f off

/-- `entry_to_match_params`, exact.  `/repo/src/bm_sim/match_units.cpp:294-315`. -/
def KeyB.fromExact (kb : KeyB) (key : Bytes) : Option (List MParam) :=
  kb.slices fun f off => do
    let s ← slice key off f.nbytes
    if f.mtype = .valid ∨ f.mtype = .exact then return { type := f.mtype, key := s } else none

/-- `entry_to_match_params`, LPM: the last LPM field (field 0 if there is none) gets the prefix
length.  `/repo/src/bm_sim/match_units.cpp:317-349`. -/
def KeyB.fromLpm (kb : KeyB) (key : LpmKey) : Option (List MParam) := do
  let l ← kb.slices fun f off => do
    let s ← slice key.data off f.nbytes
    if f.mtype = .ternary then none else return ({ type := f.mtype, key := s } : MParam)
  let pref : Int := key.prefixLength -
    (((l.filter (fun p => p.type ≠ .lpm)).map (fun p => p.key.length <<< 3)).sum : Nat)
  let idx := ((List.range l.length).filter fun i => (l[i]?).any (fun p => p.type = .lpm)).getLast?.getD 0
  let p ← l[idx]?
  return l.set idx { p with prefixLength := pref }

/-- `entry_to_match_params`, ternary and range.
`/repo/src/bm_sim/match_units.cpp:351-405`. -/
def KeyB.fromTern (kb : KeyB) (data mask : Bytes) : Option (List MParam) :=
  kb.slices fun f off => do
    let s ← slice data off f.nbytes
    match f.mtype with
    | .valid => return { type := .valid, key := s }
    | .exact => return { type := .exact, key := s }
    | .range => return { type := .range, key := s, mask := ← slice mask off f.nbytes }
    | .ternary => return { type := .ternary, key := s, mask := ← slice mask off f.nbytes }
    | .lpm => return { type := .lpm, key := s,
                       prefixLength := prefLenFromMask (← slice mask off f.nbytes) }

end Bm
