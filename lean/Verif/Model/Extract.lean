import Verif.Model.LookupStructures

/-!
# Model of `generic_extract` and `generic_deparse`

Transcribes `/repo/src/bm_sim/extract.h:22-117`.  Buffers are lists of bytes; reading or writing
outside a buffer is `none`.  Callers pass bit offsets below 8 (`Header::extract` reduces them).
-/

namespace Bm.Extract

/-- `b << n` converted to `unsigned char`. -/
def shl (b : UInt8) (n : Nat) : UInt8 := UInt8.ofNat (b.toNat <<< n)

/-- `b >> n`. -/
def shr (b : UInt8) (n : Nat) : UInt8 := UInt8.ofNat (b.toNat >>> n)

/-- `memcpy(dst, src, n)`, the bytes copied. -/
def copyOf (src : Bytes) (n : Nat) : Option Bytes :=
  if n ≤ src.length then some (src.take n) else none

/-- `dst[i] = v`. -/
def setByte (dst : Bytes) (i : Nat) (v : UInt8) : Option Bytes :=
  if i < dst.length then some (dst.set i v) else none

/-- `dst[0] &= (0xFF >> n)`. -/
def mask0 (dst : Bytes) (n : Nat) : Option Bytes := do
  setByte dst 0 ((← dst[0]?) &&& shr 0xff n)

/-- `(udata[i] << off) | (udata[i + 1] >> (8 - off))`. -/
def two (data : Bytes) (off i : Nat) : Option UInt8 := do
  return shl (← data[i]?) off ||| shr (← data[i + 1]?) (8 - off)

/-- `generic_extract` with the bytes of `dst` afterwards; `dst` has `(bitwidth + 7) / 8` bytes, all of
them written.  The bytes assigned in the loops are listed in order.
`/repo/src/bm_sim/extract.h:22-61`. -/
def genericExtract (data : Bytes) (bitOffset bitwidth : Nat) : Option Bytes :=
  let nbytes := (bitwidth + 7) / 8
  if bitOffset = 0 ∧ bitwidth % 8 = 0 then copyOf data nbytes
  else if nbytes = 0 then none  -- `dst[0]` is outside `dst`
  else
    let dstOffset := 8 * nbytes - bitwidth
    if bitOffset = dstOffset then do
      mask0 (← copyOf data nbytes) dstOffset
    else if bitOffset > dstOffset then do
      let offset := bitOffset - dstOffset
      let l ← (List.range (nbytes - 1)).mapM (two data offset)
      let last ← data[nbytes - 1]?
      let dst ← mask0 (l ++ [shl last offset]) dstOffset
      if bitOffset + bitwidth > 8 * nbytes then
        setByte dst (nbytes - 1) ((← dst[nbytes - 1]?) ||| shr (← data[nbytes]?) (8 - offset))
      else return dst
    else do
      let offset := dstOffset - bitOffset
      let first := shr (← data[0]?) offset &&& shr 0xff dstOffset
      let l ← (List.range (nbytes - 1)).mapM (two data (8 - offset))
      return first :: l

/-- `dst[0] &= (~(0xFF >> hdr_offset))`. -/
def clear0 (dst : Bytes) (n : Nat) : Option Bytes := do
  setByte dst 0 ((← dst[0]?) &&& ~~~ shr 0xff n)

/-- `dst[i] |= v`. -/
def orByte (dst : Bytes) (i : Nat) (v : UInt8) : Option Bytes := do
  setByte dst i ((← dst[i]?) ||| v)

/-- Assigning consecutive bytes from index `i`. -/
def setBytes (dst : Bytes) (i : Nat) : Bytes → Option Bytes
  | [] => some dst
  | v :: vs => do setBytes (← setByte dst i v) (i + 1) vs

/-- `|=` on consecutive bytes from index `i`. -/
def orBytes (dst : Bytes) (i : Nat) : Bytes → Option Bytes
  | [] => some dst
  | v :: vs => do orBytes (← orByte dst i v) (i + 1) vs

/-- `generic_deparse`; `dst` afterwards.  `/repo/src/bm_sim/extract.h:63-117`. -/
def genericDeparse (data : Bytes) (bitwidth : Nat) (dst : Bytes) (hdrOffset : Nat) : Option Bytes :=
  let nbytes := (bitwidth + 7) / 8
  if bitwidth = 0 then some dst
  else if hdrOffset = 0 ∧ bitwidth % 8 = 0 then do setBytes dst 0 (← copyOf data nbytes)
  else do
    let fieldOffset := 8 * nbytes - bitwidth
    let hdrBytes := (hdrOffset + bitwidth + 7) / 8
    let dst ← clear0 dst hdrOffset
    if fieldOffset = hdrOffset then do
      let src ← copyOf data hdrBytes
      let dst ← setBytes dst 1 (src.drop 1)
      orByte dst 0 (← data[0]?)
    else if fieldOffset > hdrOffset then do
      let offset := fieldOffset - hdrOffset
      let dst ← setBytes dst 1 (List.replicate (hdrBytes - 1) 0)
      let l ← (List.range (hdrBytes - 1)).mapM (two data offset)
      let dst ← orBytes dst 0 l
      orByte dst (hdrBytes - 1) (shl (← data[hdrBytes - 1]?) offset)
    else do
      let offset := hdrOffset - fieldOffset
      let dst ← orByte dst 0 (shr (← data[0]?) offset)
      if nbytes = 1 then
        setByte dst 1 (shl (← data[0]?) (8 - offset))
      else do
        let l ← (List.range (hdrBytes - 2)).mapM (two data (8 - offset))
        let dst ← setBytes dst 1 l
        let tailOffset := 8 * hdrBytes - (hdrOffset + bitwidth)
        let i := hdrBytes - 1
        let dst ← setByte dst i ((← dst[i]?) &&& UInt8.ofNat (2 ^ tailOffset - 1))
        orByte dst i (shl (← data[i - 1]?) (8 - offset))

end Bm.Extract
