import Verif.Model.Data
import Verif.Model.Extract

/-!
# Model of `Field`

`/repo/include/bm/bm_sim/fields.h` and `/repo/src/bm_sim/fields.cpp`.  Debugger notifications and the
`written_to` flag are left out.  The static flag `ret_zero_on_invalid_hdr_read` and the validity of
the parent header appear as one argument `inv` (the flag is set and the parent header is not valid
and the field is not hidden); a warning logged on such a read has no other effect.
-/

namespace Bm

open Data Extract

/-- `class Field`.  `/repo/include/bm/bm_sim/fields.h:203-220`; `value` and `arith` from `Data`,
`/repo/include/bm/bm_sim/data.h:443,466`. -/
structure Field where
  nbits : Nat
  nbytes : Nat
  bytes : Bytes
  value : Int
  arith : Bool
  isSigned : Bool
  hidden : Bool
  vl : Bool
  isSaturating : Bool
  mask : Int
  max : Int
  min : Int
  deriving Repr, DecidableEq

namespace Field

/-- Constructor.  A signed field needs more than one bit.  `/repo/src/bm_sim/fields.cpp:26-44`. -/
def mk' (nbits : Nat) (arith isSigned hidden vl isSaturating : Bool) : Option Field :=
  if isSigned && nbits ≤ 1 then none
  else
    let mask : Int := 2 ^ nbits - 1
    some { nbits, nbytes := (nbits + 7) / 8, bytes := List.replicate ((nbits + 7) / 8) 0, value := 0,
           arith, isSigned, hidden, vl, isSaturating, mask,
           max := if isSigned then 2 ^ (nbits - 1) - 1 else mask,
           min := if isSigned then -2 ^ (nbits - 1) else 0 }

/-- `get_value`.  `/repo/src/bm_sim/fields.cpp:152-166`. -/
def getValue (f : Field) (inv : Bool) : Int := if inv then 0 else f.value

/-- `sync_value`.  `test_bit` of a signed field of no bits would test bit -1: signed fields have more
than one bit.  `/repo/include/bm/bm_sim/fields.h:61-71`. -/
def syncValue (f : Field) : Field :=
  let value := importBytes f.bytes
  { f with value :=
      if f.isSigned && testBit value (f.nbits - 1) then clearBit value (f.nbits - 1) + f.min
      else value }

/-- The saturation step of `export_bytes`.  `/repo/include/bm/bm_sim/fields.h:101-104`. -/
def saturate (f : Field) (value : Int) : Int :=
  if f.isSaturating then
    if value < f.min then f.min else if value > f.max then f.max else value
  else value

/-- The wrapping step of `export_bytes`.  `/repo/include/bm/bm_sim/fields.h:106-114`. -/
def wrap (f : Field) (value : Int) : Int :=
  if !f.isSigned then value.land f.mask
  else if value < f.min ∨ value > f.mask then
    let v := value.land f.mask
    if v > f.max then v - (f.mask + 1) else v
  else value

/-- The bytes written by `export_bytes` for the final value.
`/repo/include/bm/bm_sim/fields.h:97,109,115-122`. -/
def bytesFor (f : Field) (value : Int) : Option Bytes :=
  let zeros := f.bytes.map (fun _ => (0 : UInt8))
  if !f.isSigned ∨ value ≥ 0 then Data.exportBytes zeros f.nbytes value
  else Data.exportBytes zeros f.nbytes (value - f.min - f.min)

/-- `export_bytes`: `get_value` is read once, the result is written back if it differs.
`/repo/include/bm/bm_sim/fields.h:96-130`. -/
def exportBytes (f : Field) (inv : Bool) : Option Field := do
  let orig := f.getValue inv
  let value := f.wrap (f.saturate orig)
  let bytes ← f.bytesFor value
  return { f with bytes, value := if value ≠ orig then value else f.value }

/-- `Data::set(v)`: every assignment ends up here.  `/repo/include/bm/bm_sim/data.h:95-130`. -/
def set (f : Field) (inv : Bool) (v : Int) : Option Field := ({ f with value := v }).exportBytes inv

/-- `set_bytes`.  `/repo/include/bm/bm_sim/fields.h:55-59`. -/
def setBytes (f : Field) (l : Bytes) : Option Field :=
  if l.length = f.nbytes then
    let f := { f with bytes := l }
    some (if f.arith then f.syncValue else f)
  else none

/-- `extract`; the number of bits extracted is `nbits`.  `/repo/src/bm_sim/fields.cpp:67-74`. -/
def extract (f : Field) (data : Bytes) (hdrOffset : Nat) : Option Field := do
  let f := { f with bytes := ← genericExtract data hdrOffset f.nbits }
  return if f.arith then f.syncValue else f

/-- `extract_VL`.  A negative length makes `mask <<= nbits` throw.  For a signed field `max` and
`min` are shifted without being reset to 1 first (as in the code).
`/repo/src/bm_sim/fields.cpp:76-91`. -/
def extractVL (f : Field) (data : Bytes) (hdrOffset : Nat) (computed : Int) : Option Field :=
  if computed < 0 then none
  else
    let nbits := computed.toNat
    if f.isSigned && nbits ≤ 1 then none
    else
      let mask : Int := 2 ^ nbits - 1
      extract { f with
        nbits, nbytes := (nbits + 7) / 8, mask,
        max := if f.isSigned then f.max * 2 ^ (nbits - 1) - 1 else mask,
        min := if f.isSigned then f.min * 2 ^ (nbits - 1) * -1 else 0 } data hdrOffset

/-- `deparse`.  `/repo/src/bm_sim/fields.cpp:93-101`. -/
def deparse (f : Field) (data : Bytes) (hdrOffset : Nat) : Option Bytes :=
  genericDeparse f.bytes f.nbits data hdrOffset

/-- `copy_value`.  `/repo/src/bm_sim/fields.cpp:128-141`. -/
def copyValue (f src : Field) (inv : Bool) : Field :=
  let f := { f with value := src.getValue inv, bytes := src.bytes }
  if f.vl then
    { f with nbits := src.nbits, nbytes := src.nbytes, mask := src.mask, min := src.min,
             max := src.max }
  else f

/-- `swap_values`: what this field becomes, given the other one.
`/repo/src/bm_sim/fields.cpp:51-65`. -/
def swapped (f other : Field) : Field := f.copyValue other false

end Field

end Bm
