import Verif.Model.Field

/-!
# Model of `Header`

`/repo/src/bm_sim/headers.cpp` and `/repo/include/bm/bm_sim/headers.h`.  The header type is reduced to
its id and the position of its variable-length field; the length expression of that field is not
evaluated here, its result is an argument.  Union membership is in `Verif.Model.HeaderUnion`.
-/

namespace Bm

open Extract

/-- `class Header`.  `/repo/include/bm/bm_sim/headers.h:315-323`. -/
structure Header where
  typeId : Nat
  vlOffset : Option Nat
  fields : List Field
  valid : Bool
  metadata : Bool
  nbytesPacket : Nat
  deriving Repr, DecidableEq

namespace Header

/-- What a header type says of a field.  `/repo/include/bm/bm_sim/headers.h:46-53`. -/
structure FInfo where
  bitwidth : Nat
  isSigned : Bool
  isSaturating : Bool
  isVL : Bool
  isHidden : Bool
  arith : Bool

/-- The hidden field `$valid$`, at the end of every header.  `/repo/src/bm_sim/headers.cpp:43-47`. -/
def validInfo (arith : Bool) : FInfo := ⟨1, false, false, false, true, arith⟩

/-- Constructor; the widths of the visible fields add up to whole bytes.
`/repo/src/bm_sim/headers.cpp:127-160`. -/
def mk' (typeId : Nat) (vlOffset : Option Nat) (infos : List FInfo) (metadata : Bool) :
    Option Header := do
  let fields ← infos.mapM fun i =>
    Field.mk' i.bitwidth i.arith i.isSigned i.isHidden i.isVL i.isSaturating
  let n := ((infos.filter (!·.isHidden)).map (·.bitwidth)).sum
  if n % 8 = 0 then
    return { typeId, vlOffset, fields, valid := false, metadata, nbytesPacket := n / 8 }
  else none

/-- `is_valid`.  `/repo/include/bm/bm_sim/headers.h:163-165`. -/
def isValid (h : Header) : Bool := h.metadata || h.valid

/-- `valid_field->set(v)`: the last field, which is hidden, so reading it is never refused.
`/repo/src/bm_sim/headers.cpp:149-150,177,184`. -/
def setValidField (h : Header) (v : Int) : Option Header := do
  let f ← h.fields[h.fields.length - 1]?
  return { h with fields := h.fields.set (h.fields.length - 1) (← f.set false v) }

/-- `mark_valid`, without the union.  `/repo/src/bm_sim/headers.cpp:174-179`. -/
def markValid (h : Header) : Option Header := ({ h with valid := true }).setValidField 1

/-- `mark_invalid`, without the union.  `/repo/src/bm_sim/headers.cpp:181-186`. -/
def markInvalid (h : Header) : Option Header := ({ h with valid := false }).setValidField 0

/-- One field of the loop: the variable-length one is extracted with its computed width.
`/repo/src/bm_sim/headers.cpp:217,233-237`. -/
def extractOne (vl : Option (Nat × Int)) (i : Nat) (f : Field) (data : Bytes) (hdrOffset : Nat) :
    Option Field :=
  match vl with
  | none => f.extract data hdrOffset
  | some (k, n) => if i = k then f.extractVL data hdrOffset n else f.extract data hdrOffset

/-- The loop of `extract` and of `extract_VL_common`; `vl` has the index of the variable-length field
and its computed width.  `/repo/src/bm_sim/headers.cpp:215-220,230-239`. -/
def extractFields (vl : Option (Nat × Int)) : Nat → List Field → Bytes → Nat → Option (List Field)
  | _, [], _, _ => some []
  | i, f :: fs, data, hdrOffset =>
    if f.hidden then some (f :: fs)
    else do
      let f ← extractOne vl i f data hdrOffset
      let hdrOffset := hdrOffset + f.nbits
      let fs ← extractFields vl (i + 1) fs (data.drop (hdrOffset / 8)) (hdrOffset % 8)
      return f :: fs

/-- The visible fields: hidden ones are at the end. -/
def visible (fs : List Field) : List Field := fs.takeWhile (!·.hidden)

/-- `extract`, and `extract_VL` with the width `n`.  `/repo/src/bm_sim/headers.cpp:211-245`. -/
def extract (h : Header) (data : Bytes) (n : Int) : Option Header :=
  match h.vlOffset with
  | none => do
    let fields ← extractFields none 0 h.fields data 0
    ({ h with fields }).markValid
  | some k => do
    let fields ← extractFields (some (k, n)) 0 h.fields data 0
    let bits := ((visible fields).map (·.nbits)).sum
    if bits % 8 = 0 then ({ h with fields, nbytesPacket := bits / 8 }).markValid else none

/-- The loop of `deparse`; the bytes before the pointer are put back in front.
`/repo/src/bm_sim/headers.cpp:266-271`. -/
def deparseFields : List Field → Bytes → Nat → Option Bytes
  | [], data, _ => some data
  | f :: fs, data, hdrOffset =>
    if f.hidden then some data
    else do
      let data ← f.deparse data hdrOffset
      let hdrOffset := hdrOffset + f.nbits
      let rest ← deparseFields fs (data.drop (hdrOffset / 8)) (hdrOffset % 8)
      return data.take (hdrOffset / 8) ++ rest

/-- `deparse`.  `/repo/src/bm_sim/headers.cpp:262-272`. -/
def deparse (h : Header) (data : Bytes) : Option Bytes := deparseFields h.fields data 0

/-- `reset`: `inv` for the visible fields.  `/repo/src/bm_sim/headers.cpp:188-192`. -/
def reset (h : Header) (inv : Bool) : Option Header := do
  return { h with fields := ← h.fields.mapM fun f => f.set (inv && !f.hidden) 0 }

/-- `copy_fields`; `inv`: the flag is set and the source is not valid.
`/repo/src/bm_sim/headers.cpp:302-308`. -/
def copyFields (h src : Header) (inv : Bool) : Header :=
  { h with fields := List.zipWith (fun f s => f.copyValue s (inv && !s.hidden)) h.fields src.fields,
           nbytesPacket := src.nbytesPacket }

/-- `swap_values`: what this header becomes, given the other one.
`/repo/src/bm_sim/headers.cpp:291-300`. -/
def swapped (h other : Header) : Header :=
  { h with valid := other.valid, fields := List.zipWith Field.swapped h.fields other.fields,
           nbytesPacket := other.nbytesPacket }

/-- `cmp`; comparing fields that do not take part in arithmetic fails an assertion.
`/repo/src/bm_sim/headers.cpp:310-315`, `/repo/include/bm/bm_sim/data.h:379-382`. -/
def cmpFields : List Field → List Field → Option Bool
  | [], [] => some true
  | f :: fs, g :: gs =>
    if f.arith && g.arith then
      if f.value = g.value then cmpFields fs gs else some false
    else none
  | _, _ => some false

/-- `cmp`.  Both headers are valid when their fields are read.
`/repo/src/bm_sim/headers.cpp:310-315`. -/
def cmp (h other : Header) : Option Bool :=
  if h.typeId = other.typeId ∧ h.isValid ∧ other.isValid then cmpFields h.fields other.fields
  else some false

end Header

end Bm
