import Verif.Lemmas.Field
import Verif.Lemmas.Phv

/-!
# What assigning a header, a union or a stack means

After `d = s` the destination is what the source is: valid or not, and if it is valid every field has
the same width, value and bytes.  Everything else is as before, apart from the other members of the
union of `d`.
-/

namespace Bm.Assign.Spec

open Bm.Spec

/-- What the type of a header says of a field: the width, unless it varies. -/
structure Sig where
  isSigned : Bool
  hidden : Bool
  vl : Bool
  isSaturating : Bool
  width : Nat
deriving DecidableEq, Repr

/-- Of a field. -/
def sig (f : Field) : Sig := ⟨f.isSigned, f.hidden, f.vl, f.isSaturating, if f.vl then 0 else f.nbits⟩

/-- Of the hidden field `$valid$`. -/
def validSig : Sig := ⟨false, true, false, false, 1⟩

/-- The value and the bytes of the field say the same, and the value is one the field can have. -/
structure Whole (f : Field) : Prop where
  shape : f.Shape
  low : f.kind.lowest ≤ f.value
  high : f.value < 2 ^ f.nbits
  sat : f.isSaturating = true → f.value ≤ f.kind.highest
  bytes : IsBytesOf f.nbits f.value f.bytes

/-- Two fields have the same contents. -/
structure SameContents (f g : Field) : Prop where
  nbits : f.nbits = g.nbits
  nbytes : f.nbytes = g.nbytes
  value : f.value = g.value
  bytes : f.bytes = g.bytes

/-- Every field has the same contents, and the header is as long. -/
structure Copied (d s : Header) : Prop where
  fields : List.Forall₂ SameContents d.fields s.fields
  length : d.fields.any (·.vl) = true →
    d.nbytesPacket = ((Header.visible s.fields).map (·.nbits)).sum / 8

/-- The header `z` was made invalid and nothing else: `z'` differs in the flag and in `$valid$`. -/
structure Dropped (z z' : Header) : Prop where
  valid : z'.valid = false
  visible : Header.visible z'.fields = Header.visible z.fields
  typeId : z'.typeId = z.typeId
  metadata : z'.metadata = z.metadata
  nbytesPacket : z'.nbytesPacket = z.nbytesPacket

/-- A source that can be copied: if it is valid, its fields are whole and add up to bytes. -/
def Source (y : Header) : Prop :=
  y.isValid = true → (∀ f ∈ y.fields, Whole f) ∧ ((Header.visible y.fields).map (·.nbits)).sum % 8 = 0

/-- `x` is what `y` is. -/
def Is (x y : Header) : Prop := x.valid = y.isValid ∧ (y.isValid = true → Copied x y)

/-- Two headers are members of the same union. -/
def SameUnion (p : Phv) (a b : Nat) : Prop :=
  ∃ u i j, p.memb[a]? = some (some (u, i)) ∧ p.memb[b]? = some (some (u, j))

/-- Headers of the same type have the same fields, the last of which is `$valid$`; the constants of
a field are those of its kind. -/
structure Body (p : Phv) : Prop where
  memb : p.memb.length = p.headers.length
  types : ∀ x ∈ p.headers, ∀ y ∈ p.headers, x.typeId = y.typeId → x.fields.map sig = y.fields.map sig
  last : ∀ x ∈ p.headers, ∃ l : List Sig, (∀ t ∈ l, t.hidden = false) ∧ x.fields.map sig = l ++ [validSig]
  shape : ∀ x ∈ p.headers, ∀ f ∈ x.fields, f.vl = false → f.Shape

/-- A vector of headers as it arises: the unions name their valid members (C33). -/
structure Sound (p : Phv) : Prop where
  inv : Phv.Inv p
  body : Body p

end Bm.Assign.Spec
