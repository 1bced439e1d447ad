import Verif.Spec.Bits
import Verif.Model.ParseVSet

/-! # What a value set contains and which keys it matches -/

namespace Bm.VSet

open Bm.Spec

/-- The values in a value set after a history of requests, starting from an empty set. -/
def current (start : List Bytes) : List Op → List Bytes
  | [] => start
  | .add v :: ops => current (v :: start) ops
  | .remove v :: ops => current (start.filter (· ≠ v)) ops
  | .clear :: ops => current [] ops

/-- A byte string made of fields of the given widths, each on a whole number of bytes, right-justified
and padded with zero bits. -/
def Laid : List Nat → Bytes → Prop
  | [], k => k = []
  | w :: ws, k =>
    (w + 7) / 8 ≤ k.length ∧
    (bytesBits (k.take ((w + 7) / 8))).take (8 * ((w + 7) / 8) - w) =
      List.replicate (8 * ((w + 7) / 8) - w) false ∧
    Laid ws (k.drop ((w + 7) / 8))

/-- The bits of the fields, without the padding. -/
def keyBits : List Nat → Bytes → List Bool
  | [], _ => []
  | w :: ws, k =>
    (bytesBits (k.take ((w + 7) / 8))).drop (8 * ((w + 7) / 8) - w) ++ keyBits ws (k.drop ((w + 7) / 8))

/-- Two bit strings are equal in the positions selected by the mask (everywhere without a mask). -/
def Under (mask : Option (List Bool)) (a b : List Bool) : Prop :=
  match mask with
  | none => a = b
  | some m => ∀ i : Nat, m[i]? = some true → a[i]? = b[i]?

/-- The values of requests. -/
def opVals : List Op → List Bytes
  | [] => []
  | .add v :: ops => v :: opVals ops
  | .remove v :: ops => v :: opVals ops
  | .clear :: ops => opVals ops

/-- No value is removed while the set contains another value that the case cannot distinguish from
it. -/
def Clean (bits : Nat) (mask : Option (List Bool)) (start : List Bytes) : List Op → Prop
  | [] => True
  | .add v :: ops => Clean bits mask (v :: start) ops
  | .remove v :: ops =>
    (∀ u ∈ start, Under mask (keyBits [bits] u) (keyBits [bits] v) → u = v) ∧
      Clean bits mask (start.filter (· ≠ v)) ops
  | .clear :: ops => Clean bits mask [] ops

end Bm.VSet
