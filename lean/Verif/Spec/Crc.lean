import Verif.Model.LookupStructures
import Mathlib.Algebra.Polynomial.Div
import Mathlib.Data.ZMod.Defs

/-!
# Cyclic redundancy checks as polynomial remainders

Polynomials over the field with two elements.  The message, as a bit string, is the polynomial with
these coefficients, first bit first.  For width `w`, generator `x^w + p` and initial value `i`, the
check value of a message `m` of `n` bits is the remainder of `m x^w + i x^n` divided by the generator.
-/

namespace Bm.Crc.Spec

open Polynomial

/-- A bit as an element of the field with two elements. -/
def bit (b : Bool) : ZMod 2 := if b then 1 else 0

/-- The polynomial whose coefficients are the bits of a word, bit `i` for `x^i`. -/
noncomputable def ofWord {w : Nat} (v : BitVec w) : (ZMod 2)[X] :=
  ∑ i ∈ Finset.range w, C (bit (v.getLsbD i)) * X ^ i

/-- The polynomial of a bit string, highest coefficient first. -/
noncomputable def ofBits : List Bool → (ZMod 2)[X]
  | [] => 0
  | b :: bs => C (bit b) * X ^ bs.length + ofBits bs

/-- The bits of a byte in the order of transmission: most significant first, or least significant
first if bytes are reflected. -/
def byteBits (reflected : Bool) (b : UInt8) : List Bool :=
  (List.range 8).map fun i => b.toNat.testBit (if reflected then i else 7 - i)

/-- The bits of a message in the order of transmission. -/
def bits (reflected : Bool) (bs : Bytes) : List Bool := bs.flatMap (byteBits reflected)

/-- The generator polynomial. -/
noncomputable def generator {w : Nat} (p : BitVec w) : (ZMod 2)[X] := X ^ w + ofWord p

/-- The remainder of a message. -/
noncomputable def remainder {w : Nat} (p i : BitVec w) (m : List Bool) : (ZMod 2)[X] :=
  (ofBits m * X ^ w + ofWord i * X ^ m.length) %ₘ generator p

/-- `r` is the check value: its bits are the coefficients of the remainder, in reverse order if the
result is reflected, xored with a constant. -/
def IsCrc {w : Nat} (p i x : BitVec w) (reflectIn reflectOut : Bool) (msg : Bytes) (r : BitVec w) :
    Prop :=
  ∀ k, k < w → bit (r.getLsbD k) =
    (remainder p i (bits reflectIn msg)).coeff (if reflectOut then w - 1 - k else k) +
      bit (x.getLsbD k)

end Bm.Crc.Spec
