import Verif.Spec.Bits

/-!
# What a P4 integer field holds

A field has a width, a signedness and possibly saturates.  It holds an integer in its range; its bits
are the two's complement form of that integer.
-/

namespace Bm.Spec

/-- The `w` bits of the two's complement form of an integer. -/
def intBits (w : Nat) (v : Int) : List Bool := natBits w (v % 2 ^ w).toNat

/-- The bytes `l` are those bits, right aligned, with zero bits in front. -/
def IsBytesOf (w : Nat) (v : Int) (l : List UInt8) : Prop :=
  l.length = (w + 7) / 8 ∧
    bytesBits l = List.replicate (8 * l.length - w) false ++ intBits w v

/-- A kind of integer field. -/
structure Kind where
  w : Nat
  signed : Bool
  saturating : Bool
  deriving DecidableEq, Repr

/-- Smallest value. -/
def Kind.lowest (k : Kind) : Int := if k.signed then -2 ^ (k.w - 1) else 0

/-- Largest value. -/
def Kind.highest (k : Kind) : Int := if k.signed then 2 ^ (k.w - 1) - 1 else 2 ^ k.w - 1

/-- In range. -/
def Kind.Fits (k : Kind) (v : Int) : Prop := k.lowest ≤ v ∧ v ≤ k.highest

/-- `r` is what a field of kind `k` holds once `v` is assigned to it: the nearest value in range if it
saturates, the value in range that is congruent to `v` otherwise. -/
def Kind.Assigned (k : Kind) (v r : Int) : Prop :=
  if k.saturating then
    (v < k.lowest → r = k.lowest) ∧ (v > k.highest → r = k.highest) ∧ (k.Fits v → r = v)
  else k.Fits r ∧ (2 ^ k.w : Int) ∣ v - r

end Bm.Spec
