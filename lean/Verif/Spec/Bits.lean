/-!
# Bit strings

Bit strings are lists of booleans, most significant (first transmitted) bit first.
-/

namespace Bm.Spec

/-- The `w` least significant bits of `n`, most significant first. -/
def natBits : Nat → Nat → List Bool
  | 0, _ => []
  | w + 1, n => n.testBit w :: natBits w n

/-- The number written by a bit string. -/
def bitsNat : List Bool → Nat
  | [] => 0
  | b :: bs => (if b then 2 ^ bs.length else 0) + bitsNat bs

/-- The eight bits of a byte. -/
def byteBits (b : UInt8) : List Bool := natBits 8 b.toNat

/-- The bits of a byte string. -/
def bytesBits (l : List UInt8) : List Bool := l.flatMap byteBits

end Bm.Spec
