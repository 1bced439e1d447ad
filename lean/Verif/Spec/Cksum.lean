import Verif.Model.LookupStructures

/-!
# The Internet checksum (RFC 1071)

The one's complement of the one's complement sum of the big-endian 16-bit words of the data, an odd
byte at the end being padded with a zero byte.
-/

namespace Bm.Cksum.Spec

/-- One's complement addition of 16-bit numbers: the carry is added back in. -/
def add (a b : Nat) : Nat := if a + b < 65536 then a + b else a + b - 65536 + 1

/-- The big-endian 16-bit words. -/
def words : Bytes → List Nat
  | [] => []
  | [a] => [256 * a.toNat]
  | a :: b :: bs => (256 * a.toNat + b.toNat) :: words bs

/-- The one's complement sum. -/
def sum (bs : Bytes) : Nat := (words bs).foldl add 0

/-- The checksum. -/
def checksum (bs : Bytes) : Nat := 65535 - sum bs

end Bm.Cksum.Spec
